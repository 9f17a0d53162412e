import Verif.Model.Noise
import Verif.Spec.Rounding
import Verif.Proofs.Base
import Mathlib.Tactic.Ring
import Mathlib.Tactic.Linarith
import Mathlib.Tactic.FieldSimp

/-!
# Helper lemmas for the noise module
-/

namespace DPPIR.Noise

theorem ceil_rnd {rnd : ℚ → ℚ} (h : IsDivRounding rnd) {n db : ℕ} (hn : 0 < n) (hn2 : n < 256) (hdb : db < 2 ^ 32) :
    ⌈rnd (db / n)⌉ = ((db + n - 1) / n : ℕ) := by
  obtain ⟨c, hc⟩ : ∃ c, c = (db + n - 1) / n := ⟨_, rfl⟩
  rw [← hc]
  have hdm := Nat.div_add_mod (db + n - 1) n
  have hm := Nat.mod_lt (db + n - 1) hn
  rw [← hc] at hdm
  have h1 : db ≤ n * c := by omega
  have h2 : n * c < db + n := by omega
  have hnq : (0 : ℚ) < n := by exact_mod_cast hn
  have hcb : c ≤ db := by
    rcases Nat.eq_zero_or_pos db with h0 | h0
    · subst h0
      by_contra hc0
      have : n * 1 ≤ n * c := Nat.mul_le_mul_left _ (by omega)
      omega
    · rw [hc]
      apply Nat.div_le_of_le_mul
      have : n * 1 ≤ n * db := Nat.mul_le_mul_left _ h0
      have h3 : db * 1 ≤ db * n := Nat.mul_le_mul_left _ hn
      obtain ⟨a, rfl⟩ : ∃ a, n = a + 1 := ⟨n - 1, by omega⟩
      have : (a + 1) * db = a * db + db := by ring
      have : a * 1 ≤ a * db := Nat.mul_le_mul_left _ h0
      omega
  have hup : rnd (db / n) ≤ c := by
    have e := h.exact (256 * c) (by omega)
    have e2 : (((256 * c : ℕ) : ℚ) / 256) = c := by push_cast; ring
    rw [e2] at e
    rw [← e]
    apply h.mono
    rw [div_le_iff₀ hnq]
    have : (db : ℚ) ≤ n * c := by exact_mod_cast h1
    linarith
  rw [Int.ceil_eq_iff]
  refine ⟨?_, by exact_mod_cast hup⟩
  rcases Nat.eq_zero_or_pos c with h0 | h0
  · subst h0
    have e := h.exact 0 (by omega)
    have h3 := h.mono (show ((0 : ℕ) : ℚ) / 256 ≤ db / n by
      simp only [Nat.cast_zero, zero_div]; exact div_nonneg (Nat.cast_nonneg _) hnq.le)
    rw [e] at h3
    simp only [Nat.cast_zero, zero_div] at h3
    simp only [Nat.cast_zero, Int.cast_zero]
    linarith
  · have e := h.exact (256 * (c - 1) + 1) (by omega)
    have e2 : (((256 * (c - 1) + 1 : ℕ) : ℚ) / 256) = (c : ℚ) - 1 + 1 / 256 := by
      push_cast [Nat.cast_sub h0]; ring
    rw [e2] at e
    have h3 := h.mono (show (c : ℚ) - 1 + 1 / 256 ≤ db / n by
      rw [le_div_iff₀ hnq]
      have hq : (n : ℚ) * c + 1 ≤ db + n := by exact_mod_cast h2
      have hn3 : (n : ℚ) ≤ 256 := by exact_mod_cast (by omega : n ≤ 256)
      nlinarith)
    rw [e] at h3
    push_cast
    linarith

theorem findRange_eq {rnd : ℚ → ℚ} (h : IsDivRounding rnd) (i n : BitVec 8) {db : ℕ} (hn : 0 < n.toNat)
    (hdb : db < 2 ^ 32) (hle : n.toNat ≤ db) :
    findRange rnd i n db = .ok (wrap32 (i.toNat * ((db + n.toNat - 1) / n.toNat)),
      if i.toNat + 1 = n.toNat then db
      else wrap32 (wrap32 (i.toNat * ((db + n.toNat - 1) / n.toNat)) + (db + n.toNat - 1) / n.toNat)) := by
  have hc := ceil_rnd h hn (by omega) hdb
  have hb : (db + n.toNat - 1) / n.toNat < 2 ^ 32 := by
    apply Nat.div_lt_of_lt_mul
    obtain ⟨a, ha⟩ : ∃ a, n.toNat = a + 1 := ⟨n.toNat - 1, by omega⟩
    rw [ha]
    have : (a + 1) * 2 ^ 32 = a * 2 ^ 32 + 2 ^ 32 := by ring
    have := n.isLt
    omega
  unfold findRange
  rw [if_pos hle]
  simp only [hc]
  rw [if_neg]
  · simp only [Int.toNat_natCast]
    by_cases hi : i.toNat + 1 = n.toNat
    · rw [if_pos hi, if_pos (by omega)]
    · rw [if_neg hi, if_neg (by omega)]
  · rintro (h1 | h1 | h1)
    · rw [h1] at hn; simp at hn
    · exact absurd h1 (not_lt.mpr (Int.natCast_nonneg _))
    · have : 2 ^ 32 ≤ (db + n.toNat - 1) / n.toNat := by exact_mod_cast h1
      omega

theorem fmax_fin (a b : ℝ) : Dbl.fmax (.fin a) (.fin b) = .fin (max a b) := by
  by_cases h : a < b
  · have : Dbl.lt (.fin a) (.fin b) := h
    simp only [Dbl.fmax, if_pos this, max_eq_right h.le]
  · have : ¬ Dbl.lt (.fin a) (.fin b) := h
    simp only [Dbl.fmax, if_neg this, max_eq_left (not_lt.mp h)]

theorem fmin_fin (a b : ℝ) : Dbl.fmin (.fin a) (.fin b) = .fin (min a b) := by
  by_cases h : b < a
  · have : Dbl.lt (.fin b) (.fin a) := h
    simp only [Dbl.fmin, if_pos this, min_eq_right h.le]
  · have : ¬ Dbl.lt (.fin b) (.fin a) := h
    simp only [Dbl.fmin, if_neg this, min_eq_left (not_lt.mp h)]

/-- The common expression in exact arithmetic, at a point where the logarithm is
finite. -/
theorem laplaceExpr_exact (b p sign : ℝ) (h : 0 < 1 - 2 * |p - 1 / 2|) :
    laplaceExpr .exact (.fin 0) (.fin b) (.fin p) sign = .fin (-(sign * b * Real.log (1 - 2 * |p - 1 / 2|))) := by
  have h2 : 0 < 1 + -(2 * |p + -(1 / 2)|) := by rw [← sub_eq_add_neg, ← sub_eq_add_neg]; exact h
  simp only [laplaceExpr, Dbl.sub, Dbl.add, Dbl.neg, Dbl.mul, Dbl.abs, Dbl.log, FloatOps.exact, id]
  rw [if_pos h2]
  simp only [Dbl.add, ← sub_eq_add_neg, zero_sub]

/-- The cutoff in exact arithmetic. -/
theorem fields_exact (e d : ℝ) (he : 0 < e) (hd0 : 0 < d) (hd1 : d ≤ 1) :
    fields .exact (.fin e) (.fin d) = ⟨false, .fin (2 / e), .fin (2 / e * Real.log (1 / d))⟩ := by
  unfold fields
  rw [if_neg (by simp only [Dbl.isZero]; rintro (h | h) <;> linarith)]
  have hspan : Dbl.div .exact (.fin 2) (.fin e) = .fin (2 / e) := by
    simp only [Dbl.div, FloatOps.exact, id]; rw [if_neg he.ne']
  have hprob : Dbl.div .exact (.fin d) (.fin 2) = .fin (d / 2) := by
    simp only [Dbl.div, FloatOps.exact, id]; rw [if_neg (by norm_num)]
  simp only [hspan, hprob]
  have habs : |d / 2 - 1 / 2| = 1 / 2 - d / 2 := by rw [abs_of_nonpos (by linarith)]; ring
  have hx : 1 - 2 * |d / 2 - 1 / 2| = d := by rw [habs]; ring
  unfold invCDF
  rw [if_neg (by simp only [Dbl.lt]; linarith), laplaceExpr_exact _ _ _ (by rw [hx]; exact hd0), hx]
  congr 2
  rw [Real.log_div one_ne_zero hd0.ne', Real.log_one]
  ring

end DPPIR.Noise
