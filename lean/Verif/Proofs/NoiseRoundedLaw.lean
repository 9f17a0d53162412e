import Verif.Proofs.NoiseRounded
import Verif.Proofs.NoiseLaw

/-!
# The law of the sample in double arithmetic
-/

open MeasureTheory

namespace DPPIR.Noise
open DPPIR.Spec Dbl

theorem cast_max : ((2147483647 : ℕ) : ℝ) = 2 ^ 31 - 1 := by norm_num

section
variable {A : FloatOps} (hA : IsDouble A)
include hA

theorem randUniform_eq {r : ℕ} (hr : r < 2 ^ 31) : randUniform A r = fin (A.rnd (r / (2 ^ 31 - 1))) := by
  unfold randUniform
  have h1 := hA.nat r (by omega)
  have h2 := hA.nat 2147483647 (by norm_num)
  rw [cast_max] at h2
  rw [h1, h2]
  show (if (2 ^ 31 - 1 : ℝ) = 0 then _ else _) = _
  rw [if_neg (by norm_num)]

theorem draw_range {r : ℕ} (hr : r < 2 ^ 31) : 0 ≤ (r : ℝ) / (2 ^ 31 - 1) ∧ (r : ℝ) / (2 ^ 31 - 1) ≤ 1 := by
  have hM : (0 : ℝ) < 2 ^ 31 - 1 := by norm_num
  refine ⟨by positivity, ?_⟩
  rw [div_le_one hM, ← cast_max]
  exact_mod_cast (by omega : r ≤ 2147483647)

/-- The sign is a fair coin. -/
theorem sign_iff {r : ℕ} (hr : r < 2 ^ 31) : lt (randUniform A r) (fin (1 / 2)) ↔ r < 2 ^ 30 := by
  rw [randUniform_eq hA hr]
  show A.rnd _ < 1 / 2 ↔ _
  have hM : (0 : ℝ) < 2 ^ 31 - 1 := by norm_num
  constructor
  · intro h
    by_contra h1
    have h2 : (1 / 2 : ℝ) ≤ r / (2 ^ 31 - 1) := by
      rw [le_div_iff₀ hM]
      have : ((2 ^ 30 : ℕ) : ℝ) ≤ r := by exact_mod_cast not_lt.1 h1
      push_cast at this
      linarith
    have := hA.mono h2
    rw [hA.half] at this
    linarith
  · intro h
    have h1 : (r : ℝ) ≤ 2 ^ 30 - 1 := by
      have h2 : r ≤ 1073741823 := by omega
      have : (r : ℝ) ≤ (1073741823 : ℕ) := by exact_mod_cast h2
      norm_num at this ⊢
      exact this
    have h2 : (r : ℝ) / (2 ^ 31 - 1) ≤ 1 / 2 - 1 / 2 ^ 33 := by
      rw [div_le_iff₀ hM]
      refine le_trans h1 ?_
      norm_num
    have h3 := rnd_close hA ((r : ℝ) / (2 ^ 31 - 1))
    obtain ⟨h4, h5⟩ := draw_range hA hr
    rw [abs_of_nonneg h4, abs_le] at h3
    have hu := ulp_pos
    have hul : ulp ≤ 1 / 2 ^ 40 := by unfold ulp; norm_num
    have ht : tiny ≤ ulp / 1024 := by
      have := tiny_le
      have := ulp_le
      nlinarith
    have h6 : ulp * ((r : ℝ) / (2 ^ 31 - 1)) ≤ ulp * 1 := mul_le_mul_of_nonneg_left h5 hu.le
    have h7 : (1 : ℝ) / 2 ^ 40 * 2 < 1 / 2 ^ 33 := by norm_num
    linarith [h3.2]

end

theorem floor_ge {z w : ℝ} (hz : z ≤ w) {k : ℕ} (hk : 1 ≤ k) : k ≤ ⌊max 0 z⌋.toNat ↔ (k : ℝ) ≤ z := by
  have h0 : 0 ≤ max 0 z := le_max_left _ _
  have e : ⌊max 0 z⌋.toNat = ⌊max 0 z⌋₊ := rfl
  rw [e, Nat.le_floor_iff h0]
  have hk' : (1 : ℝ) ≤ k := by exact_mod_cast hk
  constructor
  · intro h
    rcases le_total 0 z with h1 | h1
    · rwa [max_eq_right h1] at h
    · rw [max_eq_left h1] at h; linarith
  · intro h
    exact le_trans h (le_max_right _ _)

section
variable {A : FloatOps} (hA : IsDouble A) {b c : ℝ} (hb0 : 0 < b) (hbr : A.rnd b = b) (hbt : tiny ≤ ulp * b) (hc0 : 0 ≤ c)
  (hcr : A.rnd c = c) (hc2 : 2 * c < 2 ^ 32) (dbg : Bool)
include hA hb0 hbr hbt hc0 hcr hc2

theorem rnd_twice : A.rnd (c + c) = 2 * c := by
  rw [← two_mul]
  have := hA.twice c
  rwa [hcr] at this

theorem rnd_sum_le {x : ℝ} (hx : x ≤ c) : A.rnd (c + x) ≤ 2 * c := by
  rw [← rnd_twice hA hb0 hbr hbt hc0 hcr hc2]
  exact hA.mono (by linarith)

/-- The value returned for a finite or infinite Laplace variable. -/
theorem clamp_fin {x : ℝ} : toU32 (floor (fmax (fin 0) (add A (fin c) (fmin (fin c) (fin x))))) = .ok ⌊max 0 (A.rnd (c + min c x))⌋.toNat := by
  rw [fmin_fin]
  show toU32 (floor (fmax (fin 0) (fin (A.rnd (c + min c x))))) = _
  rw [fmax_fin]
  have h1 : A.rnd (c + min c x) ≤ 2 * c := rnd_sum_le hA hb0 hbr hbt hc0 hcr hc2 (min_le_left _ _)
  exact toU32_floor_ok (le_max_left _ _) (max_lt (by norm_num) (by linarith))

theorem clamp_pinf : toU32 (floor (fmax (fin 0) (add A (fin c) (fmin (fin c) pinf)))) = .ok ⌊max 0 (2 * c)⌋.toNat := by
  have e : fmin (fin c) pinf = fin c := by
    unfold fmin
    simp only
    rw [if_neg (show ¬ lt pinf (fin c) from fun h => h)]
  rw [e]
  show toU32 (floor (fmax (fin 0) (fin (A.rnd (c + c))))) = _
  rw [rnd_twice hA hb0 hbr hbt hc0 hcr hc2, fmax_fin]
  exact toU32_floor_ok (le_max_left _ _) (max_lt (by norm_num) hc2)

omit hA hb0 hbr hbt hc0 hcr hc2 in
theorem clamp_ninf : toU32 (floor (fmax (fin 0) (add A (fin c) (fmin (fin c) ninf)))) = .ok 0 := by
  have e : fmin (fin c) ninf = ninf := by
    unfold fmin
    simp only
    rw [if_pos (show lt ninf (fin c) from trivial)]
  rw [e]
  have e2 : fmax (fin 0) (add A (fin c) ninf) = fin 0 := by
    show fmax (fin 0) ninf = _
    unfold fmax
    simp only
    rw [if_neg (show ¬ lt (fin 0) ninf from fun h => h)]
  rw [e2, toU32_floor_ok (le_refl _) (by norm_num)]
  simp

/-- The computed `1 - 2 * abs(u - 0.5)` of a draw. -/
noncomputable def folded (A : FloatOps) (r : ℕ) : ℝ := foldedOf A (A.rnd (r / (2 ^ 31 - 1)))

omit hb0 hbr hbt hc0 hcr hc2 in
theorem folded_near {r : ℕ} (hr : r < 2 ^ 31) : |folded A r - fold r| ≤ 10 * ulp := by
  obtain ⟨h0, h1⟩ := draw_range hA hr
  exact folded_close hA h0 h1

omit hb0 hbr hbt hc0 hcr hc2 in
theorem folded_cases {r : ℕ} (hr : r < 2 ^ 31) : (folded A r = 0 ∧ fold r = 0) ∨ (0 < folded A r ∧ folded A r ≤ 1) := by
  by_cases h0 : r = 0
  · left
    unfold folded fold
    rw [h0]
    norm_num
    rw [rnd_zero hA, folded_zero hA]
  by_cases h1 : r = 2 ^ 31 - 1
  · left
    have e : (r : ℝ) / (2 ^ 31 - 1) = 1 := by
      rw [h1]
      norm_num
    unfold folded fold
    rw [e, rnd_one hA, folded_one hA]
    norm_num
  · right
    refine ⟨?_, folded_le_one hA _⟩
    have h2 := folded_near hA hr
    rw [abs_le] at h2
    have h3 : 1 / 2 ^ 31 < fold r := by
      rw [← not_le, fold_le_iff hr]
      rintro (h | h)
      · have : (1 : ℝ) ≤ r := by exact_mod_cast Nat.one_le_iff_ne_zero.2 h0
        norm_num at h
        linarith
      · have : (r : ℝ) ≤ (2147483646 : ℕ) := by exact_mod_cast (by omega : r ≤ 2147483646)
        have h5 : ((2147483646 : ℕ) : ℝ) = 2147483646 := by norm_num
        rw [h5] at this
        norm_num at h
        linarith
    have hul : 10 * ulp ≤ 1 / 2 ^ 40 := by unfold ulp; norm_num
    have h7 : (1 : ℝ) / 2 ^ 40 < 1 / 2 ^ 31 := by norm_num
    linarith [h2.1]

/-- Draws for which a variable above the mean gives at least `k`. -/
def Above (A : FloatOps) (b c : ℝ) (k u : ℕ) : Prop := folded A u = 0 ∨ (k : ℝ) ≤ A.rnd (c + min c (sizeOf A b (folded A u)))

/-- Draws for which a variable below the mean gives less than `k`. -/
def Under (A : FloatOps) (b c : ℝ) (k u : ℕ) : Prop := folded A u = 0 ∨ A.rnd (c + -sizeOf A b (folded A u)) < k

theorem sample_ge {v u k : ℕ} (hv : v < 2 ^ 31) (hu : u < 2 ^ 31) (hk : 1 ≤ k) (hk2 : (k : ℝ) ≤ 2 * c) :
    k ≤ codeSample A ⟨dbg, fin b, fin c⟩ v u ↔ (2 ^ 30 ≤ v ∧ Above A b c k u) ∨ (v < 2 ^ 30 ∧ ¬ Under A b c k u) := by
  have hs := sign_iff hA hv
  unfold codeSample Dist.sampleReal laplace
  simp only
  rw [randUniform_eq hA hu]
  rcases folded_cases hA hu with ⟨h0, -⟩ | ⟨h0, h1⟩
  · have hlap := laplaceExpr_inf hA (y := A.rnd (u / (2 ^ 31 - 1))) hbr hb0 h0
    by_cases h : v < 2 ^ 30
    · rw [if_pos (hs.2 h), hlap.2, clamp_ninf]
      simp only
      constructor
      · intro h2; omega
      · rintro (⟨h2, -⟩ | ⟨-, h2⟩)
        · omega
        · exact absurd (Or.inl h0) h2
    · rw [if_neg (fun hh => h (hs.1 hh)), hlap.1, clamp_pinf hA hb0 hbr hbt hc0 hcr hc2]
      simp only
      rw [floor_ge (le_refl _) hk]
      exact ⟨fun _ => Or.inl ⟨by omega, Or.inl h0⟩, fun _ => hk2⟩
  · have hlap := laplaceExpr_pos hA (y := A.rnd (u / (2 ^ 31 - 1))) hbr h0
    by_cases h : v < 2 ^ 30
    · rw [if_pos (hs.2 h), hlap.2, clamp_fin hA hb0 hbr hbt hc0 hcr hc2]
      simp only
      have hsz := (size_close hA hbt hb0 h0 h1 (hA.idem _)).1
      rw [floor_ge (rnd_sum_le hA hb0 hbr hbt hc0 hcr hc2 (min_le_left _ _)) hk]
      have e : min c (-sizeOf A b (foldedOf A (A.rnd (u / (2 ^ 31 - 1))))) = -sizeOf A b (folded A u) := min_eq_right (by
        have : sizeOf A b (folded A u) = sizeOf A b (foldedOf A (A.rnd (u / (2 ^ 31 - 1)))) := rfl
        linarith)
      rw [e]
      unfold Under
      constructor
      · intro h2
        refine Or.inr ⟨h, ?_⟩
        rintro (h3 | h3) <;> linarith
      · rintro (⟨h2, -⟩ | ⟨-, h2⟩)
        · omega
        · exact not_lt.1 (fun h3 => h2 (Or.inr h3))
    · rw [if_neg (fun hh => h (hs.1 hh)), hlap.1, clamp_fin hA hb0 hbr hbt hc0 hcr hc2]
      simp only
      rw [floor_ge (rnd_sum_le hA hb0 hbr hbt hc0 hcr hc2 (min_le_left _ _)) hk]
      unfold Above
      constructor
      · intro h2
        exact Or.inl ⟨by omega, Or.inr h2⟩
      · rintro (⟨-, h2 | h2⟩ | ⟨h2, -⟩)
        · linarith
        · exact h2
        · omega

theorem sample_le (v u : ℕ) (hu : u < 2 ^ 31) : codeSample A ⟨dbg, fin b, fin c⟩ v u ≤ ⌊2 * c⌋.toNat := by
  have hmono : ∀ z, z ≤ 2 * c → ⌊max 0 z⌋.toNat ≤ ⌊2 * c⌋.toNat := fun z hz =>
    Int.toNat_le_toNat (Int.floor_le_floor (max_le (by linarith) hz))
  unfold codeSample Dist.sampleReal laplace
  simp only
  rw [randUniform_eq hA hu]
  rcases folded_cases hA hu with ⟨h0, -⟩ | ⟨h0, h1⟩
  · have hlap := laplaceExpr_inf hA (y := A.rnd (u / (2 ^ 31 - 1))) hbr hb0 h0
    split_ifs
    · rw [hlap.2, clamp_ninf]; exact Nat.zero_le _
    · rw [hlap.1, clamp_pinf hA hb0 hbr hbt hc0 hcr hc2]; exact hmono _ (le_refl _)
  · have hlap := laplaceExpr_pos hA (y := A.rnd (u / (2 ^ 31 - 1))) hbr h0
    split_ifs
    · rw [hlap.2, clamp_fin hA hb0 hbr hbt hc0 hcr hc2]; exact hmono _ (rnd_sum_le hA hb0 hbr hbt hc0 hcr hc2 (min_le_left _ _))
    · rw [hlap.1, clamp_fin hA hb0 hbr hbt hc0 hcr hc2]; exact hmono _ (rnd_sum_le hA hb0 hbr hbt hc0 hcr hc2 (min_le_left _ _))

omit hA hb0 hbr hbt hc0 hcr hc2 in
theorem slack_nonneg (hb0 : 0 < b) (hc0 : 0 ≤ c) : 0 ≤ slack b c := by
  have hu := ulp_pos
  have h1 : 0 ≤ c / b := by positivity
  have h2 := mul_nonneg hu.le h1
  unfold slack
  linarith

omit hbr hcr hc2 in
open Classical in
/-- Share of the draws above. -/
theorem above_share {k : ℕ} (hk : k ≤ 2 ^ 53) (hk1 : c < k) (hk2 : (k : ℝ) ≤ 2 * c) :
    |(((Finset.range (2 ^ 31)).filter (Above A b c k)).card : ℝ) / 2 ^ 31 - Real.exp (-((k - c) / b))| ≤ slack b c + 10 * ulp + 2 / 2 ^ 31 := by
  have hu := ulp_pos
  have hs := slack_nonneg hb0 hc0
  refine share_close (Real.exp_pos _) (Real.exp_le_one_iff.2 ?_) hs (by linarith) _ ?_ ?_
  · have : 0 ≤ (k - c) / b := div_nonneg (by linarith) hb0.le
    linarith
  · intro r hr h
    rcases folded_cases hA hr with ⟨h0, -⟩ | ⟨h0, h1⟩
    · exact Or.inl h0
    · have h2 := folded_near hA hr
      rw [abs_le] at h2
      exact Or.inr (plus_in hA hb0 hbt hc0 h0 h1 (hA.idem _) hk hk1 hk2 (by linarith [h2.2]))
  · intro r hr h
    rcases folded_cases hA hr with ⟨h0, hf⟩ | ⟨h0, h1⟩
    · rw [hf]
      exact add_nonneg (le_min zero_le_one (by positivity)) (by linarith)
    · have h2 := folded_near hA hr
      rw [abs_le] at h2
      rcases h with h | h
      · linarith
      · have := plus_out hA hb0 hbt hc0 h0 h1 (hA.idem _) hk2 h
        linarith [h2.1]

omit hbr hcr hc2 in
open Classical in
/-- Share of the draws below. -/
theorem under_share {k : ℕ} (hk0 : 1 ≤ k) (hk : k ≤ 2 ^ 53) (hk1 : (k : ℝ) ≤ c) :
    |(((Finset.range (2 ^ 31)).filter (Under A b c k)).card : ℝ) / 2 ^ 31 - Real.exp (-((c - k) / b))| ≤ slack b c + 10 * ulp + 2 / 2 ^ 31 := by
  have hu := ulp_pos
  have hs := slack_nonneg hb0 hc0
  refine share_close (Real.exp_pos _) (Real.exp_le_one_iff.2 ?_) hs (by linarith) _ ?_ ?_
  · have : 0 ≤ (c - k) / b := div_nonneg (by linarith) hb0.le
    linarith
  · intro r hr h
    rcases folded_cases hA hr with ⟨h0, -⟩ | ⟨h0, h1⟩
    · exact Or.inl h0
    · have h2 := folded_near hA hr
      rw [abs_le] at h2
      exact Or.inr (minus_in hA hb0 hbt hc0 h0 h1 (hA.idem _) hk0 hk1 (by linarith [h2.2]))
  · intro r hr h
    rcases folded_cases hA hr with ⟨h0, hf⟩ | ⟨h0, h1⟩
    · rw [hf]
      exact add_nonneg (le_min zero_le_one (by positivity)) (by linarith)
    · have h2 := folded_near hA hr
      rw [abs_le] at h2
      rcases h with h | h
      · linarith
      · have := minus_out hA hb0 hbt hc0 h0 h1 (hA.idem _) hk h
        linarith [h2.1]

end

end DPPIR.Noise
