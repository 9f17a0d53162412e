import Verif.Spec.NoiseRounded
import Mathlib.Data.Int.Log

/-!
# A rounding that meets the requirements on doubles

Rounding towards zero to 53 significant bits, with the spacing of the subnormal numbers
below `2^-1022`.
-/

namespace DPPIR.Noise
open DPPIR.Spec

/-- Exponent of the distance between the doubles around `x`. -/
noncomputable def gapExp (x : ℝ) : ℤ := max (Int.log 2 x - 52) (-1074)

/-- Distance between the doubles around `x`. -/
noncomputable def gap (x : ℝ) : ℝ := (2 : ℝ) ^ gapExp x

/-- Rounding down, for `x ≥ 0`. -/
noncomputable def down (x : ℝ) : ℝ := ⌊x / gap x⌋₊ * gap x

/-- Rounding towards zero. -/
noncomputable def truncate (x : ℝ) : ℝ := if 0 ≤ x then down x else -down (-x)

/-- Doubles rounded towards zero, with a logarithm rounded towards zero. -/
noncomputable def truncOps : FloatOps := ⟨truncate, fun x => truncate (Real.log x)⟩

theorem gap_pos (x : ℝ) : 0 < gap x := zpow_pos (by norm_num) _

theorem down_le {x : ℝ} (hx : 0 ≤ x) : down x ≤ x := by
  unfold down
  have := Nat.floor_le (div_nonneg hx (gap_pos x).le)
  calc (⌊x / gap x⌋₊ : ℝ) * gap x ≤ x / gap x * gap x := mul_le_mul_of_nonneg_right this (gap_pos x).le
    _ = x := div_mul_cancel₀ _ (gap_pos x).ne'

theorem lt_down (x : ℝ) : x - gap x < down x := by
  unfold down
  have := Nat.lt_floor_add_one (x / gap x)
  have h : x / gap x * gap x < (⌊x / gap x⌋₊ + 1 : ℝ) * gap x := mul_lt_mul_of_pos_right this (gap_pos x)
  rw [div_mul_cancel₀ _ (gap_pos x).ne'] at h
  linarith

theorem down_nonneg (x : ℝ) : 0 ≤ down x := mul_nonneg (Nat.cast_nonneg _) (gap_pos x).le

theorem down_zero : down 0 = 0 := by unfold down; simp

/-- Multiples of the gap are left alone. -/
theorem down_mul {x : ℝ} (n : ℕ) (h : x = n * gap x) : down x = x := by
  unfold down
  have : x / gap x = n := by rw [div_eq_iff (gap_pos x).ne']; exact h
  rw [this, Nat.floor_natCast]
  exact h.symm

/-- `n * 2^k` with `n ≤ 2^53` is a double. -/
theorem down_double (n : ℕ) (hn : n ≤ 2 ^ 53) (k : ℤ) (hk : -1074 ≤ k) : down (n * (2 : ℝ) ^ k) = n * (2 : ℝ) ^ k := by
  rcases Nat.eq_zero_or_pos n with rfl | hn0
  · simp [down_zero]
  obtain ⟨x, hx⟩ : ∃ x : ℝ, x = n * (2 : ℝ) ^ k := ⟨_, rfl⟩
  have h2 : (0 : ℝ) < 2 ^ k := zpow_pos (by norm_num) _
  have hn1 : (0 : ℝ) < n := by exact_mod_cast hn0
  have hx0 : 0 < x := by rw [hx]; positivity
  rw [← hx]
  have hlow : (2 : ℝ) ^ Int.log 2 x ≤ x := by
    have := Int.zpow_log_le_self (b := 2) (r := x) (by norm_num) hx0
    exact_mod_cast this
  by_cases hle : gapExp x ≤ k
  · obtain ⟨m, hm⟩ := Int.le.dest hle
    refine down_mul (n * 2 ^ m) ?_
    have e : (2 : ℝ) ^ k = gap x * 2 ^ m := by
      unfold gap
      rw [← hm, zpow_add₀ (by norm_num), zpow_natCast]
    calc x = n * (gap x * 2 ^ m) := by rw [← e]; exact hx
      _ = _ := by push_cast; ring
  · have hg : gapExp x = Int.log 2 x - 52 := by
      unfold gapExp at hle ⊢
      rw [max_eq_left]
      by_contra hlt
      rw [max_eq_right (by omega)] at hle
      omega
    rw [hg] at hle
    have h53 : (2 : ℝ) ^ (k + 53) ≤ x := le_trans (zpow_le_zpow_right₀ (by norm_num) (by omega)) hlow
    rw [hx, zpow_add₀ (by norm_num), mul_comm (n : ℝ)] at h53
    have h53' := le_of_mul_le_mul_left h53 h2
    have hn53 : 2 ^ 53 ≤ n := by
      have e : ((2 : ℝ) ^ (53 : ℤ)) = ((2 ^ 53 : ℕ) : ℝ) := by norm_num
      rw [e] at h53'
      exact_mod_cast h53'
    have hne : n = 2 ^ 53 := le_antisymm hn hn53
    have hxe : x = (2 : ℝ) ^ (k + 53) := by
      rw [hx, hne, zpow_add₀ (by norm_num), mul_comm]
      norm_num
    have hlog : Int.log 2 x = k + 53 := by
      rw [hxe]
      have := Int.log_zpow (R := ℝ) (b := 2) (by norm_num) (k + 53)
      exact_mod_cast this
    refine down_mul (2 ^ 52) ?_
    unfold gap
    rw [hg, hlog, hxe, show k + 53 = 52 + (k + 53 - 52) by ring, zpow_add₀ (by norm_num)]
    norm_num

/-- The rounded number as a multiple of the gap. -/
theorem down_form {x : ℝ} (hx : 0 < x) : ∃ (n : ℕ) (k : ℤ), n ≤ 2 ^ 53 ∧ -1074 ≤ k ∧ down x = n * (2 : ℝ) ^ k := by
  refine ⟨⌊x / gap x⌋₊, gapExp x, ?_, le_max_right _ _, rfl⟩
  refine Nat.floor_le_of_le ?_
  rw [div_le_iff₀ (gap_pos x)]
  have hup : x < (2 : ℝ) ^ (Int.log 2 x + 1) := by
    have := Int.lt_zpow_succ_log_self (b := 2) (by norm_num) x
    exact_mod_cast this
  have h1 : Int.log 2 x + 1 ≤ 53 + gapExp x := by
    have := le_max_left (Int.log 2 x - 52) (-1074)
    unfold gapExp
    omega
  calc x ≤ (2 : ℝ) ^ (Int.log 2 x + 1) := hup.le
    _ ≤ (2 : ℝ) ^ (53 + gapExp x) := zpow_le_zpow_right₀ (by norm_num) h1
    _ = _ := by
      rw [zpow_add₀ (by norm_num)]
      unfold gap
      norm_num

theorem down_idem {x : ℝ} (hx : 0 ≤ x) : down (down x) = down x := by
  rcases hx.eq_or_lt with rfl | hx
  · rw [down_zero, down_zero]
  · obtain ⟨n, k, h1, h2, h3⟩ := down_form hx
    rw [h3]
    exact down_double n h1 k h2

theorem down_twice {x : ℝ} (hx : 0 ≤ x) : down (2 * down x) = 2 * down x := by
  rcases hx.eq_or_lt with rfl | hx
  · simp [down_zero]
  · obtain ⟨n, k, h1, h2, h3⟩ := down_form hx
    have : 2 * down x = n * (2 : ℝ) ^ (k + 1) := by
      rw [h3, zpow_add₀ (by norm_num)]
      ring
    rw [this]
    exact down_double n h1 (k + 1) (by omega)

theorem down_mono {x y : ℝ} (hx : 0 ≤ x) (h : x ≤ y) : down x ≤ down y := by
  rcases hx.eq_or_lt with rfl | hx0
  · rw [down_zero]
    exact down_nonneg y
  have hl : Int.log 2 x ≤ Int.log 2 y := Int.log_mono_right hx0 h
  by_cases he : gapExp x = gapExp y
  · unfold down gap
    rw [he]
    refine mul_le_mul_of_nonneg_right ?_ (zpow_pos (by norm_num) _).le
    have : x / (2 : ℝ) ^ gapExp y ≤ y / (2 : ℝ) ^ gapExp y := div_le_div_of_nonneg_right h (zpow_pos (by norm_num) _).le
    exact_mod_cast Nat.floor_le_floor this
  · have h1 : gapExp y = Int.log 2 y - 52 ∧ Int.log 2 x < Int.log 2 y := by
      unfold gapExp at he ⊢
      omega
    have hup : x < (2 : ℝ) ^ (Int.log 2 x + 1) := by
      have := Int.lt_zpow_succ_log_self (b := 2) (by norm_num) x
      exact_mod_cast this
    have hlow : (2 : ℝ) ^ Int.log 2 y ≤ y := by
      have := Int.zpow_log_le_self (b := 2) (r := y) (by norm_num) (hx0.trans_le h)
      exact_mod_cast this
    have hfl : 2 ^ 52 ≤ ⌊y / gap y⌋₊ := by
      refine Nat.le_floor ?_
      rw [le_div_iff₀ (gap_pos y)]
      unfold gap
      rw [h1.1]
      refine le_trans (le_of_eq ?_) hlow
      rw [show Int.log 2 y = 52 + (Int.log 2 y - 52) by ring, zpow_add₀ (by norm_num)]
      norm_num
    calc down x ≤ x := down_le hx
      _ ≤ (2 : ℝ) ^ (Int.log 2 x + 1) := hup.le
      _ ≤ (2 : ℝ) ^ Int.log 2 y := zpow_le_zpow_right₀ (by norm_num) (by omega)
      _ = (2 ^ 52 : ℕ) * gap y := by
        unfold gap
        rw [h1.1, show Int.log 2 y = 52 + (Int.log 2 y - 52) by ring, zpow_add₀ (by norm_num)]
        norm_num
      _ ≤ down y := mul_le_mul_of_nonneg_right (by exact_mod_cast hfl) (gap_pos y).le

theorem down_close {x : ℝ} (hx : 0 ≤ x) : |down x - x| ≤ (1 / 2) ^ 52 * x + (1 / 2) ^ 1074 := by
  have ht : (0 : ℝ) < (1 / 2) ^ 1074 := pow_pos (by norm_num) _
  have e : (2 : ℝ) ^ (-1074 : ℤ) = (1 / 2) ^ 1074 := by
    rw [zpow_neg, one_div, inv_pow]
    rfl
  generalize ((1 / 2 : ℝ)) ^ 1074 = tn at ht e ⊢
  rcases hx.eq_or_lt with rfl | hx0
  · rw [down_zero, sub_zero, abs_zero, mul_zero, zero_add]
    exact ht.le
  have h1 := down_le hx
  have h2 := lt_down x
  have h3 : gap x ≤ (1 / 2) ^ 52 * x + tn := by
    have hlow : (2 : ℝ) ^ Int.log 2 x ≤ x := by
      have := Int.zpow_log_le_self (b := 2) (r := x) (by norm_num) hx0
      exact_mod_cast this
    unfold gap gapExp
    rcases max_choice (Int.log 2 x - 52) (-1074) with h | h
    · rw [h, show Int.log 2 x - 52 = (-52) + Int.log 2 x by ring, zpow_add₀ (by norm_num)]
      have e : (2 : ℝ) ^ (-52 : ℤ) = (1 / 2) ^ 52 := by norm_num
      rw [e]
      have := mul_le_mul_of_nonneg_left hlow (show (0 : ℝ) ≤ (1 / 2) ^ 52 by positivity)
      linarith
    · rw [h, e]
      have : (0 : ℝ) ≤ (1 / 2) ^ 52 * x := by positivity
      linarith
  rw [abs_le]
  constructor <;> linarith

theorem truncate_nonneg {x : ℝ} (h : 0 ≤ x) : truncate x = down x := if_pos h

theorem truncate_neg (x : ℝ) : truncate (-x) = -truncate x := by
  unfold truncate
  rcases lt_trichotomy x 0 with h | h | h
  · rw [if_pos (by linarith), if_neg (by linarith), neg_neg]
  · subst h
    simp [down_zero]
  · rw [if_neg (by linarith), if_pos h.le, neg_neg]

theorem truncate_of_neg {x : ℝ} (h : x < 0) : truncate x = -down (-x) := if_neg (by linarith)

theorem truncate_close (x : ℝ) : |truncate x - x| ≤ (1 / 2) ^ 52 * |x| + (1 / 2) ^ 1074 := by
  rcases le_or_gt 0 x with h | h
  · rw [truncate_nonneg h, abs_of_nonneg h]
    exact down_close h
  · rw [truncate_of_neg h, abs_of_neg h, show -down (-x) - x = -(down (-x) - -x) by ring, abs_neg]
    exact down_close (by linarith)

/-- The logarithm of a double other than 1 is not too small. -/
theorem log_away {x : ℝ} (hx : 0 < x) (hxr : truncate x = x) (h1 : x ≠ 1) : (1 / 2) ^ 54 ≤ |Real.log x| := by
  have hge : 1 - 1 / x ≤ Real.log x := by
    have := Real.one_sub_inv_le_log_of_pos hx
    rwa [one_div]
  have hle := Real.log_le_sub_one_of_pos hx
  by_cases hnear : 1 / 2 ≤ x ∧ x < 2
  · have hlog : Int.log 2 x = -1 ∨ Int.log 2 x = 0 := by
      have h2 : (-1 : ℤ) ≤ Int.log 2 x := by
        rw [← Int.zpow_le_iff_le_log (by norm_num) hx]
        norm_num
        linarith [hnear.1]
      have h3 : Int.log 2 x < 1 := by
        rw [← Int.lt_zpow_iff_log_lt (by norm_num) hx]
        norm_num
        exact hnear.2
      omega
    have hform : ∃ n : ℕ, x = n * (1 / 2) ^ 53 := by
      rw [truncate_nonneg hx.le] at hxr
      unfold down gap gapExp at hxr
      rcases hlog with h | h
      · refine ⟨⌊x / 2 ^ max (Int.log 2 x - 52) (-1074)⌋₊, ?_⟩
        refine hxr.symm.trans ?_
        rw [h]
        norm_num
      · refine ⟨⌊x / 2 ^ max (Int.log 2 x - 52) (-1074)⌋₊ * 2, ?_⟩
        refine hxr.symm.trans ?_
        rw [h]
        push_cast
        norm_num
        ring
    obtain ⟨n, hn⟩ := hform
    have hn' : (n : ℝ) = x * 2 ^ 53 := by
      rw [hn, mul_assoc, ← mul_pow]
      norm_num
    rcases lt_or_gt_of_ne h1 with hlt | hgt
    · have h2 : n + 1 ≤ 2 ^ 53 := by
        have : (n : ℝ) < (2 ^ 53 : ℕ) := by
          rw [hn']
          push_cast
          linarith
        have : n < 2 ^ 53 := by exact_mod_cast this
        omega
      have h3 : (n : ℝ) + 1 ≤ 2 ^ 53 := by exact_mod_cast h2
      rw [abs_of_neg (by linarith)]
      have : x ≤ 1 - (1 / 2) ^ 53 := by
        rw [hn'] at h3
        norm_num
        linarith
      norm_num at this ⊢
      linarith
    · have h2 : 2 ^ 53 + 1 ≤ n := by
        have : ((2 ^ 53 : ℕ) : ℝ) < n := by
          rw [hn']
          push_cast
          linarith
        have : 2 ^ 53 < n := by exact_mod_cast this
        omega
      have h3 : (2 : ℝ) ^ 53 + 1 ≤ n := by exact_mod_cast h2
      have h4 : 1 + (1 / 2) ^ 53 ≤ x := by
        rw [hn'] at h3
        norm_num
        linarith
      have h5 : (x - 1) / 2 ≤ 1 - 1 / x := by
        have : 1 - 1 / x = (x - 1) / x := by field_simp
        rw [this]
        exact div_le_div_of_nonneg_left (by linarith) hx hnear.2.le
      rw [abs_of_nonneg (by linarith)]
      norm_num at h4 ⊢
      linarith
  · rw [not_and_or, not_le, not_lt] at hnear
    rcases hnear with h | h
    · rw [abs_of_neg (by linarith)]
      norm_num
      linarith
    · have : 1 / x ≤ 1 / 2 := one_div_le_one_div_of_le (by norm_num) h
      rw [abs_of_nonneg (by linarith)]
      norm_num
      linarith

/-- Rounding towards zero is a rounding to doubles. -/
theorem truncOps_isDouble : IsDouble truncOps where
  mono := by
    intro x y h
    show truncate x ≤ truncate y
    rcases le_or_gt 0 x with hx | hx
    · rw [truncate_nonneg hx, truncate_nonneg (hx.trans h)]
      exact down_mono hx h
    · rw [truncate_of_neg hx]
      rcases le_or_gt 0 y with hy | hy
      · rw [truncate_nonneg hy]
        linarith [down_nonneg (-x), down_nonneg y]
      · rw [truncate_of_neg hy]
        linarith [down_mono (show 0 ≤ -y by linarith) (show -y ≤ -x by linarith)]
  odd := truncate_neg
  idem := by
    intro x
    show truncate (truncate x) = truncate x
    rcases le_or_gt 0 x with hx | hx
    · rw [truncate_nonneg hx, truncate_nonneg (down_nonneg x), down_idem hx]
    · rw [truncate_of_neg hx, truncate_neg, truncate_nonneg (down_nonneg _), down_idem (by linarith)]
  nat := by
    intro n hn
    show truncate n = n
    rw [truncate_nonneg (Nat.cast_nonneg n)]
    have := down_double n hn 0 (by norm_num)
    simpa using this
  half := by
    show truncate (1 / 2) = 1 / 2
    rw [truncate_nonneg (by norm_num)]
    have := down_double 1 (by norm_num) (-1) (by norm_num)
    norm_num at this ⊢
    exact this
  twice := by
    intro x
    show truncate (2 * truncate x) = 2 * truncate x
    rcases le_or_gt 0 x with hx | hx
    · rw [truncate_nonneg hx, truncate_nonneg (by linarith [down_nonneg x]), down_twice hx]
    · rw [truncate_of_neg hx, mul_neg, truncate_neg, truncate_nonneg (by linarith [down_nonneg (-x)]), down_twice (by linarith)]
  close := truncate_close
  log := by
    intro x hx hxr
    show |truncate (Real.log x) - Real.log x| ≤ _
    rcases eq_or_ne x 1 with rfl | h1
    · rw [Real.log_one, truncate_nonneg le_rfl, down_zero]
      simp
    have h2 := truncate_close (Real.log x)
    have h3 := log_away hx hxr h1
    have h4 : ((1 / 2 : ℝ)) ^ 1074 ≤ (1 / 2) ^ 52 * (1 / 2) ^ 54 := by
      rw [← pow_add]
      exact pow_le_pow_of_le_one (by norm_num) (by norm_num) (by norm_num)
    generalize ((1 / 2 : ℝ)) ^ 1074 = tn at h2 h4
    have h5 : ((1 / 2 : ℝ)) ^ 51 = 2 * (1 / 2) ^ 52 := by norm_num
    rw [h5]
    have h6 := mul_le_mul_of_nonneg_left h3 (show (0 : ℝ) ≤ (1 / 2) ^ 52 by positivity)
    linarith

end DPPIR.Noise
