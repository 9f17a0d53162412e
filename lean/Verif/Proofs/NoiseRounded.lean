import Verif.Spec.NoiseRounded
import Verif.Proofs.NoiseClose

/-!
# The sample in double arithmetic
-/

open MeasureTheory

namespace DPPIR.Noise
open DPPIR.Spec Dbl

/-- Relative rounding error. -/
noncomputable def ulp : ℝ := (1 / 2) ^ 52
/-- Absolute rounding error. -/
noncomputable def tiny : ℝ := (1 / 2) ^ 1074

theorem ulp_pos : 0 < ulp := by unfold ulp; positivity
theorem tiny_pos : 0 < tiny := by unfold tiny; positivity
theorem ulp_le : ulp ≤ 1 / 1024 := by unfold ulp; norm_num
theorem tiny_le : tiny ≤ ulp * ulp := by
  unfold tiny ulp
  rw [← pow_add]
  exact pow_le_pow_of_le_one (by norm_num) (by norm_num) (by norm_num)

section
variable {A : FloatOps} (hA : IsDouble A)
include hA

theorem rnd_zero : A.rnd 0 = 0 := by
  have := hA.nat 0 (by norm_num)
  exact_mod_cast this

theorem rnd_one : A.rnd 1 = 1 := by
  have := hA.nat 1 (by norm_num)
  exact_mod_cast this

theorem rnd_close (x : ℝ) : |A.rnd x - x| ≤ ulp * |x| + tiny := hA.close x

theorem rnd_nonneg {x : ℝ} (h : 0 ≤ x) : 0 ≤ A.rnd x := by
  have := hA.mono h
  rwa [rnd_zero hA] at this

/-- `1 - 2 * abs(x - 0.5)` for a double near `x`. -/
noncomputable def foldedOf (A : FloatOps) (x : ℝ) : ℝ := A.rnd (1 + -A.rnd (2 * |A.rnd (x + -(1 / 2))|))

/-- The computed `1 - 2 * abs(x - 0.5)` is off by at most ten units. -/
theorem folded_close {x : ℝ} (h0 : 0 ≤ x) (h1 : x ≤ 1) : |foldedOf A (A.rnd x) - (1 - 2 * |x - 1 / 2|)| ≤ 10 * ulp := by
  have hu := ulp_pos
  have hu1 := ulp_le
  have ht := tiny_pos
  have htl := tiny_le
  have htu : tiny ≤ ulp / 1024 := le_trans htl (by nlinarith)
  obtain ⟨y, hy⟩ : ∃ y, y = A.rnd x := ⟨_, rfl⟩
  have c1 : |y - x| ≤ ulp * 1 + ulp / 1024 := by
    rw [hy]
    refine le_trans (rnd_close hA x) (add_le_add (mul_le_mul_of_nonneg_left ?_ hu.le) htu)
    rw [abs_le]; constructor <;> linarith
  obtain ⟨d1, hd1⟩ : ∃ d1, d1 = A.rnd (y + -(1 / 2)) := ⟨_, rfl⟩
  have c2 : |d1 - (y + -(1 / 2))| ≤ ulp * (3 / 4) + ulp / 1024 := by
    rw [hd1]
    refine le_trans (rnd_close hA _) (add_le_add (mul_le_mul_of_nonneg_left ?_ hu.le) htu)
    rw [abs_le] at c1 ⊢; constructor <;> linarith [c1.1, c1.2]
  have c3 : |d1 - (x - 1 / 2)| ≤ 2 * ulp := by
    rw [abs_le] at c1 c2 ⊢
    constructor <;> linarith [c1.1, c1.2, c2.1, c2.2]
  have c4 : _root_.abs (|d1| - |x - 1 / 2|) ≤ 2 * ulp := le_trans (abs_abs_sub_abs_le_abs_sub _ _) c3
  have hx2 : |x - 1 / 2| ≤ 1 / 2 := by rw [abs_le]; constructor <;> linarith
  have hx3 := abs_nonneg (x - 1 / 2)
  obtain ⟨d2, hd2⟩ : ∃ d2, d2 = A.rnd (2 * |d1|) := ⟨_, rfl⟩
  have c5 : _root_.abs (d2 - 2 * |d1|) ≤ ulp * 2 + ulp / 1024 := by
    rw [hd2]
    refine le_trans (rnd_close hA _) (add_le_add (mul_le_mul_of_nonneg_left ?_ hu.le) htu)
    rw [abs_of_nonneg (by positivity)]
    rw [abs_le] at c4
    linarith [c4.1, c4.2]
  have c6 : _root_.abs (d2 - 2 * |x - 1 / 2|) ≤ 7 * ulp := by
    rw [abs_le] at c4 c5 ⊢
    constructor <;> linarith [c4.1, c4.2, c5.1, c5.2]
  have e : foldedOf A (A.rnd x) = A.rnd (1 + -d2) := by
    unfold foldedOf
    rw [← hy, ← hd1, ← hd2]
  rw [e]
  have c7 : |A.rnd (1 + -d2) - (1 + -d2)| ≤ ulp * 2 + ulp / 1024 := by
    refine le_trans (rnd_close hA _) (add_le_add (mul_le_mul_of_nonneg_left ?_ hu.le) htu)
    rw [abs_le] at c6 ⊢
    constructor <;> linarith [c6.1, c6.2]
  rw [abs_le] at c6 c7 ⊢
  constructor <;> linarith [c6.1, c6.2, c7.1, c7.2]

theorem folded_le_one (y : ℝ) : foldedOf A y ≤ 1 := by
  unfold foldedOf
  have h1 : 0 ≤ A.rnd (2 * |A.rnd (y + -(1 / 2))|) := rnd_nonneg hA (by positivity)
  have h2 := hA.mono (show 1 + -A.rnd (2 * |A.rnd (y + -(1 / 2))|) ≤ 1 by linarith)
  rwa [rnd_one hA] at h2

theorem folded_zero : foldedOf A 0 = 0 := by
  unfold foldedOf
  rw [zero_add, hA.odd, hA.half, abs_neg, abs_of_pos (by norm_num : (0 : ℝ) < 1 / 2), show (2 : ℝ) * (1 / 2) = 1 by norm_num, rnd_one hA,
    add_neg_cancel, rnd_zero hA]

theorem folded_one : foldedOf A 1 = 0 := by
  unfold foldedOf
  rw [show (1 : ℝ) + -(1 / 2) = 1 / 2 by norm_num, hA.half, abs_of_pos (by norm_num : (0 : ℝ) < 1 / 2),
    show (2 : ℝ) * (1 / 2) = 1 by norm_num, rnd_one hA, add_neg_cancel, rnd_zero hA]

/-- Magnitude of the computed Laplace variable. -/
noncomputable def sizeOf (A : FloatOps) (b p : ℝ) : ℝ := A.rnd (-(b * A.log p))

/-- The shared expression when the logarithm is finite. -/
theorem laplaceExpr_pos {b y : ℝ} (hb : A.rnd b = b) (hp : 0 < foldedOf A y) :
    laplaceExpr A (fin 0) (fin b) (fin y) 1 = fin (sizeOf A b (foldedOf A y)) ∧
      laplaceExpr A (fin 0) (fin b) (fin y) (-1) = fin (-sizeOf A b (foldedOf A y)) := by
  have hlog : log A (sub A (fin 1) (mul A (fin 2) (Dbl.abs (sub A (fin y) (fin (1 / 2)))))) = fin (A.log (foldedOf A y)) := by
    show (if 0 < foldedOf A y then _ else _) = _
    rw [if_pos hp]
    rfl
  unfold laplaceExpr
  rw [hlog]
  constructor
  · show fin (A.rnd (0 + -A.rnd (A.rnd (1 * b) * A.log (foldedOf A y)))) = _
    rw [one_mul, hb, zero_add, ← hA.odd, hA.idem]
    rfl
  · show fin (A.rnd (0 + -A.rnd (A.rnd (-1 * b) * A.log (foldedOf A y)))) = _
    rw [neg_one_mul, hA.odd b, hb, neg_mul, zero_add, hA.odd, hA.odd, hA.odd, hA.idem]
    unfold sizeOf
    rw [hA.odd]

/-- ... and when its argument is 0. -/
theorem laplaceExpr_inf {b y : ℝ} (hb : A.rnd b = b) (hb0 : 0 < b) (hp : foldedOf A y = 0) :
    laplaceExpr A (fin 0) (fin b) (fin y) 1 = pinf ∧ laplaceExpr A (fin 0) (fin b) (fin y) (-1) = ninf := by
  have hlog : log A (sub A (fin 1) (mul A (fin 2) (Dbl.abs (sub A (fin y) (fin (1 / 2)))))) = ninf := by
    show (if 0 < foldedOf A y then _ else if foldedOf A y = 0 then _ else _) = _
    rw [hp, if_neg (lt_irrefl _), if_pos rfl]
  unfold laplaceExpr
  rw [hlog]
  constructor
  · show sub A (fin 0) (Dbl.neg (scaleInf (A.rnd (1 * b)))) = _
    rw [one_mul, hb]
    unfold scaleInf
    rw [if_pos hb0]
    rfl
  · show sub A (fin 0) (Dbl.neg (scaleInf (A.rnd (-1 * b)))) = _
    rw [neg_one_mul, hA.odd, hb]
    unfold scaleInf
    rw [if_neg (by linarith), if_pos (by linarith)]
    rfl

/-- The magnitude is close to the exact one. -/
theorem size_close {b p : ℝ} (hb : tiny ≤ ulp * b) (hb0 : 0 < b) (hp0 : 0 < p) (hp1 : p ≤ 1) (hpr : A.rnd p = p) :
    0 ≤ sizeOf A b p ∧ |sizeOf A b p - b * -Real.log p| ≤ ulp * b * (4 * -Real.log p + 1) := by
  have hu := ulp_pos
  have hu1 := ulp_le
  have hl := hA.log p hp0 hpr
  have hlog : Real.log p ≤ 0 := Real.log_nonpos hp0.le hp1
  obtain ⟨l, hle⟩ : ∃ l, l = -Real.log p := ⟨_, rfl⟩
  have hl0 : 0 ≤ l := by linarith
  have e51 : ((1 : ℝ) / 2) ^ 51 = 2 * ulp := by unfold ulp; rw [pow_succ _ 51]; ring
  rw [e51, abs_of_nonpos hlog, ← hle, show Real.log p = -l by linarith, abs_le] at hl
  rw [← hle]
  have hg : A.log p ≤ 0 := by nlinarith [hl.2]
  have hn : 0 ≤ -(b * A.log p) := by nlinarith
  refine ⟨rnd_nonneg hA hn, ?_⟩
  have hc := rnd_close hA (-(b * A.log p))
  rw [abs_of_nonneg hn] at hc
  have h1 : -A.log p ≤ l * (1 + 2 * ulp) := by nlinarith [hl.1]
  have h2 : l * (1 - 2 * ulp) ≤ -A.log p := by nlinarith [hl.2]
  have h3 : b * -A.log p ≤ b * (l * (1 + 2 * ulp)) := mul_le_mul_of_nonneg_left h1 hb0.le
  have h4 : b * (l * (1 - 2 * ulp)) ≤ b * -A.log p := mul_le_mul_of_nonneg_left h2 hb0.le
  have h5 : ulp * (b * -A.log p) ≤ ulp * (b * (l * (1 + 2 * ulp))) := mul_le_mul_of_nonneg_left h3 hu.le
  have h6 : ulp * (b * (l * (1 + 2 * ulp))) ≤ 2 * (ulp * (b * l)) := by
    have : 0 ≤ ulp * (b * l) := mul_nonneg hu.le (mul_nonneg hb0.le hl0)
    nlinarith
  have e1 : b * (l * (1 + 2 * ulp)) = b * l + 2 * (ulp * (b * l)) := by ring
  have e2 : b * (l * (1 - 2 * ulp)) = b * l - 2 * (ulp * (b * l)) := by ring
  have e3 : ulp * b * (4 * l + 1) = 4 * (ulp * (b * l)) + ulp * b := by ring
  have e4 : -(b * A.log p) = b * -A.log p := by ring
  unfold sizeOf
  rw [e4] at hc ⊢
  rw [e3]
  rw [e1] at h3
  rw [e2] at h4
  rw [abs_le] at hc ⊢
  constructor <;> linarith [hc.1, hc.2]

end

/-! ### Thresholds -/

/-- How far the thresholds of the computed sample may be off, in the exponent. -/
noncomputable def slack (b c : ℝ) : ℝ := 16 * ulp * (c / b) + 8 * ulp

section
variable {A : FloatOps} (hA : IsDouble A) {b c : ℝ} (hb0 : 0 < b) (hbt : tiny ≤ ulp * b) (hc0 : 0 ≤ c)
include hA hb0 hbt hc0

theorem size_ge {p s : ℝ} (hp0 : 0 < p) (hp1 : p ≤ 1) (hpr : A.rnd p = p) (hs : s ≤ c / b) (h : s + slack b c ≤ -Real.log p) :
    b * s + 4 * ulp * c + 3 * ulp * b ≤ sizeOf A b p := by
  have hu := ulp_pos
  have hu1 := ulp_le
  obtain ⟨-, h1⟩ := size_close hA hbt hb0 hp0 hp1 hpr
  obtain ⟨l, hl⟩ : ∃ l, l = -Real.log p := ⟨_, rfl⟩
  obtain ⟨w, hw⟩ : ∃ w, w = c / b := ⟨_, rfl⟩
  have hcw : c = b * w := by rw [hw]; field_simp
  have hw0 : 0 ≤ w := by rw [hw]; positivity
  rw [← hl] at h h1
  unfold slack at h
  rw [← hw] at hs h
  rw [abs_le] at h1
  have h2 : s + 4 * ulp * w + 3 * ulp ≤ l - ulp * (4 * l + 1) := by
    have h3 : (s + (16 * ulp * w + 8 * ulp)) * (1 - 4 * ulp) ≤ l * (1 - 4 * ulp) := mul_le_mul_of_nonneg_right h (by linarith)
    have h4 : ulp * s ≤ ulp * w := mul_le_mul_of_nonneg_left hs hu.le
    have h5 : 0 ≤ ulp * w := mul_nonneg hu.le hw0
    have h6 : ulp * (ulp * w) ≤ 1 / 1024 * (ulp * w) := mul_le_mul_of_nonneg_right hu1 h5
    have h7 : ulp * ulp ≤ 1 / 1024 * ulp := mul_le_mul_of_nonneg_right hu1 hu.le
    nlinarith
  have h3 := mul_le_mul_of_nonneg_left h2 hb0.le
  rw [hcw]
  have e1 : b * (s + 4 * ulp * w + 3 * ulp) = b * s + 4 * ulp * (b * w) + 3 * ulp * b := by ring
  have e2 : b * (l - ulp * (4 * l + 1)) = b * l - ulp * b * (4 * l + 1) := by ring
  rw [e1, e2] at h3
  linarith [h1.1]

theorem size_lower {p s : ℝ} (hp0 : 0 < p) (hp1 : p ≤ 1) (hpr : A.rnd p = p) (hs : s ≤ c / b) (h : b * s - 2 * ulp * c - 2 * ulp * b ≤ sizeOf A b p) :
    s - slack b c ≤ -Real.log p := by
  have hu := ulp_pos
  have hu1 := ulp_le
  obtain ⟨-, h1⟩ := size_close hA hbt hb0 hp0 hp1 hpr
  obtain ⟨l, hl⟩ : ∃ l, l = -Real.log p := ⟨_, rfl⟩
  obtain ⟨w, hw⟩ : ∃ w, w = c / b := ⟨_, rfl⟩
  have hcw : c = b * w := by rw [hw]; field_simp
  have hw0 : 0 ≤ w := by rw [hw]; positivity
  unfold slack
  rw [← hl] at h1 ⊢
  rw [← hw] at hs ⊢
  rw [abs_le] at h1
  have h2 : b * (s - 2 * ulp * w - 2 * ulp) ≤ b * (l + ulp * (4 * l + 1)) := by
    have e1 : b * (s - 2 * ulp * w - 2 * ulp) = b * s - 2 * ulp * (b * w) - 2 * ulp * b := by ring
    have e2 : b * (l + ulp * (4 * l + 1)) = b * l + ulp * b * (4 * l + 1) := by ring
    rw [e1, e2, ← hcw]
    linarith [h1.2]
  have h3 := le_of_mul_le_mul_left h2 hb0
  have h5 : 0 ≤ ulp * w := mul_nonneg hu.le hw0
  by_cases hls : s ≤ l
  · linarith
  · have h4 : ulp * l ≤ ulp * w := mul_le_mul_of_nonneg_left (by linarith) hu.le
    linarith

/-- Samples above the cutoff. -/
theorem plus_in {p : ℝ} (hp0 : 0 < p) (hp1 : p ≤ 1) (hpr : A.rnd p = p) {k : ℕ} (hk : k ≤ 2 ^ 53) (hk1 : c < k) (hk2 : (k : ℝ) ≤ 2 * c)
    (h : p ≤ Real.exp (-((k - c) / b)) * Real.exp (-slack b c)) : (k : ℝ) ≤ A.rnd (c + min c (sizeOf A b p)) := by
  have hl : (k - c) / b + slack b c ≤ -Real.log p := by
    rw [← Real.exp_add] at h
    have := Real.log_le_log hp0 h
    rw [Real.log_exp] at this
    linarith
  have hu := ulp_pos
  have h1 := size_ge hA hb0 hbt hc0 hp0 hp1 hpr (s := (k - c) / b) (by gcongr; linarith) hl
  have h2 : b * ((k - c) / b) = k - c := by field_simp
  rw [h2] at h1
  have h3 : 0 ≤ 4 * ulp * c := by have := mul_nonneg hu.le hc0; linarith
  have h4 : 0 ≤ 3 * ulp * b := by have := mul_nonneg hu.le hb0.le; linarith
  have h5 : (k : ℝ) ≤ c + min c (sizeOf A b p) := by
    rcases le_total c (sizeOf A b p) with h6 | h6
    · rw [min_eq_left h6]; linarith
    · rw [min_eq_right h6]; linarith
  have := hA.mono h5
  rwa [hA.nat k hk] at this

theorem plus_out {p : ℝ} (hp0 : 0 < p) (hp1 : p ≤ 1) (hpr : A.rnd p = p) {k : ℕ} (hk2 : (k : ℝ) ≤ 2 * c)
    (h : (k : ℝ) ≤ A.rnd (c + min c (sizeOf A b p))) : p ≤ min 1 (Real.exp (-((k - c) / b)) * Real.exp (slack b c)) := by
  refine le_min hp1 ?_
  have hu := ulp_pos
  have h0 := (size_close hA hbt hb0 hp0 hp1 hpr).1
  obtain ⟨y, hy⟩ : ∃ y, y = c + min c (sizeOf A b p) := ⟨_, rfl⟩
  have hy0 : 0 ≤ y := by rw [hy]; exact add_nonneg hc0 (le_min hc0 h0)
  have hy1 : y ≤ 2 * c := by rw [hy]; have := min_le_left c (sizeOf A b p); linarith
  have h1 := rnd_close hA y
  rw [abs_of_nonneg hy0, abs_le] at h1
  rw [← hy] at h
  have h2 : ulp * y ≤ ulp * (2 * c) := mul_le_mul_of_nonneg_left hy1 hu.le
  have h3 : min c (sizeOf A b p) ≤ sizeOf A b p := min_le_right _ _
  have h4 := size_lower hA hb0 hbt hc0 hp0 hp1 hpr (s := (k - c) / b) (by gcongr; linarith) (by
    have h5 : b * ((k - c) / b) = k - c := by field_simp
    have h6 : 0 ≤ ulp * b := mul_nonneg hu.le hb0.le
    rw [h5]
    linarith [h1.2])
  rw [← Real.exp_add, ← Real.log_le_iff_le_exp hp0]
  linarith

/-- Samples up to the cutoff. -/
theorem minus_in {p : ℝ} (hp0 : 0 < p) (hp1 : p ≤ 1) (hpr : A.rnd p = p) {k : ℕ} (hk0 : 1 ≤ k) (hk1 : (k : ℝ) ≤ c)
    (h : p ≤ Real.exp (-((c - k) / b)) * Real.exp (-slack b c)) : A.rnd (c + -sizeOf A b p) < k := by
  have hl : (c - k) / b + slack b c ≤ -Real.log p := by
    rw [← Real.exp_add] at h
    have := Real.log_le_log hp0 h
    rw [Real.log_exp] at this
    linarith
  have hu := ulp_pos
  have hk0' : (1 : ℝ) ≤ k := by exact_mod_cast hk0
  have h0 := (size_close hA hbt hb0 hp0 hp1 hpr).1
  have h1 := size_ge hA hb0 hbt hc0 hp0 hp1 hpr (s := (c - k) / b) (by gcongr; linarith) hl
  have h2 : b * ((c - k) / b) = c - k := by field_simp
  rw [h2] at h1
  obtain ⟨y, hy⟩ : ∃ y, y = c + -sizeOf A b p := ⟨_, rfl⟩
  rw [← hy]
  by_cases hy0 : 0 ≤ y
  · have h3 := rnd_close hA y
    rw [abs_of_nonneg hy0, abs_le] at h3
    have h4 : ulp * y ≤ ulp * c := mul_le_mul_of_nonneg_left (by linarith) hu.le
    have h5 : 0 < ulp * b := mul_pos hu hb0
    have h6 : 0 ≤ ulp * c := mul_nonneg hu.le hc0
    linarith [h3.2]
  · have := hA.mono (le_of_lt (not_le.1 hy0))
    rw [rnd_zero hA] at this
    linarith

theorem minus_out {p : ℝ} (hp0 : 0 < p) (hp1 : p ≤ 1) (hpr : A.rnd p = p) {k : ℕ} (hk : k ≤ 2 ^ 53)
    (h : A.rnd (c + -sizeOf A b p) < k) : p ≤ min 1 (Real.exp (-((c - k) / b)) * Real.exp (slack b c)) := by
  refine le_min hp1 ?_
  have hu := ulp_pos
  have h1 : c + -sizeOf A b p < k := by
    by_contra h2
    have := hA.mono (not_lt.1 h2)
    rw [hA.nat k hk] at this
    linarith
  have h4 := size_lower hA hb0 hbt hc0 hp0 hp1 hpr (s := (c - k) / b)
    (by
      have : (0 : ℝ) ≤ k := Nat.cast_nonneg k
      gcongr; linarith) (by
    have h5 : b * ((c - k) / b) = c - k := by field_simp
    have h6 : 0 ≤ ulp * b := mul_nonneg hu.le hb0.le
    have h7 : 0 ≤ ulp * c := mul_nonneg hu.le hc0
    rw [h5]
    linarith)
  rw [← Real.exp_add, ← Real.log_le_iff_le_exp hp0]
  linarith

end

/-! ### Counting draws -/

/-- `1 - 2 |u - 1/2|` for the draw `u = r / RAND_MAX`. -/
noncomputable def fold (r : ℕ) : ℝ := 1 - 2 * |(r : ℝ) / (2 ^ 31 - 1) - 1 / 2|

theorem fold_le_iff {r : ℕ} {q : ℝ} (hr : r < 2 ^ 31) : fold r ≤ q ↔ (2 * r : ℝ) ≤ q * (2 ^ 31 - 1) ∨ 2 * ((2 ^ 31 - 1 : ℝ) - r) ≤ q * (2 ^ 31 - 1) := by
  have hM : (0 : ℝ) < 2 ^ 31 - 1 := by norm_num
  unfold fold
  have e1 : (r : ℝ) / (2 ^ 31 - 1) - 1 / 2 = (2 * r - (2 ^ 31 - 1)) / (2 * (2 ^ 31 - 1)) := by field_simp
  rw [e1, abs_div, abs_of_pos (show (0 : ℝ) < 2 * (2 ^ 31 - 1) by norm_num)]
  have e2 : 1 - 2 * (|2 * (r : ℝ) - (2 ^ 31 - 1)| / (2 * (2 ^ 31 - 1))) = ((2 ^ 31 - 1) - |2 * (r : ℝ) - (2 ^ 31 - 1)|) / (2 ^ 31 - 1) := by
    field_simp
  rw [e2, div_le_iff₀ hM]
  rcases abs_cases (2 * (r : ℝ) - (2 ^ 31 - 1)) with ⟨h1, h2⟩ | ⟨h1, h2⟩ <;> rw [h1]
  · constructor
    · intro h; right; linarith
    · rintro (h | h) <;> linarith
  · constructor
    · intro h; left; linarith
    · rintro (h | h) <;> linarith

theorem card_fin (n : ℕ) (P : ℕ → Prop) [DecidablePred P] :
    (Finset.univ.filter (fun r : Fin n => P r)).card = ((Finset.range n).filter P).card := by
  rw [← Finset.card_map Fin.valEmbedding]
  congr 1
  ext x
  simp only [Finset.mem_map, Finset.mem_filter, Finset.mem_univ, true_and, Fin.valEmbedding_apply, Finset.mem_range]
  constructor
  · rintro ⟨r, h1, rfl⟩; exact ⟨r.isLt, h1⟩
  · rintro ⟨h1, h2⟩; exact ⟨⟨x, h1⟩, h2, rfl⟩

open Classical in
theorem card_fold_le {q : ℝ} (hq : 0 ≤ q) : (((Finset.range (2 ^ 31)).filter (fun r => fold r ≤ q)).card : ℝ) ≤ q * 2 ^ 31 + 2 := by
  obtain ⟨m, hm⟩ : ∃ m : ℕ, m = ⌊q * (2 ^ 31 - 1) / 2⌋₊ := ⟨_, rfl⟩
  have hM : (0 : ℝ) < 2 ^ 31 - 1 := by norm_num
  have hm1 : (m : ℝ) ≤ q * (2 ^ 31 - 1) / 2 := by rw [hm]; exact Nat.floor_le (by positivity)
  have hsub : (Finset.range (2 ^ 31)).filter (fun r => fold r ≤ q) ⊆
      Finset.range (m + 1) ∪ (Finset.range (m + 1)).image (fun x => 2 ^ 31 - 1 - x) := by
    intro r hr
    rw [Finset.mem_filter, Finset.mem_range] at hr
    rw [Finset.mem_union, Finset.mem_range, Finset.mem_image]
    rcases (fold_le_iff hr.1).1 hr.2 with h | h
    · left
      have : r ≤ m := by rw [hm]; exact Nat.le_floor (by linarith)
      omega
    · right
      refine ⟨2 ^ 31 - 1 - r, ?_, by omega⟩
      have e : ((2 ^ 31 - 1 - r : ℕ) : ℝ) = 2 ^ 31 - 1 - r := by
        rw [Nat.cast_sub (by omega), Nat.cast_sub (by norm_num)]
        norm_num
      have : 2 ^ 31 - 1 - r ≤ m := by
        rw [hm]
        refine Nat.le_floor ?_
        rw [e]
        linarith
      rw [Finset.mem_range]
      omega
  have h1 := Finset.card_le_card hsub
  have h2 := Finset.card_union_le (Finset.range (m + 1)) ((Finset.range (m + 1)).image (fun x => 2 ^ 31 - 1 - x))
  have h3 := Finset.card_image_le (s := Finset.range (m + 1)) (f := fun x => 2 ^ 31 - 1 - x)
  rw [Finset.card_range] at h2 h3
  have h4 : ((Finset.range (2 ^ 31)).filter (fun r => fold r ≤ q)).card ≤ 2 * m + 2 := by omega
  generalize ((Finset.range (2 ^ 31)).filter (fun r => fold r ≤ q)).card = C at h4 ⊢
  have h5 : (C : ℝ) ≤ 2 * m + 2 := by exact_mod_cast h4
  linarith

open Classical in
theorem le_card_fold {q : ℝ} (hq : q ≤ 1) : q * (2 ^ 31 - 1) ≤ (((Finset.range (2 ^ 31)).filter (fun r => fold r ≤ q)).card : ℝ) := by
  by_cases hq0 : 0 ≤ q
  swap
  · have h1 : (0 : ℝ) ≤ (((Finset.range (2 ^ 31)).filter (fun r => fold r ≤ q)).card : ℝ) := Nat.cast_nonneg _
    have h2 : q * (2 ^ 31 - 1) ≤ 0 := mul_nonpos_of_nonpos_of_nonneg (by linarith) (by norm_num)
    linarith
  obtain ⟨m, hm⟩ : ∃ m : ℕ, m = ⌊q * (2 ^ 31 - 1) / 2⌋₊ := ⟨_, rfl⟩
  have hM : (0 : ℝ) < 2 ^ 31 - 1 := by norm_num
  have hm1 : (m : ℝ) ≤ q * (2 ^ 31 - 1) / 2 := by rw [hm]; exact Nat.floor_le (by positivity)
  have hm2 : q * (2 ^ 31 - 1) / 2 < m + 1 := by rw [hm]; exact Nat.lt_floor_add_one _
  have hm3 : m < 2 ^ 30 := by
    have h1 : (m : ℝ) < (2 ^ 30 : ℕ) := by
      refine lt_of_le_of_lt hm1 ?_
      have : q * (2 ^ 31 - 1) ≤ 1 * (2 ^ 31 - 1) := mul_le_mul_of_nonneg_right hq hM.le
      norm_num at this ⊢
      linarith
    exact_mod_cast h1
  have hsub : Finset.range (m + 1) ∪ (Finset.range (m + 1)).image (fun x => 2 ^ 31 - 1 - x) ⊆
      (Finset.range (2 ^ 31)).filter (fun r => fold r ≤ q) := by
    intro r hr
    rw [Finset.mem_union, Finset.mem_range, Finset.mem_image] at hr
    rw [Finset.mem_filter, Finset.mem_range]
    have key : ∀ x : ℕ, x < m + 1 → (x : ℝ) ≤ q * (2 ^ 31 - 1) / 2 := by
      intro x hx
      have : (x : ℝ) ≤ m := by exact_mod_cast Nat.lt_succ_iff.1 hx
      linarith
    rcases hr with h | ⟨x, h, rfl⟩
    · refine ⟨by omega, (fold_le_iff (by omega)).2 (Or.inl ?_)⟩
      have := key r h
      linarith
    · rw [Finset.mem_range] at h
      refine ⟨by omega, (fold_le_iff (by omega)).2 (Or.inr ?_)⟩
      have := key x h
      have e : ((2 ^ 31 - 1 - x : ℕ) : ℝ) = 2 ^ 31 - 1 - x := by
        rw [Nat.cast_sub (by omega), Nat.cast_sub (by norm_num)]
        norm_num
      rw [e]
      linarith
  have hdis : Disjoint (Finset.range (m + 1)) ((Finset.range (m + 1)).image (fun x => 2 ^ 31 - 1 - x)) := by
    rw [Finset.disjoint_left]
    intro r h1 h2
    rw [Finset.mem_image] at h2
    obtain ⟨x, h3, rfl⟩ := h2
    rw [Finset.mem_range] at h1 h3
    omega
  have h1 := Finset.card_le_card hsub
  rw [Finset.card_union_of_disjoint hdis, Finset.card_range, Finset.card_image_of_injOn (by
    intro x hx y hy hxy
    simp only [Finset.coe_range, Set.mem_Iio] at hx hy
    simp only at hxy
    omega), Finset.card_range] at h1
  generalize ((Finset.range (2 ^ 31)).filter (fun r => fold r ≤ q)).card = C at h1 ⊢
  have h5 : ((m + 1 + (m + 1) : ℕ) : ℝ) ≤ C := by exact_mod_cast h1
  push_cast at h5
  linarith

open Classical in
/-- A set of draws between two thresholds has about the right share of all draws. -/
theorem share_close {q E η : ℝ} (hq0 : 0 < q) (hq1 : q ≤ 1) (hE : 0 ≤ E) (hη : 0 ≤ η) (X : ℕ → Prop)
    (hin : ∀ r < 2 ^ 31, fold r ≤ q * Real.exp (-E) - η → X r) (hout : ∀ r < 2 ^ 31, X r → fold r ≤ min 1 (q * Real.exp E) + η) :
    |(((Finset.range (2 ^ 31)).filter X).card : ℝ) / 2 ^ 31 - q| ≤ E + η + 2 / 2 ^ 31 := by
  have hexp : 1 - E ≤ Real.exp (-E) := by have := Real.add_one_le_exp (-E); linarith
  have hexp1 : Real.exp (-E) ≤ 1 := Real.exp_le_one_iff.2 (by linarith)
  have hlow : q - E - η ≤ q * Real.exp (-E) - η := by nlinarith
  have hup : min 1 (q * Real.exp E) + η ≤ q + E + η := by
    obtain ⟨z, hz⟩ : ∃ z, z = min 1 (q * Real.exp E) := ⟨_, rfl⟩
    have hz1 : z ≤ 1 := by rw [hz]; exact min_le_left _ _
    have hz2 : z ≤ q * Real.exp E := by rw [hz]; exact min_le_right _ _
    have hz0 : 0 ≤ z := by rw [hz]; exact le_min zero_le_one (by positivity)
    have h3 : z * Real.exp (-E) ≤ q := by
      calc z * Real.exp (-E) ≤ q * Real.exp E * Real.exp (-E) := mul_le_mul_of_nonneg_right hz2 (Real.exp_pos _).le
        _ = q := by rw [mul_assoc, ← Real.exp_add, add_neg_cancel, Real.exp_zero, mul_one]
    have h4 : z * (1 - E) ≤ z * Real.exp (-E) := mul_le_mul_of_nonneg_left hexp hz0
    rw [← hz]
    nlinarith
  have hqe : q * Real.exp (-E) - η ≤ 1 := by nlinarith
  have h3 := le_card_fold (q := q * Real.exp (-E) - η) hqe
  have h4 := card_fold_le (q := min 1 (q * Real.exp E) + η) (add_nonneg (le_min zero_le_one (by positivity)) hη)
  have h1 := Finset.card_le_card (s := (Finset.range (2 ^ 31)).filter (fun r => fold r ≤ q * Real.exp (-E) - η))
    (t := (Finset.range (2 ^ 31)).filter X) (by
      intro r hr
      rw [Finset.mem_filter, Finset.mem_range] at hr ⊢
      exact ⟨hr.1, hin r hr.1 hr.2⟩)
  have h2 := Finset.card_le_card (s := (Finset.range (2 ^ 31)).filter X)
    (t := (Finset.range (2 ^ 31)).filter (fun r => fold r ≤ min 1 (q * Real.exp E) + η)) (by
      intro r hr
      rw [Finset.mem_filter, Finset.mem_range] at hr ⊢
      exact ⟨hr.1, hout r hr.1 hr.2⟩)
  have h1' : (((Finset.range (2 ^ 31)).filter (fun r => fold r ≤ q * Real.exp (-E) - η)).card : ℝ) ≤ ((Finset.range (2 ^ 31)).filter X).card := by
    exact_mod_cast h1
  have h2' : (((Finset.range (2 ^ 31)).filter X).card : ℝ) ≤ ((Finset.range (2 ^ 31)).filter (fun r => fold r ≤ min 1 (q * Real.exp E) + η)).card := by
    exact_mod_cast h2
  obtain ⟨C, hC⟩ : ∃ C : ℝ, C = (((Finset.range (2 ^ 31)).filter X).card : ℝ) := ⟨_, rfl⟩
  rw [← hC] at h1' h2' ⊢
  have h5 : (q - E - η) * (2 ^ 31 - 1) ≤ C := le_trans (mul_le_mul_of_nonneg_right hlow (by norm_num)) (le_trans h3 h1')
  have h6 : C ≤ (q + E + η) * 2 ^ 31 + 2 := by
    refine le_trans h2' (le_trans h4 ?_)
    have := mul_le_mul_of_nonneg_right hup (show (0 : ℝ) ≤ 2 ^ 31 by norm_num)
    linarith
  rw [abs_le]
  constructor
  · rw [le_sub_iff_add_le, le_div_iff₀ (by norm_num)]
    norm_num at h5 ⊢
    linarith
  · rw [sub_le_iff_le_add, div_le_iff₀ (by norm_num)]
    norm_num at h6 ⊢
    linarith

end DPPIR.Noise
