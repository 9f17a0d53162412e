import Verif.Proofs.Noise
import Verif.Spec.Noise

/-!
# Distribution of the code's Laplace draw and of the noise samples
-/

open MeasureTheory

namespace DPPIR.Noise
open DPPIR.Spec

instance : IsProbabilityMeasure uniform := ⟨by simp [uniform]⟩
instance : IsProbabilityMeasure uniform2 := by unfold uniform2; infer_instance

/-- `1 - 2 * |u - 1/2|` -/
noncomputable def tent (u : ℝ) : ℝ := 1 - 2 * |u - 1 / 2|

theorem measurable_tent : Measurable tent := by
  unfold tent
  fun_prop

theorem uniform_tent_gt {y : ℝ} (hy : 0 ≤ y) : uniform {u | y < tent u} = ENNReal.ofReal (1 - y) := by
  unfold uniform
  rw [Measure.restrict_apply (measurableSet_lt measurable_const measurable_tent)]
  have : {u | y < tent u} ∩ Set.Icc 0 1 = Set.Ioo (y / 2) (1 - y / 2) := by
    ext u
    simp only [tent, Set.mem_inter_iff, Set.mem_ofPred_eq, Set.mem_Icc, Set.mem_Ioo]
    constructor
    · rintro ⟨h, h0, h1⟩
      have : |u - 1 / 2| < (1 - y) / 2 := by linarith
      rw [abs_lt] at this
      constructor <;> linarith
    · rintro ⟨h1, h2⟩
      refine ⟨?_, by linarith, by linarith⟩
      have : |u - 1 / 2| < (1 - y) / 2 := by rw [abs_lt]; constructor <;> linarith
      linarith
  rw [this, Real.volume_Ioo]
  congr 1
  ring

theorem uniform_tent_ge {y : ℝ} (hy : 0 ≤ y) : uniform {u | y ≤ tent u} = ENNReal.ofReal (1 - y) := by
  unfold uniform
  rw [Measure.restrict_apply (measurableSet_le measurable_const measurable_tent)]
  have : {u | y ≤ tent u} ∩ Set.Icc 0 1 = Set.Icc (y / 2) (1 - y / 2) := by
    ext u
    simp only [tent, Set.mem_inter_iff, Set.mem_ofPred_eq, Set.mem_Icc]
    constructor
    · rintro ⟨h, h0, h1⟩
      have : |u - 1 / 2| ≤ (1 - y) / 2 := by linarith
      rw [abs_le] at this
      constructor <;> linarith
    · rintro ⟨h1, h2⟩
      refine ⟨?_, by linarith, by linarith⟩
      have : |u - 1 / 2| ≤ (1 - y) / 2 := by rw [abs_le]; constructor <;> linarith
      linarith
  rw [this, Real.volume_Icc]
  congr 1
  ring

theorem one_sub_ofReal_one_sub {y : ℝ} (hy : 0 ≤ y) :
    1 - ENNReal.ofReal (1 - y) = ENNReal.ofReal (min y 1) := by
  rcases le_total y 1 with h | h
  · rw [min_eq_left h, ← ENNReal.ofReal_one, ← ENNReal.ofReal_sub _ (by linarith)]
    congr 1; ring
  · rw [min_eq_right h, ENNReal.ofReal_of_nonpos (by linarith)]
    simp

theorem uniform_tent_le {y : ℝ} (hy : 0 ≤ y) : uniform {u | tent u ≤ y} = ENNReal.ofReal (min y 1) := by
  have : {u | tent u ≤ y} = {u | y < tent u}ᶜ := by ext; simp
  rw [this, prob_compl_eq_one_sub (measurableSet_lt measurable_const measurable_tent), uniform_tent_gt hy,
    one_sub_ofReal_one_sub hy]

theorem uniform_tent_lt {y : ℝ} (hy : 0 ≤ y) : uniform {u | tent u < y} = ENNReal.ofReal (min y 1) := by
  have : {u | tent u < y} = {u | y ≤ tent u}ᶜ := by ext; simp
  rw [this, prob_compl_eq_one_sub (measurableSet_le measurable_const measurable_tent), uniform_tent_ge hy,
    one_sub_ofReal_one_sub hy]

theorem uniform_half : uniform (Set.Iio (1 / 2)) = ENNReal.ofReal (1 / 2) ∧ uniform (Set.Ici (1 / 2)) = ENNReal.ofReal (1 / 2) := by
  unfold uniform
  constructor
  · rw [Measure.restrict_apply measurableSet_Iio]
    have : Set.Iio (1 / 2 : ℝ) ∩ Set.Icc 0 1 = Set.Ico 0 (1 / 2) := by
      ext u; simp only [Set.mem_inter_iff, Set.mem_Iio, Set.mem_Icc, Set.mem_Ico]
      constructor
      · rintro ⟨h1, h2, h3⟩; exact ⟨h2, h1⟩
      · rintro ⟨h1, h2⟩; exact ⟨h2, h1, by linarith⟩
    rw [this, Real.volume_Ico]; congr 1; ring
  · rw [Measure.restrict_apply measurableSet_Ici]
    have : Set.Ici (1 / 2 : ℝ) ∩ Set.Icc 0 1 = Set.Icc (1 / 2) 1 := by
      ext u; simp only [Set.mem_inter_iff, Set.mem_Ici, Set.mem_Icc]
      constructor
      · rintro ⟨h1, h2, h3⟩; exact ⟨h1, h3⟩
      · rintro ⟨h1, h2⟩; exact ⟨h1, by linarith, h2⟩
    rw [this, Real.volume_Icc]; congr 1; norm_num

/-- Events that look at `u` only after splitting on the sign draw. -/
def split (A B : Set ℝ) : Set (ℝ × ℝ) := (Set.Iio (1 / 2) ×ˢ A) ∪ (Set.Ici (1 / 2) ×ˢ B)

theorem measurableSet_split {A B : Set ℝ} (hA : MeasurableSet A) (hB : MeasurableSet B) : MeasurableSet (split A B) :=
  (measurableSet_Iio.prod hA).union (measurableSet_Ici.prod hB)

theorem uniform2_split {A B : Set ℝ} (hA : MeasurableSet A) (hB : MeasurableSet B) {a b : ℝ}
    (ha : uniform A = ENNReal.ofReal a) (hb : uniform B = ENNReal.ofReal b) (ha0 : 0 ≤ a) (hb0 : 0 ≤ b) :
    uniform2 (split A B) = ENNReal.ofReal ((a + b) / 2) := by
  unfold split uniform2
  rw [measure_union _ (measurableSet_Ici.prod hB), Measure.prod_prod, Measure.prod_prod, uniform_half.1, uniform_half.2,
    ha, hb, ← ENNReal.ofReal_mul (by norm_num), ← ENNReal.ofReal_mul (by norm_num),
    ← ENNReal.ofReal_add (by positivity) (by positivity)]
  · congr 1; ring
  · rw [Set.disjoint_left]
    rintro ⟨v, u⟩ ⟨h1, -⟩ ⟨h2, -⟩
    simp only [Set.mem_Iio, Set.mem_Ici] at h1 h2
    linarith

/-- The value of `Laplace(0, b)` in exact arithmetic, for draws in [0, 1]. -/
theorem laplace_exact {b : ℝ} (hb : 0 < b) (v u : ℝ) :
    laplace .exact (.fin 0) (.fin b) (.fin v) (.fin u) =
      if 0 < tent u then .fin (if v < 1 / 2 then b * Real.log (tent u) else -(b * Real.log (tent u)))
      else if tent u = 0 then (if v < 1 / 2 then .ninf else .pinf) else .nan := by
  unfold laplace
  have hs : (@ite ℝ (Dbl.lt (.fin v) (.fin (1 / 2))) (Classical.propDecidable _) (-1) 1) = if v < 1 / 2 then -1 else 1 := by
    by_cases h : v < 1 / 2
    · rw [if_pos h, if_pos (show Dbl.lt (.fin v) (.fin (1 / 2)) from h)]
    · rw [if_neg h, if_neg (show ¬ Dbl.lt (.fin v) (.fin (1 / 2)) from h)]
  rw [hs]
  by_cases h1 : 0 < tent u
  · rw [if_pos h1, laplaceExpr_exact _ _ _ h1]
    split_ifs
    · congr 1; unfold tent; ring
    · congr 1; unfold tent; ring
  · rw [if_neg h1]
    have e : 1 + -(2 * |u + -(1 / 2)|) = tent u := by unfold tent; rw [← sub_eq_add_neg, ← sub_eq_add_neg]
    simp only [laplaceExpr, Dbl.sub, Dbl.add, Dbl.neg, Dbl.mul, Dbl.abs, Dbl.log, FloatOps.exact, id, e]
    rw [if_neg h1]
    by_cases h2 : tent u = 0
    · rw [if_pos h2, if_pos h2]
      split_ifs with h3
      · simp only [Dbl.scaleInf]
        rw [if_neg (by linarith), if_pos (by linarith)]
      · simp only [Dbl.scaleInf]
        rw [if_pos (by linarith)]
    · rw [if_neg h2, if_neg h2]

theorem uniform_congr {A B : Set ℝ} (h : ∀ u, 0 ≤ tent u → (u ∈ A ↔ u ∈ B)) : uniform A = uniform B := by
  unfold uniform
  rw [Measure.restrict_apply' measurableSet_Icc, Measure.restrict_apply' measurableSet_Icc]
  congr 1
  ext u
  simp only [Set.mem_inter_iff, Set.mem_Icc]
  constructor
  · rintro ⟨h1, h2, h3⟩
    refine ⟨(h u ?_).mp h1, h2, h3⟩
    unfold tent
    have : |u - 1 / 2| ≤ 1 / 2 := by rw [abs_le]; constructor <;> linarith
    linarith
  · rintro ⟨h1, h2, h3⟩
    refine ⟨(h u ?_).mpr h1, h2, h3⟩
    unfold tent
    have : |u - 1 / 2| ≤ 1 / 2 := by rw [abs_le]; constructor <;> linarith
    linarith

theorem log_le_div {b g t : ℝ} (hb : 0 < b) (hg : 0 < g) : b * Real.log g ≤ t ↔ g ≤ Real.exp (t / b) := by
  rw [← Real.log_le_iff_le_exp hg, le_div_iff₀ hb, mul_comm]

theorem log_lt_div {b g t : ℝ} (hb : 0 < b) (hg : 0 < g) : b * Real.log g < t ↔ g < Real.exp (t / b) := by
  rw [← Real.log_lt_iff_lt_exp hg, lt_div_iff₀ hb, mul_comm]

/-- Value of the distribution function in the form the computation gives. -/
theorem laplaceCDF_eq {b : ℝ} (hb : 0 < b) (t : ℝ) :
    laplaceCDF b t = (min (Real.exp (t / b)) 1 + (1 - min (Real.exp (-(t / b))) 1)) / 2 := by
  unfold laplaceCDF
  split_ifs with h
  · have h1 : 1 ≤ Real.exp (t / b) := Real.one_le_exp (div_nonneg h hb.le)
    have h2 : Real.exp (-(t / b)) ≤ 1 := Real.exp_le_one_iff.mpr (by have := div_nonneg h hb.le; linarith)
    rw [min_eq_right h1, min_eq_left h2]; ring
  · have h0 : t / b ≤ 0 := div_nonpos_of_nonpos_of_nonneg (by linarith) hb.le
    have h1 : Real.exp (t / b) ≤ 1 := Real.exp_le_one_iff.mpr h0
    have h2 : 1 ≤ Real.exp (-(t / b)) := Real.one_le_exp (by linarith)
    rw [min_eq_left h1, min_eq_right h2]; ring

theorem one_sub_min {y : ℝ} : max (1 - y) 0 = 1 - min y 1 := by
  rcases le_total y 1 with h | h
  · rw [min_eq_left h, max_eq_left (by linarith)]
  · rw [min_eq_right h, max_eq_right (by linarith)]; ring

theorem uniform_tent_gt' {y : ℝ} (hy : 0 ≤ y) : uniform {u | y < tent u} = ENNReal.ofReal (1 - min y 1) := by
  rw [uniform_tent_gt hy, ← one_sub_min, ENNReal.ofReal_max, ENNReal.ofReal_zero, max_eq_left zero_le]

theorem uniform_tent_ge' {y : ℝ} (hy : 0 ≤ y) : uniform {u | y ≤ tent u} = ENNReal.ofReal (1 - min y 1) := by
  rw [uniform_tent_ge hy, ← one_sub_min, ENNReal.ofReal_max, ENNReal.ofReal_zero, max_eq_left zero_le]

theorem meas_le (y : ℝ) : MeasurableSet {u | tent u ≤ y} := measurableSet_le measurable_tent measurable_const
theorem meas_lt (y : ℝ) : MeasurableSet {u | tent u < y} := measurableSet_lt measurable_tent measurable_const
theorem meas_ge (y : ℝ) : MeasurableSet {u | y ≤ tent u} := measurableSet_le measurable_const measurable_tent
theorem meas_gt (y : ℝ) : MeasurableSet {u | y < tent u} := measurableSet_lt measurable_const measurable_tent

theorem mem_split {A B : Set ℝ} {w : ℝ × ℝ} : w ∈ split A B ↔ if w.1 < 1 / 2 then w.2 ∈ A else w.2 ∈ B := by
  unfold split
  simp only [Set.mem_union, Set.mem_prod, Set.mem_Iio, Set.mem_Ici]
  by_cases h : w.1 < 1 / 2
  · rw [if_pos h]
    constructor
    · rintro (⟨-, h1⟩ | ⟨h1, -⟩)
      · exact h1
      · linarith
    · intro h1; exact Or.inl ⟨h, h1⟩
  · rw [if_neg h]
    constructor
    · rintro (⟨h1, -⟩ | ⟨-, h1⟩)
      · exact absurd h1 h
      · exact h1
    · intro h1; exact Or.inr ⟨not_lt.mp h, h1⟩

theorem laplaceProb_atMost {b : ℝ} (hb : 0 < b) (t : ℝ) :
    laplaceProb b (AtMost t) = ENNReal.ofReal (laplaceCDF b t) := by
  have hset : {w : ℝ × ℝ | AtMost t (laplace .exact (.fin 0) (.fin b) (.fin w.1) (.fin w.2))} =
      split ({u | tent u ≤ Real.exp (t / b)} ∩ {u | 0 ≤ tent u}) {u | Real.exp (-(t / b)) ≤ tent u} := by
    ext w
    rw [mem_split, Set.mem_ofPred_eq, laplace_exact hb]
    simp only [Set.mem_inter_iff, Set.mem_ofPred_eq]
    by_cases h1 : 0 < tent w.2
    · rw [if_pos h1]
      by_cases h2 : w.1 < 1 / 2
      · rw [if_pos h2, if_pos h2]
        simp only [AtMost]
        rw [log_le_div hb h1]
        exact ⟨fun h => ⟨h, h1.le⟩, fun h => h.1⟩
      · rw [if_neg h2, if_neg h2]
        simp only [AtMost]
        rw [neg_le, ← not_lt, log_lt_div hb h1, not_lt, neg_div]
    · rw [if_neg h1]
      have hexp := Real.exp_pos (-(t / b))
      have hexp' := Real.exp_pos (t / b)
      by_cases h3 : tent w.2 = 0
      · rw [if_pos h3]
        by_cases h2 : w.1 < 1 / 2
        · rw [if_pos h2, if_pos h2]; simp only [AtMost, true_iff]; constructor <;> linarith
        · rw [if_neg h2, if_neg h2]; simp only [AtMost, false_iff]; linarith
      · rw [if_neg h3]
        have h4 : tent w.2 < 0 := lt_of_le_of_ne (not_lt.mp h1) h3
        by_cases h2 : w.1 < 1 / 2
        · rw [if_pos h2]; simp only [AtMost, false_iff]; rintro ⟨-, h⟩; linarith
        · rw [if_neg h2]; simp only [AtMost, false_iff]; linarith
  unfold laplaceProb
  rw [hset, laplaceCDF_eq hb]
  apply uniform2_split ((meas_le _).inter (meas_ge 0)) (meas_ge _)
  · rw [uniform_congr (B := {u | tent u ≤ Real.exp (t / b)}) (by intro u hu; simp [hu]), uniform_tent_le (Real.exp_pos _).le]
  · exact uniform_tent_ge' (Real.exp_pos _).le
  · exact le_min (Real.exp_pos _).le zero_le_one
  · have := min_le_right (Real.exp (-(t / b))) 1; linarith

theorem laplaceProb_exceeds {b : ℝ} (hb : 0 < b) (t : ℝ) :
    laplaceProb b (Exceeds t) = ENNReal.ofReal (1 - laplaceCDF b t) := by
  have hset : {w : ℝ × ℝ | Exceeds t (laplace .exact (.fin 0) (.fin b) (.fin w.1) (.fin w.2))} =
      split {u | Real.exp (t / b) < tent u} ({u | tent u < Real.exp (-(t / b))} ∩ {u | 0 ≤ tent u}) := by
    ext w
    rw [mem_split, Set.mem_ofPred_eq, laplace_exact hb]
    simp only [Set.mem_inter_iff, Set.mem_ofPred_eq]
    by_cases h1 : 0 < tent w.2
    · rw [if_pos h1]
      by_cases h2 : w.1 < 1 / 2
      · rw [if_pos h2, if_pos h2]
        simp only [Exceeds]
        rw [← not_le, log_le_div hb h1, not_le]
      · rw [if_neg h2, if_neg h2]
        simp only [Exceeds]
        rw [lt_neg, log_lt_div hb h1, neg_div]
        exact ⟨fun h => ⟨h, h1.le⟩, fun h => h.1⟩
    · rw [if_neg h1]
      have hexp := Real.exp_pos (-(t / b))
      have hexp' := Real.exp_pos (t / b)
      by_cases h3 : tent w.2 = 0
      · rw [if_pos h3]
        by_cases h2 : w.1 < 1 / 2
        · rw [if_pos h2, if_pos h2]; simp only [Exceeds, false_iff]; linarith
        · rw [if_neg h2, if_neg h2]; simp only [Exceeds, true_iff]; constructor <;> linarith
      · rw [if_neg h3]
        have h4 : tent w.2 < 0 := lt_of_le_of_ne (not_lt.mp h1) h3
        by_cases h2 : w.1 < 1 / 2
        · rw [if_pos h2]; simp only [Exceeds, false_iff]; linarith
        · rw [if_neg h2]; simp only [Exceeds, false_iff]; rintro ⟨-, h⟩; linarith
  unfold laplaceProb
  rw [hset, laplaceCDF_eq hb]
  rw [uniform2_split (meas_gt _) ((meas_lt _).inter (meas_ge 0)) (uniform_tent_gt' (Real.exp_pos _).le)
    (b := min (Real.exp (-(t / b))) 1)]
  · congr 1; ring
  · rw [uniform_congr (B := {u | tent u < Real.exp (-(t / b))}) (by intro u hu; simp [hu]), uniform_tent_lt (Real.exp_pos _).le]
  · have := min_le_right (Real.exp (t / b)) 1; linarith
  · exact le_min (Real.exp_pos _).le zero_le_one

theorem laplaceProb_below {b : ℝ} (hb : 0 < b) (t : ℝ) :
    laplaceProb b (Below t) = ENNReal.ofReal (laplaceCDF b t) := by
  have hset : {w : ℝ × ℝ | Below t (laplace .exact (.fin 0) (.fin b) (.fin w.1) (.fin w.2))} =
      split ({u | tent u < Real.exp (t / b)} ∩ {u | 0 ≤ tent u}) {u | Real.exp (-(t / b)) < tent u} := by
    ext w
    rw [mem_split, Set.mem_ofPred_eq, laplace_exact hb]
    simp only [Set.mem_inter_iff, Set.mem_ofPred_eq]
    by_cases h1 : 0 < tent w.2
    · rw [if_pos h1]
      by_cases h2 : w.1 < 1 / 2
      · rw [if_pos h2, if_pos h2]
        simp only [Below]
        rw [log_lt_div hb h1]
        exact ⟨fun h => ⟨h, h1.le⟩, fun h => h.1⟩
      · rw [if_neg h2, if_neg h2]
        simp only [Below]
        rw [neg_lt, ← not_le, log_le_div hb h1, not_le, neg_div]
    · rw [if_neg h1]
      have hexp := Real.exp_pos (-(t / b))
      have hexp' := Real.exp_pos (t / b)
      by_cases h3 : tent w.2 = 0
      · rw [if_pos h3]
        by_cases h2 : w.1 < 1 / 2
        · rw [if_pos h2, if_pos h2]; simp only [Below, true_iff]; constructor <;> linarith
        · rw [if_neg h2, if_neg h2]; simp only [Below, false_iff]; linarith
      · rw [if_neg h3]
        have h4 : tent w.2 < 0 := lt_of_le_of_ne (not_lt.mp h1) h3
        by_cases h2 : w.1 < 1 / 2
        · rw [if_pos h2]; simp only [Below, false_iff]; rintro ⟨-, h⟩; linarith
        · rw [if_neg h2]; simp only [Below, false_iff]; linarith
  unfold laplaceProb
  rw [hset, laplaceCDF_eq hb]
  apply uniform2_split ((meas_lt _).inter (meas_ge 0)) (meas_gt _)
  · rw [uniform_congr (B := {u | tent u < Real.exp (t / b)}) (by intro u hu; simp [hu]), uniform_tent_lt (Real.exp_pos _).le]
  · exact uniform_tent_gt' (Real.exp_pos _).le
  · exact le_min (Real.exp_pos _).le zero_le_one
  · have := min_le_right (Real.exp (-(t / b))) 1; linarith

/-- Draws for which the clamped Laplace value is at least `s`. -/
noncomputable def atLeast (b s : ℝ) : Set (ℝ × ℝ) :=
  split ({u | Real.exp (s / b) ≤ tent u} ∪ {u | tent u < 0}) {u | tent u ≤ Real.exp (-(s / b))}

theorem measurableSet_atLeast (b s : ℝ) : MeasurableSet (atLeast b s) :=
  measurableSet_split ((meas_ge _).union (meas_lt _)) (meas_le _)

theorem uniform2_atLeast {b : ℝ} (hb : 0 < b) (s : ℝ) :
    uniform2 (atLeast b s) = ENNReal.ofReal (1 - laplaceCDF b s) := by
  unfold atLeast
  rw [uniform2_split ((meas_ge _).union (meas_lt _)) (meas_le _) (a := 1 - min (Real.exp (s / b)) 1)
    (b := min (Real.exp (-(s / b))) 1), laplaceCDF_eq hb]
  · congr 1; ring
  · rw [uniform_congr (B := {u | Real.exp (s / b) ≤ tent u}) (by intro u hu; simp [hu]), uniform_tent_ge' (Real.exp_pos _).le]
  · exact uniform_tent_le (Real.exp_pos _).le
  · have := min_le_right (Real.exp (s / b)) 1; linarith
  · exact le_min (Real.exp_pos _).le zero_le_one

theorem toU32_floor_ok {r : ℝ} (h0 : 0 ≤ r) (h1 : r < 2 ^ 32) : Dbl.toU32 (Dbl.floor (.fin r)) = .ok ⌊r⌋.toNat := by
  unfold Dbl.floor Dbl.toU32
  simp only
  rw [if_pos, Int.floor_intCast]
  constructor
  · have := Int.floor_nonneg.mpr h0
    have : (0 : ℝ) ≤ (⌊r⌋ : ℝ) := by exact_mod_cast this
    linarith
  · exact lt_of_le_of_lt (Int.floor_le r) h1

theorem le_floor_toNat {k : ℕ} (hk : 1 ≤ k) (y : ℝ) : k ≤ ⌊y⌋.toNat ↔ (k : ℝ) ≤ y := by
  have : k ≤ ⌊y⌋.toNat ↔ (k : ℤ) ≤ ⌊y⌋ := by omega
  rw [this, Int.le_floor]
  simp

/-- When a sample is at least `k`. -/
theorem le_sampleValue {b c : ℝ} (hb : 0 < b) (hc : 0 ≤ c) (hc2 : 2 * c < 2 ^ 32) (dbg : Bool) (w : ℝ × ℝ) {k : ℕ}
    (hk : 1 ≤ k) : k ≤ sampleValue ⟨dbg, .fin b, .fin c⟩ w ↔ (k : ℝ) ≤ 2 * c ∧ w ∈ atLeast b (k - c) := by
  have hk0 : (1 : ℝ) ≤ k := by exact_mod_cast hk
  unfold sampleValue Dist.sampleReal
  simp only
  rw [laplace_exact hb]
  unfold atLeast
  rw [mem_split]
  simp only [Set.mem_union, Set.mem_ofPred_eq]
  by_cases h1 : 0 < tent w.2
  · rw [if_pos h1, fmin_fin]
    simp only [Dbl.add, FloatOps.exact, id]
    rw [fmax_fin]
    obtain ⟨t, ht⟩ : ∃ t, t = (if w.1 < 1 / 2 then b * Real.log (tent w.2) else -(b * Real.log (tent w.2))) := ⟨_, rfl⟩
    rw [← ht, toU32_floor_ok (le_max_left _ _) (by
      apply max_lt (by norm_num)
      have := min_le_left c t
      linarith)]
    simp only
    rw [le_floor_toNat hk]
    have e1 : (k : ℝ) ≤ max 0 (c + min c t) ↔ (k : ℝ) ≤ 2 * c ∧ (k : ℝ) - c ≤ t := by
      rw [le_max_iff]
      constructor
      · rintro (h | h)
        · linarith
        · have := min_le_left c t
          have := min_le_right c t
          constructor <;> linarith
      · rintro ⟨h, h'⟩
        right
        have : (k : ℝ) - c ≤ min c t := le_min (by linarith) h'
        linarith
    rw [e1]
    apply and_congr_right
    intro _
    by_cases h2 : w.1 < 1 / 2
    · rw [if_pos h2] at ht
      rw [if_pos h2, ht, ← not_lt, log_lt_div hb h1, not_lt]
      exact ⟨Or.inl, fun h => h.resolve_right (by linarith)⟩
    · rw [if_neg h2] at ht
      rw [if_neg h2, ht, le_neg, log_le_div hb h1, neg_div]
  · rw [if_neg h1]
    have hexp := Real.exp_pos (-(((k : ℝ) - c) / b))
    have hexp' := Real.exp_pos (((k : ℝ) - c) / b)
    have top : Dbl.toU32 (Dbl.floor (Dbl.fmax (.fin 0) (.fin (c + c)))) = .ok ⌊2 * c⌋.toNat := by
      rw [fmax_fin, toU32_floor_ok (le_max_left _ _) (by apply max_lt (by norm_num); linarith),
        max_eq_right (by linarith), two_mul]
    by_cases h3 : tent w.2 = 0
    · rw [if_pos h3]
      by_cases h2 : w.1 < 1 / 2
      · rw [if_pos h2, if_pos h2]
        have e1 : Dbl.fmin (.fin c) .ninf = .ninf := by unfold Dbl.fmin; simp [Dbl.lt]
        have e2 : Dbl.fmax (.fin 0) .ninf = .fin 0 := by unfold Dbl.fmax; simp [Dbl.lt]
        rw [e1]
        simp only [Dbl.add]
        rw [e2, toU32_floor_ok (le_refl _) (by norm_num)]
        simp only [Int.floor_zero, Int.toNat_zero]
        constructor
        · intro h; omega
        · rintro ⟨-, h | h⟩ <;> linarith
      · rw [if_neg h2, if_neg h2]
        have e1 : Dbl.fmin (.fin c) .pinf = .fin c := by unfold Dbl.fmin; simp [Dbl.lt]
        rw [e1]
        simp only [Dbl.add, FloatOps.exact, id]
        rw [top]
        simp only
        rw [le_floor_toNat hk]
        exact ⟨fun h => ⟨h, by linarith⟩, fun h => h.1⟩
    · rw [if_neg h3]
      have h4 : tent w.2 < 0 := lt_of_le_of_ne (not_lt.mp h1) h3
      have e1 : Dbl.fmin (.fin c) .nan = .fin c := by unfold Dbl.fmin; simp
      rw [e1]
      simp only [Dbl.add, FloatOps.exact, id]
      rw [top]
      simp only
      rw [le_floor_toNat hk]
      constructor
      · intro h
        refine ⟨h, ?_⟩
        by_cases h2 : w.1 < 1 / 2
        · rw [if_pos h2]; exact Or.inr h4
        · rw [if_neg h2]; linarith
      · exact fun h => h.1

/-- Probability that a sample is at least `k`. -/
noncomputable def tail (b c : ℝ) (k : ℕ) : ℝ :=
  if k = 0 then 1 else if (k : ℝ) ≤ 2 * c then 1 - laplaceCDF b (k - c) else 0

theorem setOf_le_sampleValue {b c : ℝ} (hb : 0 < b) (hc : 0 ≤ c) (hc2 : 2 * c < 2 ^ 32) (dbg : Bool) (k : ℕ) :
    MeasurableSet {w | k ≤ sampleValue ⟨dbg, .fin b, .fin c⟩ w} ∧
      uniform2 {w | k ≤ sampleValue ⟨dbg, .fin b, .fin c⟩ w} = ENNReal.ofReal (tail b c k) := by
  unfold tail
  by_cases h0 : k = 0
  · subst h0
    have : {w | 0 ≤ sampleValue ⟨dbg, .fin b, .fin c⟩ w} = Set.univ := by ext; simp
    rw [this, if_pos rfl]
    exact ⟨MeasurableSet.univ, by simp⟩
  · rw [if_neg h0]
    by_cases h1 : (k : ℝ) ≤ 2 * c
    · have : {w | k ≤ sampleValue ⟨dbg, .fin b, .fin c⟩ w} = atLeast b (k - c) := by
        ext w
        rw [Set.mem_ofPred_eq, le_sampleValue hb hc hc2 dbg w (by omega)]
        exact ⟨fun h => h.2, fun h => ⟨h1, h⟩⟩
      rw [this, if_pos h1]
      exact ⟨measurableSet_atLeast _ _, uniform2_atLeast hb _⟩
    · have : {w | k ≤ sampleValue ⟨dbg, .fin b, .fin c⟩ w} = ∅ := by
        ext w
        rw [Set.mem_ofPred_eq, le_sampleValue hb hc hc2 dbg w (by omega)]
        exact ⟨fun h => absurd h.1 h1, fun h => absurd h (by simp)⟩
      rw [this, if_neg h1]
      exact ⟨MeasurableSet.empty, by simp⟩

theorem measurable_sampleValue {b c : ℝ} (hb : 0 < b) (hc : 0 ≤ c) (hc2 : 2 * c < 2 ^ 32) (dbg : Bool) :
    Measurable (sampleValue ⟨dbg, .fin b, .fin c⟩) := by
  apply measurable_to_countable'
  intro k
  have : sampleValue ⟨dbg, .fin b, .fin c⟩ ⁻¹' {k} =
      {w | k ≤ sampleValue ⟨dbg, .fin b, .fin c⟩ w} \ {w | k + 1 ≤ sampleValue ⟨dbg, .fin b, .fin c⟩ w} := by
    ext w
    simp only [Set.mem_preimage, Set.mem_singleton_iff, Set.mem_sdiff, Set.mem_ofPred_eq]
    omega
  rw [this]
  exact (setOf_le_sampleValue hb hc hc2 dbg k).1.diff (setOf_le_sampleValue hb hc hc2 dbg (k + 1)).1

end DPPIR.Noise
