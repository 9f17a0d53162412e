import Verif.Proofs.NoiseDP

/-!
# The law of a sample with given span and cutoff
-/

open MeasureTheory

namespace DPPIR.Noise
open DPPIR.Spec

section
variable {b c : ℝ}

noncomputable def law (b c : ℝ) : Measure ℕ := uniform2.map (sampleValue ⟨false, .fin b, .fin c⟩)

theorem law_prob (hb : 0 < b) (hc : 0 ≤ c) (hc2 : 2 * c < 2 ^ 32) : IsProbabilityMeasure (law b c) :=
  Measure.isProbabilityMeasure_map (measurable_sampleValue hb hc hc2 false).aemeasurable

theorem law_singleton (hb : 0 < b) (hc : 0 ≤ c) (hc2 : 2 * c < 2 ^ 32) (k : ℕ) :
    law b c {k} = ENNReal.ofReal (pmf b c k) := by
  unfold law
  rw [Measure.map_apply (measurable_sampleValue hb hc hc2 false) (measurableSet_singleton k)]
  have : sampleValue ⟨false, .fin b, .fin c⟩ ⁻¹' {k} =
      {w | k ≤ sampleValue ⟨false, .fin b, .fin c⟩ w} \ {w | k + 1 ≤ sampleValue ⟨false, .fin b, .fin c⟩ w} := by
    ext w
    simp only [Set.mem_preimage, Set.mem_singleton_iff, Set.mem_sdiff, Set.mem_ofPred_eq]
    omega
  have h1 := setOf_le_sampleValue hb hc hc2 false k
  have h2 := setOf_le_sampleValue hb hc hc2 false (k + 1)
  rw [this, measure_sdiff (by intro w hw; simp only [Set.mem_ofPred_eq] at *; omega) h2.1.nullMeasurableSet (measure_ne_top _ _),
    h1.2, h2.2, ← ENNReal.ofReal_sub _ (tail_nonneg hb _)]
  rfl

theorem shifted_singleton (μ : Measure ℕ) (n x : ℕ) :
    μ.map (fun k => n + k) {x} = if n ≤ x then μ {x - n} else 0 := by
  rw [Measure.map_apply (by fun_prop) (measurableSet_singleton x)]
  split_ifs with h
  · congr 1; ext k; simp only [Set.mem_preimage, Set.mem_singleton_iff]; omega
  · have : (fun k => n + k) ⁻¹' {x} = ∅ := by
      ext k; simp only [Set.mem_preimage, Set.mem_singleton_iff, Set.mem_empty_iff_false, iff_false]; omega
    rw [this, measure_empty]

/-- One key whose count changes by one: away from the two ends of the noise domain
the probabilities are within a factor `e^(1/b)`. -/
theorem ratio (hb : 0 < b) (hc : 0 ≤ c) (hc2 : 2 * c < 2 ^ 32) {n n' x : ℕ} (hn : n' = n + 1 ∨ n = n' + 1)
    (h0 : x ≠ n) (hK : x ≠ n + ⌊2 * c⌋.toNat) :
    (law b c).map (fun k => n + k) {x} ≤ ENNReal.ofReal (Real.exp (1 / b)) * (law b c).map (fun k => n' + k) {x} := by
  have hfl : (⌊2 * c⌋.toNat : ℝ) = (⌊2 * c⌋ : ℝ) := by
    have : 0 ≤ ⌊2 * c⌋ := Int.floor_nonneg.mpr (by linarith)
    have h2 : ((⌊2 * c⌋.toNat : ℤ)) = ⌊2 * c⌋ := Int.toNat_of_nonneg this
    exact_mod_cast h2
  have hle : (⌊2 * c⌋.toNat : ℝ) ≤ 2 * c := by rw [hfl]; exact Int.floor_le _
  have hlt : 2 * c < (⌊2 * c⌋.toNat : ℝ) + 1 := by rw [hfl]; exact Int.lt_floor_add_one _
  obtain ⟨K, hKe⟩ : ∃ K, K = ⌊2 * c⌋.toNat := ⟨_, rfl⟩
  rw [← hKe] at hle hlt hK
  rw [shifted_singleton, shifted_singleton]
  by_cases h1 : n ≤ x
  · rw [if_pos h1, law_singleton hb hc hc2]
    by_cases h2 : K < x - n
    · have : ((K + 1 : ℕ) : ℝ) ≤ ((x - n : ℕ) : ℝ) := by exact_mod_cast h2
      push_cast at this
      rw [pmf_zero_of_gt (by omega) (by push_cast; linarith)]
      simp
    · have hk : x - n + 1 ≤ K := by omega
      have hkr : ((x - n : ℕ) : ℝ) + 1 ≤ 2 * c := by
        have : ((x - n + 1 : ℕ) : ℝ) ≤ K := by exact_mod_cast hk
        push_cast at this ⊢
        linarith
      rcases hn with rfl | rfl
      · obtain ⟨k, hk2⟩ : ∃ k, x - n = k + 1 := ⟨x - n - 1, by omega⟩
        rw [if_pos (by omega), law_singleton hb hc hc2, ← ENNReal.ofReal_mul (Real.exp_pos _).le,
          show x - (n + 1) = k by omega, hk2]
        apply ENNReal.ofReal_le_ofReal
        apply pmf_prev hb
        rw [hk2] at hkr
        push_cast at hkr
        linarith
      · rw [if_pos (by omega), law_singleton hb hc hc2, ← ENNReal.ofReal_mul (Real.exp_pos _).le,
          show x - n' = x - (n' + 1) + 1 by omega]
        exact ENNReal.ofReal_le_ofReal (pmf_next hb (by omega) hkr)
  · rw [if_neg h1]; simp

theorem ends (hb : 0 < b) (hc : 0 ≤ c) (hc2 : 2 * c < 2 ^ 32) (n : ℕ) :
    (law b c).map (fun k => n + k) {x | x = n ∨ x = n + ⌊2 * c⌋.toNat} ≤
      ENNReal.ofReal (Real.exp (1 / b) * Real.exp (-(c / b))) := by
  rw [Measure.map_apply (by fun_prop) (MeasurableSet.of_discrete)]
  have h := pmf_ends hb hc
  obtain ⟨K, hKe⟩ : ∃ K, K = ⌊2 * c⌋.toNat := ⟨_, rfl⟩
  rw [← hKe] at h ⊢
  split_ifs at h with h0
  · have : (fun k => n + k) ⁻¹' {x | x = n ∨ x = n + K} = {0} := by
      ext k; simp only [Set.mem_preimage, Set.mem_ofPred_eq, Set.mem_singleton_iff]; omega
    rw [this, law_singleton hb hc hc2]
    exact ENNReal.ofReal_le_ofReal h
  · have : (fun k => n + k) ⁻¹' {x | x = n ∨ x = n + K} = {0} ∪ {K} := by
      ext k; simp only [Set.mem_preimage, Set.mem_ofPred_eq, Set.mem_singleton_iff, Set.mem_union]; omega
    rw [this]
    refine le_trans (measure_union_le _ _) ?_
    rw [law_singleton hb hc hc2, law_singleton hb hc hc2, ← ENNReal.ofReal_add (pmf_nonneg hb _) (pmf_nonneg hb _)]
    exact ENNReal.ofReal_le_ofReal h

end

/-- If `P` is dominated by `C * Q` pointwise outside a set, then also on every event up
to the weight of that set. -/
theorem dominated {α : Type} [Countable α] [MeasurableSpace α] [MeasurableSingletonClass α]
    (P Q : Measure α) (C : ENNReal) (Bad : Set α) (h : ∀ x, x ∉ Bad → P {x} ≤ C * Q {x}) (T : Set α) :
    P T ≤ C * Q T + P Bad := by
  have h1 : P T ≤ P (T \ Bad) + P Bad := by
    refine le_trans (measure_mono (t := (T \ Bad) ∪ Bad) ?_) (measure_union_le _ _)
    intro x hx
    by_cases hb : x ∈ Bad
    · exact Or.inr hb
    · exact Or.inl ⟨hx, hb⟩
  refine le_trans h1 (add_le_add ?_ (le_refl _))
  have hm : ∀ S : Set α, MeasurableSet S := fun S => S.to_countable.measurableSet
  calc P (T \ Bad) = ∑' x, (T \ Bad).indicator (fun x => P {x}) x := (Measure.tsum_indicator_apply_singleton P _ (hm _)).symm
    _ ≤ ∑' x, C * (T \ Bad).indicator (fun x => Q {x}) x := by
        apply ENNReal.tsum_le_tsum
        intro x
        by_cases hx : x ∈ T \ Bad
        · rw [Set.indicator_of_mem hx, Set.indicator_of_mem hx]; exact h x hx.2
        · rw [Set.indicator_of_notMem hx]; simp
    _ = C * Q (T \ Bad) := by rw [ENNReal.tsum_mul_left, Measure.tsum_indicator_apply_singleton Q _ (hm _)]
    _ ≤ C * Q T := mul_le_mul_right (measure_mono Set.sdiff_subset) _

/-- Counts with noise of span `b` and cutoff `c` are
`(2/b, 2 e^(1/b) e^(-c/b))` differentially private. -/
theorem law_dp {b c : ℝ} (hb : 0 < b) (hc : 0 ≤ c) (hc2 : 2 * c < 2 ^ 32) :
    DP (law b c) (2 / b) (2 * Real.exp (1 / b) * Real.exp (-(c / b))) := by
  have := law_prob hb hc hc2
  intro ι _ f f' hnb T
  obtain ⟨i, j, hij, hi, hj, hrest⟩ := hnb
  unfold release
  have hprob : ∀ k, IsProbabilityMeasure ((law b c).map (fun n => f k + n)) := fun k =>
    Measure.isProbabilityMeasure_map (by fun_prop)
  have hprob' : ∀ k, IsProbabilityMeasure ((law b c).map (fun n => f' k + n)) := fun k =>
    Measure.isProbabilityMeasure_map (by fun_prop)
  obtain ⟨E, hE⟩ : ∃ E : ℕ → Set ℕ, E = fun n => {x | x = n ∨ x = n + ⌊2 * c⌋.toNat} := ⟨_, rfl⟩
  have hdom := dominated (Measure.pi (fun k => (law b c).map (fun n => f k + n)))
    (Measure.pi (fun k => (law b c).map (fun n => f' k + n))) (ENNReal.ofReal (Real.exp (2 / b)))
    ({x | x i ∈ E (f i)} ∪ {x | x j ∈ E (f j)}) (by
      intro x hx
      rw [Measure.pi_singleton, Measure.pi_singleton]
      simp only [hE, Set.mem_union, Set.mem_ofPred_eq, not_or] at hx
      classical
      have hw : ENNReal.ofReal (Real.exp (2 / b)) =
          ∏ k, ((if k = i then ENNReal.ofReal (Real.exp (1 / b)) else 1) * (if k = j then ENNReal.ofReal (Real.exp (1 / b)) else 1)) := by
        rw [Finset.prod_mul_distrib, Finset.prod_ite_eq' , Finset.prod_ite_eq', if_pos (Finset.mem_univ _),
          if_pos (Finset.mem_univ _), ← ENNReal.ofReal_mul (Real.exp_pos _).le, ← Real.exp_add]
        congr 2; ring
      rw [hw, ← Finset.prod_mul_distrib]
      apply Finset.prod_le_prod'
      intro k _
      by_cases hki : k = i
      · subst hki
        rw [if_pos rfl, if_neg hij, mul_one]
        exact ratio hb hc hc2 (Or.inr hi) hx.1.1 hx.1.2
      · rw [if_neg hki, one_mul]
        by_cases hkj : k = j
        · subst hkj
          rw [if_pos rfl]
          exact ratio hb hc hc2 (Or.inl hj) hx.2.1 hx.2.2
        · rw [if_neg hkj, one_mul, hrest k hki hkj]) T
  refine le_trans hdom (add_le_add (le_refl _) ?_)
  have hmarg : ∀ k, Measure.pi (fun k => (law b c).map (fun n => f k + n)) {x | x k ∈ E (f k)} ≤
      ENNReal.ofReal (Real.exp (1 / b) * Real.exp (-(c / b))) := by
    intro k
    have hmp := measurePreserving_eval (fun k => (law b c).map (fun n => f k + n)) k
    have := hmp.measure_preimage (s := E (f k)) (MeasurableSet.of_discrete.nullMeasurableSet)
    have e : {x : ι → ℕ | x k ∈ E (f k)} = Function.eval k ⁻¹' E (f k) := rfl
    rw [e, this, hE]
    exact ends hb hc hc2 (f k)
  refine le_trans (measure_union_le _ _) (le_trans (add_le_add (hmarg i) (hmarg j)) ?_)
  rw [← ENNReal.ofReal_add (by positivity) (by positivity)]
  apply ENNReal.ofReal_le_ofReal
  linarith

/-- The two ends of the domain give the query away. -/
theorem law_not_dp {b c : ℝ} (hb : 0 < b) (hc1 : 1 ≤ c) (hc2 : 2 * c < 2 ^ 32) (ε δ : ℝ)
    (hδ : δ < Real.exp (-((c - 1) / b)) / 2 + Real.exp (-(c / b)) / 2 - Real.exp (-((c - 1) / b)) / 2 * (Real.exp (-(c / b)) / 2)) :
    ¬ DP (law b c) ε δ := by
  have hc : 0 ≤ c := by linarith
  have := law_prob hb hc hc2
  obtain ⟨K, hK⟩ : ∃ K, K = ⌊2 * c⌋.toNat := ⟨_, rfl⟩
  have hKr : (K : ℝ) = (⌊2 * c⌋ : ℝ) := by
    have h5 : 0 ≤ ⌊2 * c⌋ := Int.floor_nonneg.mpr (by linarith)
    have h6 : ((⌊2 * c⌋.toNat : ℤ)) = ⌊2 * c⌋ := Int.toNat_of_nonneg h5
    rw [hK]
    exact_mod_cast h6
  have hK1 : (K : ℝ) ≤ 2 * c := by rw [hKr]; exact Int.floor_le _
  have hK2 : 2 * c < K + 1 := by rw [hKr]; exact Int.lt_floor_add_one _
  have hK0 : K ≠ 0 := by
    rintro rfl
    norm_num at hK2
    linarith
  obtain ⟨p, hp⟩ : ∃ p, p = Real.exp (-(c / b)) / 2 := ⟨_, rfl⟩
  obtain ⟨a, ha⟩ : ∃ a, a = Real.exp (-((c - 1) / b)) / 2 := ⟨_, rfl⟩
  rw [← ha, ← hp] at hδ
  have ha1 : a ≤ 1 / 2 := by
    have : Real.exp (-((c - 1) / b)) ≤ 1 := Real.exp_le_one_iff.2 (by have : 0 ≤ (c - 1) / b := div_nonneg (by linarith) hb.le; linarith)
    linarith
  have hp1 : p ≤ 1 / 2 := by
    have : Real.exp (-(c / b)) ≤ 1 := Real.exp_le_one_iff.2 (by have : 0 ≤ c / b := div_nonneg (by linarith) hb.le; linarith)
    linarith
  have ha0 : 0 ≤ a := by rw [ha]; positivity
  have hp0 : 0 ≤ p := by rw [hp]; positivity
  have p0 : law b c {0} = ENNReal.ofReal a := by
    rw [law_singleton hb hc hc2]
    congr 1
    unfold pmf
    rw [show tail b c 0 = 1 from if_pos rfl, tail_in (by norm_num) (by push_cast; linarith)]
    push_cast
    rw [show (1 : ℝ) - c = -(c - 1) by ring, cdf_neg hb]
    unfold laplaceCDF
    rw [if_pos (by linarith), ha]
    ring
  have pK : ENNReal.ofReal p ≤ law b c {K} := by
    rw [law_singleton hb hc hc2]
    refine ENNReal.ofReal_le_ofReal ?_
    unfold pmf
    rw [tail_in hK0 hK1, tail_out (by omega) (by push_cast; exact hK2), sub_zero]
    unfold laplaceCDF
    rw [if_pos (by linarith), hp]
    have : Real.exp (-(c / b)) ≤ Real.exp (-((K - c) / b)) := by
      refine Real.exp_le_exp.2 (neg_le_neg (div_le_div_of_nonneg_right (by linarith) hb.le))
    linarith
  intro hdp
  have hnb : Neighbours (ι := Fin 2) ![1, 0] ![0, 1] :=
    ⟨0, 1, by decide, rfl, rfl, by intro i h0 h1; omega⟩
  have hT := hdp (Fin 2) ![1, 0] ![0, 1] hnb {x | x 0 = K + 1 ∨ x 1 = 0}
  have hm : ∀ n : ℕ, IsProbabilityMeasure ((law b c).map (fun k => n + k)) := fun n =>
    Measure.isProbabilityMeasure_map (by fun_prop)
  have hrel : ∀ f : Fin 2 → ℕ, release (law b c) f {x | x 0 = K + 1 ∨ x 1 = 0} =
      1 - (1 - (law b c).map (fun k => f 0 + k) {K + 1}) * (1 - (law b c).map (fun k => f 1 + k) {0}) := by
    intro f
    have hmf : ∀ k, IsProbabilityMeasure ((law b c).map (fun n => f k + n)) := fun k => hm (f k)
    unfold release
    have hcs : {x : Fin 2 → ℕ | x 0 = K + 1 ∨ x 1 = 0} = (Set.univ.pi ![({K + 1} : Set ℕ)ᶜ, {0}ᶜ])ᶜ := by
      ext x
      simp only [Set.mem_ofPred_eq, Set.mem_compl_iff, Set.mem_univ_pi, Fin.forall_fin_two]
      simp
      tauto
    rw [hcs, prob_compl_eq_one_sub (MeasurableSet.univ_pi (by intro i; exact MeasurableSet.of_discrete)),
      Measure.pi_pi, Fin.prod_univ_two]
    simp only [Matrix.cons_val_zero, Matrix.cons_val_one]
    rw [prob_compl_eq_one_sub (measurableSet_singleton _), prob_compl_eq_one_sub (measurableSet_singleton _)]
  rw [hrel, hrel] at hT
  simp only [Matrix.cons_val_zero, Matrix.cons_val_one] at hT
  rw [shifted_singleton, shifted_singleton, shifted_singleton, shifted_singleton] at hT
  have pK1 : law b c {K + 1} = 0 := by
    rw [law_singleton hb hc hc2]
    unfold pmf
    rw [tail_out (by omega) (by push_cast; exact hK2), tail_out (by omega) (by push_cast; linarith)]
    simp
  rw [if_pos (by omega), if_pos (by omega), if_pos (by omega), if_neg (by omega), Nat.sub_zero, Nat.sub_zero, Nat.add_sub_cancel, pK1, p0] at hT
  simp only [tsub_zero, mul_one, tsub_self, mul_zero, zero_add] at hT
  have h1 : 1 - (1 - ENNReal.ofReal p) * (1 - ENNReal.ofReal a) ≤ ENNReal.ofReal δ := by
    refine le_trans ?_ hT
    gcongr
  rw [← ENNReal.ofReal_one, ← ENNReal.ofReal_sub _ hp0, ← ENNReal.ofReal_sub _ ha0, ← ENNReal.ofReal_mul (by linarith),
    ← ENNReal.ofReal_sub _ (mul_nonneg (by linarith) (by linarith))] at h1
  have hpos : 0 ≤ 1 - (1 - p) * (1 - a) := by nlinarith
  by_cases hd : 0 ≤ δ
  · rw [ENNReal.ofReal_le_ofReal_iff hd] at h1
    nlinarith
  · rw [ENNReal.ofReal_of_nonpos (by linarith : δ ≤ 0), nonpos_iff_eq_zero, ENNReal.ofReal_eq_zero] at h1
    have : 0 < p := by rw [hp]; positivity
    nlinarith

end DPPIR.Noise
