import Verif.Proofs.NoiseLawDP
import Mathlib.MeasureTheory.Measure.Real

/-!
# Differential privacy of laws that are close to a private one
-/

open MeasureTheory

namespace DPPIR.Noise
open DPPIR.Spec

section
variable {ι : Type} [Fintype ι]

/-- Two families of laws that agree outside `p` compare as their parts in `p` do. -/
theorem pi_split (p : ι → Prop) [DecidablePred p] (m m' : ι → Measure ℕ) [∀ i, IsProbabilityMeasure (m i)]
    [∀ i, IsProbabilityMeasure (m' i)] (hout : ∀ i, ¬ p i → m i = m' i) (C β : ENNReal)
    (hin : ∀ S : Set (Subtype p → ℕ), Measure.pi (fun i : Subtype p => m i) S ≤ C * Measure.pi (fun i : Subtype p => m' i) S + β)
    (T : Set (ι → ℕ)) : Measure.pi m T ≤ C * Measure.pi m' T + β := by
  have hT : MeasurableSet T := T.to_countable.measurableSet
  have key : ∀ k : ι → Measure ℕ, (∀ i, IsProbabilityMeasure (k i)) → Measure.pi k T =
      ∫⁻ y, Measure.pi (fun i : Subtype p => k i) ((fun x => (x, y)) ⁻¹' ((MeasurableEquiv.piEquivPiSubtypeProd (fun _ => ℕ) p).symm ⁻¹' T))
        ∂(Measure.pi fun i : {i // ¬ p i} => k i) := by
    intro k hk
    have h1 := (measurePreserving_piEquivPiSubtypeProd k p).symm
    rw [← h1.measure_preimage hT.nullMeasurableSet, Measure.prod_apply_symm ((MeasurableEquiv.measurable _) hT)]
  rw [key m inferInstance, key m' inferInstance]
  have hr : (fun i : {i // ¬ p i} => m i) = fun i : {i // ¬ p i} => m' i := funext fun i => hout i i.2
  rw [hr]
  refine le_trans (lintegral_mono fun y => hin _) ?_
  rw [lintegral_add_right _ measurable_const, lintegral_const_mul _ (measurable_of_countable _)]
  simp

/-- Changing the law of one coordinate. -/
theorem pi_one (a : ι) (m m' : ι → Measure ℕ) [∀ i, IsProbabilityMeasure (m i)] [∀ i, IsProbabilityMeasure (m' i)]
    (hout : ∀ i, i ≠ a → m i = m' i) (β : ENNReal) (hin : ∀ S, m a S ≤ m' a S + β) (T : Set (ι → ℕ)) :
    Measure.pi m T ≤ Measure.pi m' T + β := by
  classical
  have h := pi_split (fun i => i = a) m m' hout 1 β (fun S => ?_) T
  · rwa [one_mul] at h
  · have key : ∀ (inst : Fintype {i // i = a}) (k : ι → Measure ℕ), (∀ i, IsProbabilityMeasure (k i)) →
        Measure.pi (fun i : {i // i = a} => k i) S = k a ((MeasurableEquiv.piUnique (fun _ : {i // i = a} => ℕ)).symm ⁻¹' S) := by
      intro inst k hk
      have h1 := (measurePreserving_piUnique (fun i : {i // i = a} => k i)).symm
      rw [← h1.measure_preimage S.to_countable.measurableSet.nullMeasurableSet]
      rfl
    rw [key _ m inferInstance, key _ m' inferInstance, one_mul]
    exact hin _

end

/-- If the counts with noise `μ` are `(ε, δ)` differentially private and `ν` is within
`τ` of `μ` on every event, the counts with noise `ν` are
`(ε, δ + 2 (1 + e^ε) τ)` differentially private, whatever the number of keys. -/
theorem DP.close {μ ν : Measure ℕ} [IsProbabilityMeasure μ] [IsProbabilityMeasure ν] {ε δ τ : ℝ} (hδ : 0 ≤ δ) (hτ : 0 ≤ τ) (hμ : DP μ ε δ)
    (h1 : ∀ S, μ S ≤ ν S + ENNReal.ofReal τ) (h2 : ∀ S, ν S ≤ μ S + ENNReal.ofReal τ) :
    DP ν ε (δ + 2 * (1 + Real.exp ε) * τ) := by
  classical
  intro ι _ h h' hn T
  obtain ⟨a, b, hab, ha, hb, hrest⟩ := hn
  obtain ⟨mix, hmix⟩ : ∃ mix : (ι → ℕ) → (ι → Prop) → ι → Measure ℕ,
      mix = fun h q i => (if q i then μ else ν).map (fun n => h i + n) := ⟨_, rfl⟩
  have hpr : ∀ h q i, IsProbabilityMeasure (mix h q i) := by
    intro h q i
    rw [hmix]
    simp only
    split <;> exact Measure.isProbabilityMeasure_map (by fun_prop)
  have hrel : ∀ h, release ν h = Measure.pi (mix h (fun _ => False)) := by
    intro h
    unfold release
    rw [hmix]
    simp
  have hmap1 : ∀ n S, ν.map (fun k => n + k) S ≤ μ.map (fun k => n + k) S + ENNReal.ofReal τ := by
    intro n S
    rw [Measure.map_apply (by fun_prop) .of_discrete, Measure.map_apply (by fun_prop) .of_discrete]
    exact h2 _
  have hmap2 : ∀ n S, μ.map (fun k => n + k) S ≤ ν.map (fun k => n + k) S + ENNReal.ofReal τ := by
    intro n S
    rw [Measure.map_apply (by fun_prop) .of_discrete, Measure.map_apply (by fun_prop) .of_discrete]
    exact h1 _
  -- to `μ` in the two coordinates, and back
  have step1 : ∀ h, Measure.pi (mix h (fun _ => False)) T ≤
      Measure.pi (mix h (fun i => i = a ∨ i = b)) T + (ENNReal.ofReal τ + ENNReal.ofReal τ) := by
    intro h
    have e1 := pi_one a (mix h (fun _ => False)) (mix h (fun i => i = a)) (fun i hi => by rw [hmix]; simp [hi]) (ENNReal.ofReal τ)
      (fun S => by rw [hmix]; simpa using hmap1 (h a) S) T
    have e2 := pi_one b (mix h (fun i => i = a)) (mix h (fun i => i = a ∨ i = b)) (fun i hi => by rw [hmix]; simp [hi]) (ENNReal.ofReal τ)
      (fun S => by rw [hmix]; simpa [Ne.symm hab] using hmap1 (h b) S) T
    refine le_trans e1 ?_
    rw [← add_assoc]
    exact add_le_add_left e2 _
  have step2 : ∀ h, Measure.pi (mix h (fun i => i = a ∨ i = b)) T ≤
      Measure.pi (mix h (fun _ => False)) T + (ENNReal.ofReal τ + ENNReal.ofReal τ) := by
    intro h
    have e1 := pi_one a (mix h (fun i => i = a)) (mix h (fun _ => False)) (fun i hi => by rw [hmix]; simp [hi]) (ENNReal.ofReal τ)
      (fun S => by rw [hmix]; simpa using hmap2 (h a) S) T
    have e2 := pi_one b (mix h (fun i => i = a ∨ i = b)) (mix h (fun i => i = a)) (fun i hi => by rw [hmix]; simp [hi]) (ENNReal.ofReal τ)
      (fun S => by rw [hmix]; simpa [Ne.symm hab] using hmap2 (h b) S) T
    refine le_trans e2 ?_
    rw [← add_assoc]
    exact add_le_add_left e1 _
  have mid : Measure.pi (mix h (fun i => i = a ∨ i = b)) T ≤
      ENNReal.ofReal (Real.exp ε) * Measure.pi (mix h' (fun i => i = a ∨ i = b)) T + ENNReal.ofReal δ := by
    refine pi_split (fun i => i = a ∨ i = b) _ _ ?_ _ _ (fun S => ?_) T
    · intro i hi
      rw [hmix]
      simp only [if_neg hi]
      rw [hrest i (fun e => hi (Or.inl e)) (fun e => hi (Or.inr e))]
    · have e : ∀ h, (fun i : {i // i = a ∨ i = b} => mix h (fun i => i = a ∨ i = b) i) =
          fun i : {i // i = a ∨ i = b} => μ.map (fun n => h i + n) := by
        intro h
        funext i
        rw [hmix]
        simp only [if_pos i.2]
      rw [e h, e h']
      refine hμ {i // i = a ∨ i = b} (fun i => h i) (fun i => h' i) ⟨⟨a, Or.inl rfl⟩, ⟨b, Or.inr rfl⟩, ?_, ha, hb, ?_⟩ S
      · intro e
        exact hab (congrArg Subtype.val e)
      · intro i hi1 hi2
        rcases i.2 with e | e
        · exact absurd (Subtype.ext e) hi1
        · exact absurd (Subtype.ext e) hi2
  rw [hrel, hrel]
  have hE := Real.exp_pos ε
  have htot : ENNReal.ofReal (δ + 2 * (1 + Real.exp ε) * τ) =
      ENNReal.ofReal (Real.exp ε) * (ENNReal.ofReal τ + ENNReal.ofReal τ) + ENNReal.ofReal δ + (ENNReal.ofReal τ + ENNReal.ofReal τ) := by
    rw [← ENNReal.ofReal_add hτ hτ, ← ENNReal.ofReal_mul hE.le, ← ENNReal.ofReal_add (by positivity) hδ,
      ← ENNReal.ofReal_add (by positivity) (by positivity)]
    congr 1
    ring
  calc Measure.pi (mix h (fun _ => False)) T
      ≤ Measure.pi (mix h (fun i => i = a ∨ i = b)) T + (ENNReal.ofReal τ + ENNReal.ofReal τ) := step1 h
    _ ≤ ENNReal.ofReal (Real.exp ε) * Measure.pi (mix h' (fun i => i = a ∨ i = b)) T + ENNReal.ofReal δ +
          (ENNReal.ofReal τ + ENNReal.ofReal τ) := add_le_add_left mid _
    _ ≤ ENNReal.ofReal (Real.exp ε) * (Measure.pi (mix h' (fun _ => False)) T + (ENNReal.ofReal τ + ENNReal.ofReal τ)) + ENNReal.ofReal δ +
          (ENNReal.ofReal τ + ENNReal.ofReal τ) := by
        gcongr
        exact step2 h'
    _ = ENNReal.ofReal (Real.exp ε) * Measure.pi (mix h' (fun _ => False)) T + ENNReal.ofReal (δ + 2 * (1 + Real.exp ε) * τ) := by
        rw [htot, mul_add]
        ring

/-- Two laws on `0, ..., K` whose tails are within `κ` are within `K κ` on every event. -/
theorem close_of_tails {μ ν : Measure ℕ} [IsProbabilityMeasure μ] [IsProbabilityMeasure ν] {K : ℕ} {κ : ℝ}
    (hμ : μ {n | K < n} = 0) (hν : ν {n | K < n} = 0)
    (h : ∀ k, 1 ≤ k → k ≤ K → |ν.real {n | k ≤ n} - μ.real {n | k ≤ n}| ≤ κ) (S : Set ℕ) :
    ν S ≤ μ S + ENNReal.ofReal (K * κ) := by
  classical
  have hreal : ∀ ρ : Measure ℕ, IsProbabilityMeasure ρ → ρ {n | K < n} = 0 → ρ.real S =
      ∑ k ∈ Finset.range (K + 1), (if k ∈ S then (ρ.real {n | k ≤ n} - ρ.real {n | k + 1 ≤ n}) else 0) := by
    intro ρ hρ h0
    have e1 : ρ S = ρ (S ∩ {n | n ≤ K}) := by
      refine le_antisymm ?_ (measure_mono Set.inter_subset_left)
      calc ρ S ≤ ρ ((S ∩ {n | n ≤ K}) ∪ {n | K < n}) := measure_mono (fun n hn => by
              by_cases hk : n ≤ K
              · exact Or.inl ⟨hn, hk⟩
              · exact Or.inr (not_le.1 hk))
        _ ≤ _ := measure_union_le _ _
        _ = _ := by rw [h0, add_zero]
    have e2 : S ∩ {n | n ≤ K} = ((Finset.range (K + 1)).filter (· ∈ S) : Finset ℕ) := by
      ext n
      simp only [Set.mem_inter_iff, Set.mem_ofPred_eq, Finset.coe_filter, Finset.mem_range]
      constructor
      · rintro ⟨h1, h2⟩; exact ⟨by omega, h1⟩
      · rintro ⟨h1, h2⟩; exact ⟨h2, by omega⟩
    rw [Measure.real, e1, e2, ← Measure.real, ← sum_measureReal_singleton, Finset.sum_filter]
    refine Finset.sum_congr rfl (fun k _ => ?_)
    split
    · have : ({k} : Set ℕ) = {n | k ≤ n} \ {n | k + 1 ≤ n} := by
        ext n
        simp only [Set.mem_singleton_iff, Set.mem_sdiff, Set.mem_ofPred_eq]
        omega
      rw [this, measureReal_sdiff (fun n hn => by simp only [Set.mem_ofPred_eq] at *; omega) .of_discrete]
    · rfl
  have hD0 : ν.real {n | 0 ≤ n} - μ.real {n | 0 ≤ n} = 0 := by simp
  have hDK : ν.real {n | K + 1 ≤ n} - μ.real {n | K + 1 ≤ n} = 0 := by
    have e : {n : ℕ | K + 1 ≤ n} = {n | K < n} := rfl
    rw [e]
    simp [Measure.real, hμ, hν]
  obtain ⟨D, hD⟩ : ∃ D : ℕ → ℝ, D = fun k => ν.real {n | k ≤ n} - μ.real {n | k ≤ n} := ⟨_, rfl⟩
  have hsum : ∀ n, n ≤ K → ∑ k ∈ Finset.range (n + 1), (if k ∈ S then D k - D (k + 1) else 0) + (if n ∈ S then D (n + 1) else 0) ≤ n * κ := by
    intro n hn
    induction n with
    | zero =>
      rw [Finset.sum_range_succ, Finset.sum_range_zero]
      have : D 0 = 0 := by rw [hD]; exact hD0
      split <;> simp [this]
    | succ n ih =>
      have h1 := ih (by omega)
      have h2 : |D (n + 1)| ≤ κ := by rw [hD]; exact h (n + 1) (by omega) hn
      rw [abs_le] at h2
      rw [Finset.sum_range_succ]
      push_cast
      split at h1 <;> split <;> linarith [h2.1, h2.2]
  have hfin := hsum K (Nat.le_refl _)
  have hDK' : D (K + 1) = 0 := by rw [hD]; exact hDK
  rw [hDK'] at hfin
  have hle : ν.real S ≤ μ.real S + K * κ := by
    rw [hreal ν inferInstance hν, hreal μ inferInstance hμ]
    have e : ∑ k ∈ Finset.range (K + 1), (if k ∈ S then D k - D (k + 1) else 0) =
        ∑ k ∈ Finset.range (K + 1), (if k ∈ S then (ν.real {n | k ≤ n} - ν.real {n | k + 1 ≤ n}) else 0) -
        ∑ k ∈ Finset.range (K + 1), (if k ∈ S then (μ.real {n | k ≤ n} - μ.real {n | k + 1 ≤ n}) else 0) := by
      rw [← Finset.sum_sub_distrib]
      refine Finset.sum_congr rfl (fun k _ => ?_)
      rw [hD]
      split
      · simp only; ring
      · ring
    rw [e] at hfin
    have : (if K ∈ S then (0 : ℝ) else 0) = 0 := by split <;> rfl
    rw [this] at hfin
    linarith
  have hκ : 0 ≤ (K : ℝ) * κ := by
    rcases Nat.eq_zero_or_pos K with h0 | h0
    · rw [h0]; simp
    · have := h 1 (le_refl _) h0
      have h2 := abs_nonneg (ν.real {n | 1 ≤ n} - μ.real {n | 1 ≤ n})
      exact mul_nonneg (Nat.cast_nonneg _) (le_trans h2 this)
  rw [← ENNReal.ofReal_toReal (measure_ne_top ν S), ← ENNReal.ofReal_toReal (measure_ne_top μ S),
    ← ENNReal.ofReal_add ENNReal.toReal_nonneg hκ]
  exact ENNReal.ofReal_le_ofReal hle

end DPPIR.Noise
