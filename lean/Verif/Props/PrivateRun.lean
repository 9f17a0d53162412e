import Verif.Proofs.PrivateRun
import Verif.Props.Privacy
import Verif.Props.Noise

/-!
# C58: privacy of what the backend counts in whole runs
-/

open MeasureTheory

namespace DPPIR.Props
open DPPIR DPPIR.Protocol DPPIR.Noise DPPIR.Spec Proc Onion

variable {box : SealedBox}

/-- **C58.** Let the samples of one party `k` be independent with a law `μ` that is
`(ε, δ)` differentially private for histograms, and let everything else in the
deployment be fixed: the draws of all other parties, the database and all the client's
queries but one.  For every set `T` of numbers of look-ups per row, the probability that
some complete run of the deployment shows the backend numbers in `T` is at most `e^ε`
times the probability that every complete run shows it numbers in `T` when the client
makes another query instead, plus `δ`.  So whoever sees the numbers of look-ups at the
backend, chooses the schedule and knows everything else learns no more about one query
than `(ε, δ)` differential privacy allows. -/
theorem C58_lookups_private (c : Chain box) (k : Nat) (hk : k + 1 < c.parties) (μ : Measure ℕ) [IsProbabilityMeasure μ]
    (ε δ : ℝ) (he : 0 ≤ ε) (hμ : DP μ ε δ) (B : ℕ) (hB : μ {n | B < n} = 0) (hB2 : B < 2 ^ 32)
    (h : ∀ σ : Fin c.rows → ℕ, (∀ i, σ i ≤ B) → (c.sampling k σ).Valid) (offline : Bool) (row row' : Nat → Nat) (j : Nat)
    (hd : ∀ i, i ≠ j → row i = row' i) (T : Set (Fin c.rows → ℕ)) :
    (Measure.pi fun _ => μ) {σ : Fin c.rows → ℕ | ∃ x ∈ T, ((c.asking row).sampling k σ).Counts offline x} ≤
      ENNReal.ofReal (Real.exp ε) * (Measure.pi fun _ => μ) {σ : Fin c.rows → ℕ | (∃ x : Fin c.rows → ℕ, ((c.asking row').sampling k σ).Counts offline x) ∧
        ∀ x : Fin c.rows → ℕ, ((c.asking row').sampling k σ).Counts offline x → x ∈ T} + ENNReal.ofReal δ := by
  have hrows : 1 ≤ c.rows := (h (fun _ => 0) (fun _ => Nat.zero_le _)).rows.1
  have hval : ∀ r (σ : Fin c.rows → ℕ), (∀ i, σ i ≤ B) → ((c.asking r).sampling k σ).Valid :=
    fun r σ hσ => asking_valid c k σ r (h σ hσ)
  refine private_counts μ he hμ hB _ _ (fun key : Fin c.rows => askedFor (c.asking row) key + otherNoise c k key)
    (fun key : Fin c.rows => askedFor (c.asking row') key + otherNoise c k key) ?_ ?_ ?_ T
  · exact fun σ hσ x hx => counts_eq (c.asking row) k hk σ (fun i => lt_of_le_of_lt (hσ i) hB2) (hval row σ hσ) offline x hx
  · exact fun σ hσ => ⟨counts_exist (hval row' σ hσ) offline c.rows, fun x hx =>
      counts_eq (c.asking row') k hk σ (fun i => lt_of_le_of_lt (hσ i) hB2) (hval row' σ hσ) offline x hx⟩
  · rcases asking_neighbours c hrows row row' j hd (otherNoise c k) with ⟨e, -⟩ | hn
    · exact Or.inl (funext fun key => congrFun e key)
    · exact Or.inr hn

/-- **C58** with several servers per party, for the online stage: the samples of the
servers of one party are independent with law `μ`, the counts are those of all servers
of the backend together, and one query of one client changes. -/
theorem C58_lookups_private_parallel (g : Grid box) (k : Nat) (hk : k + 1 < g.parties) (μ : Measure ℕ) [IsProbabilityMeasure μ]
    (ε δ : ℝ) (he : 0 ≤ ε) (hμ : DP μ ε δ) (B : ℕ) (hB : μ {n | B < n} = 0) (hB2 : B < 2 ^ 32)
    (h : ∀ σ : Fin g.rows → ℕ, (∀ i, σ i ≤ B) → (g.sampling k σ).Valid) (s : Nat) (hs : s < g.servers) (row row' : Nat → Nat) (j : Nat)
    (hd : ∀ i, i ≠ j → row i = row' i) (T : Set (Fin g.rows → ℕ)) :
    (Measure.pi fun _ => μ) {σ : Fin g.rows → ℕ | ∃ x ∈ T, ((g.asking s row).sampling k σ).Counts false x} ≤
      ENNReal.ofReal (Real.exp ε) * (Measure.pi fun _ => μ)
        {σ : Fin g.rows → ℕ | (∃ x : Fin g.rows → ℕ, ((g.asking s row').sampling k σ).Counts false x) ∧
          ∀ x : Fin g.rows → ℕ, ((g.asking s row').sampling k σ).Counts false x → x ∈ T} + ENNReal.ofReal δ := by
  have hrows : 1 ≤ g.rows := by
    have hv := h (fun _ => 0) (fun _ => Nat.zero_le _)
    have h1 : g.servers ≤ g.rows := hv.rows.1
    have h2 : 2 ≤ g.servers := hv.servers.1
    omega
  have hval : ∀ r (σ : Fin g.rows → ℕ), (∀ i, σ i ≤ B) → ((g.asking s r).sampling k σ).Valid :=
    fun r σ hσ => Grid.asking_valid g k s σ r (h σ hσ)
  refine private_counts μ he hμ hB _ _
    (fun key : Fin g.rows => (g.asking s row).askedFor key +
      (((List.range (g.parties - 1)).filter (fun party => party ≠ k)).map (fun party => g.noiseFor party key)).sum)
    (fun key : Fin g.rows => (g.asking s row').askedFor key +
      (((List.range (g.parties - 1)).filter (fun party => party ≠ k)).map (fun party => g.noiseFor party key)).sum) ?_ ?_ ?_ T
  · exact fun σ hσ x hx => Grid.counts_eq (g.asking s row) k hk σ (fun i => lt_of_le_of_lt (hσ i) hB2) (hval row σ hσ) false
      (fun h => by cases h) x hx
  · exact fun σ hσ => ⟨Grid.counts_exist (hval row' σ hσ) false (fun h => by cases h) g.rows, fun x hx =>
      Grid.counts_eq (g.asking s row') k hk σ (fun i => lt_of_le_of_lt (hσ i) hB2) (hval row' σ hσ) false (fun h => by cases h) x hx⟩
  · rcases Grid.asking_neighbours g hrows s hs row row' j hd
      (fun key => (((List.range (g.parties - 1)).filter (fun party => party ≠ k)).map (fun party => g.noiseFor party key)).sum) with e | hn
    · exact Or.inl (funext fun key => congrFun e key)
    · exact Or.inr hn

/-- **C58** for the noise of the code: with real sampling and accepted parameters
`epsilon > 0`, `0 < delta ≤ 1`, the numbers of look-ups are
`(epsilon, 2 * e^(epsilon/2) * delta)` differentially private, whoever the honest party.

Missing: the rounding of the sampler and its draws from `rand()` (`noiseLaw` is the law
of the sample in exact arithmetic with uniform draws), and the factor on delta, both
as in C20. -/
theorem C58_noise_of_the_code_partial (epsilon delta : ℝ) (he : 0 < epsilon) (hd0 : 0 < delta) (hd1 : delta ≤ 1)
    (d : Dist) (hd : Dist.new .exact (.fin epsilon) (.fin delta) = .ok d) (cutoff : ℝ) (hc : d.cutoff = .fin cutoff)
    (c : Chain box) (k : Nat) (hk : k + 1 < c.parties)
    (h : ∀ σ : Fin c.rows → ℕ, (∀ i, (σ i : ℝ) ≤ 2 * cutoff) → (c.sampling k σ).Valid) (offline : Bool)
    (row row' : Nat → Nat) (j : Nat) (hr : ∀ i, i ≠ j → row i = row' i) (T : Set (Fin c.rows → ℕ)) :
    (Measure.pi fun _ => noiseLaw epsilon delta) {σ : Fin c.rows → ℕ | ∃ x ∈ T, ((c.asking row).sampling k σ).Counts offline x} ≤
      ENNReal.ofReal (Real.exp epsilon) * (Measure.pi fun _ => noiseLaw epsilon delta)
        {σ : Fin c.rows → ℕ | (∃ x : Fin c.rows → ℕ, ((c.asking row').sampling k σ).Counts offline x) ∧
          ∀ x : Fin c.rows → ℕ, ((c.asking row').sampling k σ).Counts offline x → x ∈ T} +
      ENNReal.ofReal (2 * Real.exp (epsilon / 2) * delta) := by
  have hdf : d = fields .exact (.fin epsilon) (.fin delta) := by
    unfold Dist.new at hd
    simp only at hd
    rw [bind_eq_ok] at hd
    obtain ⟨w, -, h2⟩ := hd
    injection h2 with h2
    exact h2.symm
  have hA : SoundRounding .exact := ⟨fun _ _ h => h, rfl, fun _ => ⟨rfl, rfl⟩⟩
  obtain ⟨c', h1, h2, h3, -, h4⟩ := C17_domain .exact hA _ _ d hd (by rw [hc]; rfl)
  have hcc : c' = cutoff := by rw [hc] at h1; injection h1 with h1; exact h1.symm
  subst hcc
  have hb : 0 < 2 / epsilon := by positivity
  have hf := fields_exact epsilon delta he hd0 hd1
  have hcut : c' = 2 / epsilon * Real.log (1 / delta) := by
    rw [hdf, hf] at hc
    injection hc with hc
    exact hc.symm
  have hmeas : Measurable (sampleValue (fields .exact (.fin epsilon) (.fin delta))) := by
    rw [hf, ← hcut]
    exact measurable_sampleValue hb h2 h3 false
  have hu : IsProbabilityMeasure uniform2 := inferInstance
  have hp : IsProbabilityMeasure (noiseLaw epsilon delta) := Measure.isProbabilityMeasure_map hmeas.aemeasurable
  have hfl : (⌊2 * c'⌋.toNat : ℝ) ≤ 2 * c' := by
    have h5 : 0 ≤ ⌊2 * c'⌋ := Int.floor_nonneg.mpr (by linarith)
    have h6 : ((⌊2 * c'⌋.toNat : ℤ)) = ⌊2 * c'⌋ := Int.toNat_of_nonneg h5
    have h7 : (⌊2 * c'⌋.toNat : ℝ) = (⌊2 * c'⌋ : ℝ) := by exact_mod_cast h6
    rw [h7]
    exact Int.floor_le _
  refine C58_lookups_private c k hk (noiseLaw epsilon delta) epsilon _ he.le
    (C20_differential_privacy_partial epsilon delta he hd0 hd1 d hd) ⌊2 * c'⌋.toNat ?_ ?_ ?_ offline row row' j hr T
  · unfold noiseLaw
    rw [Measure.map_apply hmeas (MeasurableSet.of_discrete)]
    convert measure_empty (μ := uniform2)
    ext w
    simp only [Set.mem_preimage, Set.mem_ofPred_eq, Set.mem_empty_iff_false, iff_false, not_lt]
    rw [← hdf]
    unfold sampleValue
    obtain ⟨m, h5, h6⟩ := h4 (.fin w.1) (.fin w.2)
    rw [h5]
    exact h6
  · have : (⌊2 * c'⌋.toNat : ℝ) < 2 ^ 32 := lt_of_le_of_lt hfl h3
    exact_mod_cast this
  · intro σ hσ
    refine h σ (fun i => le_trans ?_ hfl)
    exact_mod_cast hσ i

/-- **C58** is false of the default build.  There every sample is the fixed number
`floor(cutoff)` (`C17_domain`), and with fixed samples the numbers of look-ups tell any
two different queries apart in every run: the same numbers are never seen for both. -/
theorem C58_violated_fixed_samples (c : Chain box) (h : c.Valid) (offline : Bool) (row row' : Nat → Nat) (j : Nat)
    (hj : j < c.count) (hd : ∀ i, i ≠ j → row i = row' i) (hne : row j % c.rows ≠ row' j % c.rows) (x : Fin c.rows → ℕ)
    (hx : (c.asking row).Counts offline x) : ¬ (c.asking row').Counts offline x := by
  intro hx'
  have hv : ∀ r, (c.asking r).Valid := by
    intro r
    have hq : ∀ i, (c.asking r).queries i = c.queries i := by
      intro i
      induction i with
      | zero => rfl
      | succ i ih => rw [Chain.queries, Chain.queries, ih]; rfl
    exact ⟨h.parties, h.rows, h.keys, h.pairs, h.division, by rw [hq]; exact h.fits⟩
  have e1 := counts_total (c.asking row) (hv row) offline x hx
  have e2 := counts_total (c.asking row') (hv row') offline x hx'
  have e3 : ∀ key : Fin c.rows, askedFor (c.asking row) key = askedFor (c.asking row') key := by
    intro key
    have h1 := congrFun e1 key
    have h2 := congrFun e2 key
    rw [h1] at h2
    exact Nat.add_right_cancel h2
  have h2 : 2 ≤ c.rows := by
    by_contra hlt
    have := h.rows.1
    have h1 : c.rows = 1 := by omega
    rw [h1, Nat.mod_one, Nat.mod_one] at hne
    exact hne rfl
  have hw : ∀ r, (c.asking r).wanted j = r j % c.rows := by
    intro r
    unfold Chain.wanted
    rw [if_neg (show ¬ (c.asking r).rows < 2 from Nat.not_lt.2 h2)]
    rfl
  rcases asking_neighbours c h.rows.1 row row' j hd (fun _ => 0) with ⟨-, e⟩ | ⟨a, b, h1, h4, h5, h6⟩
  · have h7 := e hj
    rw [hw, hw] at h7
    exact hne h7
  · have := e3 a
    simp only at h4
    omega

/-- Non-vacuity of `C58_lookups_private_parallel`: with samples of 0 or 1 all variants of
`exampleGrid` are valid. -/
example (σ : Fin exampleGrid.rows → ℕ) (hσ : ∀ i, σ i ≤ 1) : (exampleGrid.sampling 0 σ).Valid := by
  have hv := exampleGrid_valid
  have hs : ∀ k s i, (((exampleGrid.sampling 0 σ).partyRand k s).sample i).toNat ≤ 1 := by
    intro k s i
    unfold Grid.sampling
    simp only
    by_cases hk : k = 0
    · subst hk
      rw [Function.update_self]
      simp only
      split
      · rename_i hkey
        have := hσ ⟨_, hkey⟩
        rw [BitVec.toNat_ofNat, Nat.mod_eq_of_lt (by omega)]
        exact this
      · decide
    · rw [Function.update_of_ne hk]
      show (1#32).toNat ≤ 1
      decide
  have hn : ∀ k s, (exampleGrid.sampling 0 σ).noise k s ≤ (exampleGrid.width s) := by
    intro k s
    have : ∀ m, ((List.range m).map (fun i => (((exampleGrid.sampling 0 σ).partyRand k s).sample i).toNat)).sum ≤ m := by
      intro m
      induction m with
      | zero => rfl
      | succ m ih =>
        rw [List.range_succ, List.map_append, List.sum_append]
        have := hs k s m
        simp only [List.map_cons, List.map_nil, List.sum_cons, List.sum_nil]
        omega
    exact this _
  refine ⟨hv.parties, hv.servers, hv.rows, hv.ranges, hv.keys, hv.pairs, ?_, ?_, hv.backendOrder, ?_⟩
  · intro k s
    unfold Grid.sampling
    simp only
    by_cases hk : k = 0
    · subst hk
      rw [Function.update_self]
      exact hv.division 0 s
    · rw [Function.update_of_ne hk]
      exact hv.division k s
  · intro k s l
    unfold Grid.sampling
    simp only
    by_cases hk : k = 0
    · subst hk
      rw [Function.update_self]
      exact hv.order 0 s l
    · rw [Function.update_of_ne hk]
      exact hv.order k s l
  · have h00 : _ ≤ 3 := hn 0 0
    have h01 : _ ≤ 2 := hn 0 1
    have h10 : _ ≤ 3 := hn 1 0
    have h11 : _ ≤ 2 := hn 1 1
    show (2 + (2 + 0)) + ((exampleGrid.sampling 0 σ).noise 0 0 + ((exampleGrid.sampling 0 σ).noise 0 1 + 0)) +
      ((exampleGrid.sampling 0 σ).noise 1 0 + ((exampleGrid.sampling 0 σ).noise 1 1 + 0)) < 2 ^ 32
    omega

/-- Non-vacuity of C58: for `epsilon = 2 log 2`, `delta = 1/16` and party 0 of
`exampleChain`, all hypotheses hold; the client's first query can be for row 3 or row 1. -/
example : ∃ (d : Dist) (cutoff : ℝ), Dist.new .exact (.fin (2 * Real.log 2)) (.fin (1 / 16)) = .ok d ∧ d.cutoff = .fin cutoff ∧
    0 + 1 < exampleChain.parties ∧ 0 < exampleChain.count ∧ 3 % exampleChain.rows ≠ 1 % exampleChain.rows ∧
    ∀ σ : Fin exampleChain.rows → ℕ, (∀ i, (σ i : ℝ) ≤ 2 * cutoff) → (exampleChain.sampling 0 σ).Valid := by
  obtain ⟨d, hd⟩ := noise_example_accepted
  have hA : SoundRounding .exact := ⟨fun _ _ h => h, rfl, fun _ => ⟨rfl, rfl⟩⟩
  have hrep : Representable .exact d.cutoff := by
    cases d.cutoff <;> first | rfl | trivial
  obtain ⟨c, h1, h2, h3, -, h4⟩ := C17_domain .exact hA _ _ d hd hrep
  refine ⟨d, c, hd, h1, by decide, by decide, by decide, fun σ hσ => ?_⟩
  have hlog : 0 < Real.log 2 := Real.log_pos (by norm_num)
  have hf := fields_exact (2 * Real.log 2) (1 / 16) (by linarith) (by norm_num) (by norm_num)
  have hc : c = 4 := by
    have hdf : d = fields .exact (.fin (2 * Real.log 2)) (.fin (1 / 16)) := by
      unfold Dist.new at hd
      simp only at hd
      rw [bind_eq_ok] at hd
      obtain ⟨w, -, h2⟩ := hd
      injection h2 with h2
      exact h2.symm
    rw [hdf, hf] at h1
    injection h1 with h1
    rw [← h1, show (1 : ℝ) / (1 / 16) = 2 ^ 4 by norm_num, Real.log_pow]
    field_simp
    norm_num
  have hσ' : ∀ i, σ i ≤ 8 := by
    intro i
    have := hσ i
    rw [hc] at this
    have h8 : (σ i : ℝ) ≤ (8 : ℕ) := by norm_num at this ⊢; exact this
    exact_mod_cast h8
  have hv := exampleChain_valid
  refine ⟨hv.parties, hv.rows, hv.keys, hv.pairs, ?_, ?_⟩
  · intro k
    unfold Chain.sampling
    simp only
    by_cases hk : k = 0
    · subst hk
      rw [Function.update_self]
      exact hv.division 0
    · rw [Function.update_of_ne hk]
      exact hv.division k
  · have hs : ∀ k key, (((exampleChain.sampling 0 σ).partyRand k).sample key).toNat ≤ 8 := by
      intro k key
      unfold Chain.sampling
      simp only
      by_cases hk : k = 0
      · subst hk
        rw [Function.update_self]
        simp only
        split
        · rename_i hkey
          have := hσ' ⟨key, hkey⟩
          rw [BitVec.toNat_ofNat, Nat.mod_eq_of_lt (by omega)]
          exact this
        · decide
      · rw [Function.update_of_ne hk]
        show (1#32).toNat ≤ 8
        decide
    have hn : ∀ k, (exampleChain.sampling 0 σ).noise k ≤ 32 := by
      intro k
      show (([0, 1, 2, 3] : List Nat).map _).sum ≤ 32
      have h0 := hs k 0
      have h1 := hs k 1
      have h2 := hs k 2
      have h3 := hs k 3
      simp only [List.map_cons, List.map_nil, List.sum_cons, List.sum_nil]
      omega
    have h0 := hn 0
    have h1 := hn 1
    show 2 + (exampleChain.sampling 0 σ).noise 0 + (exampleChain.sampling 0 σ).noise 1 < 2 ^ 32
    omega

end DPPIR.Props
