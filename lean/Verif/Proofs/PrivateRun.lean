import Verif.Spec.PrivateRun
import Verif.Spec.Noise
import Verif.Props.Chain
import Verif.Props.Grid

/-!
# Helpers for the privacy of whole runs
-/

open MeasureTheory

namespace DPPIR.Protocol
open DPPIR Proc Onion Spec Props

variable {box : SealedBox}

theorem release_eq {ι : Type} [Fintype ι] (μ : Measure ℕ) [IsProbabilityMeasure μ] (h : ι → ℕ) (T : Set (ι → ℕ)) :
    release μ h T = (Measure.pi fun _ : ι => μ) {σ | (fun i => h i + σ i) ∈ T} := by
  unfold release
  have hp : ∀ i, IsProbabilityMeasure (μ.map (fun n => h i + n)) := fun i => Measure.isProbabilityMeasure_map (by fun_prop)
  rw [← Measure.pi_map_pi (fun i => (by fun_prop : AEMeasurable (fun n => h i + n) μ)), Measure.map_apply (by fun_prop) T.to_countable.measurableSet]
  rfl

theorem ae_bounded {ι : Type} [Fintype ι] (μ : Measure ℕ) [IsProbabilityMeasure μ] {B : ℕ} (hB : μ {n | B < n} = 0) :
    ∀ᵐ σ ∂(Measure.pi fun _ : ι => μ), ∀ i, σ i ≤ B := by
  rw [ae_all_iff]
  intro i
  have h : ∀ᵐ n ∂μ, n ≤ B := by
    rw [ae_iff]
    simpa using hB
  exact (Measure.tendsto_eval_ae_ae (μ := fun _ : ι => μ) (i := i)).eventually h

/-- Counts that are a fixed histogram plus the noise inherit the privacy of the noise. -/
theorem private_counts {ι : Type} [Fintype ι] (μ : Measure ℕ) [IsProbabilityMeasure μ] {ε δ : ℝ} (he : 0 ≤ ε) (hμ : DP μ ε δ) {B : ℕ}
    (hB : μ {n | B < n} = 0) (P P' : (ι → ℕ) → (ι → ℕ) → Prop) (f f' : ι → ℕ)
    (hP : ∀ σ, (∀ i, σ i ≤ B) → ∀ x, P σ x → x = fun i => f i + σ i)
    (hP' : ∀ σ, (∀ i, σ i ≤ B) → (∃ x, P' σ x) ∧ ∀ x, P' σ x → x = fun i => f' i + σ i)
    (hn : f = f' ∨ Neighbours f f') (T : Set (ι → ℕ)) :
    (Measure.pi fun _ => μ) {σ | ∃ x ∈ T, P σ x} ≤
      ENNReal.ofReal (Real.exp ε) * (Measure.pi fun _ => μ) {σ | (∃ x, P' σ x) ∧ ∀ x, P' σ x → x ∈ T} + ENNReal.ofReal δ := by
  have hae := ae_bounded (ι := ι) μ hB
  have hL : (Measure.pi fun _ : ι => μ) {σ | ∃ x ∈ T, P σ x} ≤ release μ f T := by
    rw [release_eq]
    refine measure_mono_ae ?_
    filter_upwards [hae] with σ hσ hx
    obtain ⟨x, hxT, hx⟩ := hx
    rw [hP σ hσ x hx] at hxT
    exact hxT
  have hR : release μ f' T ≤ (Measure.pi fun _ : ι => μ) {σ | (∃ x, P' σ x) ∧ ∀ x, P' σ x → x ∈ T} := by
    rw [release_eq]
    refine measure_mono_ae ?_
    filter_upwards [hae] with σ hσ hx
    refine ⟨(hP' σ hσ).1, fun x hx' => ?_⟩
    rw [(hP' σ hσ).2 x hx']
    exact hx
  refine le_trans hL (le_trans ?_ (add_le_add_left (mul_le_mul_right hR _) _))
  rcases hn with rfl | hn
  · refine le_trans ?_ le_self_add
    calc release μ f T = 1 * release μ f T := (one_mul _).symm
      _ ≤ _ := mul_le_mul_left (by rw [ENNReal.one_le_ofReal]; exact Real.one_le_exp he) _
  · exact hμ ι _ _ hn T

/-- Replacing one entry of a list moves one count. -/
theorem count_moved (m j : ℕ) (hj : j < m) (f f' : ℕ → ℕ) (hd : ∀ i, i ≠ j → f i = f' i) (key : ℕ) :
    ((List.range m).map f).count key + (if f' j = key then 1 else 0) = ((List.range m).map f').count key + (if f j = key then 1 else 0) := by
  have e : List.range m = List.range j ++ [j] ++ List.range' (j + 1) (m - (j + 1)) := by
    rw [← List.range_succ, List.range_eq_range', List.range_eq_range']
    have := List.range'_append (s := 0) (m := j + 1) (n := m - (j + 1)) (step := 1)
    simp only [Nat.one_mul, Nat.zero_add] at this
    rw [this]
    congr 1
    omega
  have h1 : (List.range j).map f = (List.range j).map f' := by
    refine List.map_congr_left (fun i hi => hd i ?_)
    have : i < j := List.mem_range.1 hi
    omega
  have h2 : (List.range' (j + 1) (m - (j + 1))).map f = (List.range' (j + 1) (m - (j + 1))).map f' := by
    refine List.map_congr_left (fun i hi => hd i ?_)
    have := List.mem_range'.1 hi
    omega
  rw [e]
  simp only [List.map_append, List.count_append, h1, h2, List.map_cons, List.map_nil, List.count_singleton, beq_iff_eq]
  omega

theorem moved_neighbours {rows : ℕ} (f f' : ℕ → ℕ) (a b : ℕ) (ha : a < rows) (hb : b < rows) (hab : a ≠ b)
    (h : ∀ key, f key + (if b = key then 1 else 0) = f' key + (if a = key then 1 else 0)) :
    Neighbours (fun key : Fin rows => f key) (fun key => f' key) := by
  refine ⟨⟨a, ha⟩, ⟨b, hb⟩, fun e => hab (congrArg Fin.val e), ?_, ?_, ?_⟩
  · have := h a
    rw [if_pos rfl, if_neg (Ne.symm hab)] at this
    exact this
  · have := h b
    rw [if_pos rfl, if_neg hab] at this
    exact this.symm
  · intro i h1 h2
    have := h i
    rw [if_neg (fun e => h2 (Fin.ext e.symm)), if_neg (fun e => h1 (Fin.ext e.symm))] at this
    exact this

/-- The number of queries for a row. -/
def askedFor (c : Chain box) (key : ℕ) : ℕ := ((List.range c.count).map c.wanted).count key

theorem wanted_lt {c : Chain box} (h : 1 ≤ c.rows) (i : ℕ) : c.wanted i < c.rows := by
  unfold Chain.wanted
  split
  · omega
  · exact Nat.mod_lt _ (by omega)

theorem asking_neighbours (c : Chain box) (hrows : 1 ≤ c.rows) (row row' : Nat → Nat) (j : Nat) (hd : ∀ i, i ≠ j → row i = row' i)
    (z : ℕ → ℕ) :
    ((fun key => askedFor (c.asking row) key + z key) = (fun key => askedFor (c.asking row') key + z key) ∧
        (j < c.count → (c.asking row).wanted j = (c.asking row').wanted j)) ∨
      Neighbours (fun key : Fin c.rows => askedFor (c.asking row) key + z key) (fun key => askedFor (c.asking row') key + z key) := by
  have hsame : ∀ i, i ≠ j → (c.asking row).wanted i = (c.asking row').wanted i := by
    intro i hi
    unfold Chain.wanted Chain.asking
    simp only [hd i hi]
  by_cases hj : j < c.count
  swap
  · refine Or.inl ⟨?_, fun h => absurd h hj⟩
    funext key
    unfold askedFor
    congr 2
    refine List.map_congr_left (fun i hi => hsame i ?_)
    have : i < c.count := List.mem_range.1 hi
    omega
  have hm : ∀ key, askedFor (c.asking row) key + _ = askedFor (c.asking row') key + _ := count_moved c.count j hj _ _ hsame
  by_cases he : (c.asking row).wanted j = (c.asking row').wanted j
  · refine Or.inl ⟨?_, fun _ => he⟩
    funext key
    have := hm key
    rw [he] at this
    omega
  · refine Or.inr (moved_neighbours (fun key => askedFor (c.asking row) key + z key) (fun key => askedFor (c.asking row') key + z key)
      _ _ (wanted_lt (c := c.asking row) hrows j) (wanted_lt (c := c.asking row') hrows j) he (fun key => ?_))
    have := hm key
    omega

/-- Noise queries for each row of the parties other than `k`. -/
def otherNoise (c : Chain box) (k : Nat) (key : ℕ) : ℕ :=
  (((List.range (c.parties - 1)).filter (fun party => party ≠ k)).map (fun party => ((c.partyRand party).sample key).toNat)).sum

theorem count_blocks (rows : Nat) (f : Nat → Nat) (key : Fin rows) :
    ((List.range rows).flatMap (fun x => List.replicate (f x) x)).count key.val = f key := by
  have h : ∀ m, ((List.range m).flatMap (fun x => List.replicate (f x) x)).count key.val = if key.val < m then f key else 0 := by
    intro m
    induction m with
    | zero => simp
    | succ m ih =>
      rw [List.range_succ, List.flatMap_append, List.count_append, ih]
      simp only [List.flatMap_cons, List.flatMap_nil, List.append_nil, List.count_replicate, beq_iff_eq]
      by_cases h1 : key.val < m
      · rw [if_pos h1, if_neg (by omega : ¬ m = key.val), if_pos (by omega : key.val < m + 1), Nat.add_zero]
      · rw [if_neg h1]
        by_cases h2 : m = key.val
        · rw [if_pos h2, if_pos (by omega : key.val < m + 1), Nat.zero_add, h2]
        · rw [if_neg h2, if_neg (by omega : ¬ key.val < m + 1)]
  rw [h, if_pos key.isLt]

theorem sum_split (l : List Nat) (hl : l.Nodup) (k : Nat) (hk : k ∈ l) (f : Nat → Nat) :
    (l.map f).sum = f k + ((l.filter (fun x => x ≠ k)).map f).sum := by
  induction l with
  | nil => cases hk
  | cons a l ih =>
    obtain ⟨h1, h2⟩ := List.nodup_cons.1 hl
    by_cases ha : a = k
    · subst ha
      have : l.filter (fun x => decide (x ≠ a)) = l := by
        rw [List.filter_eq_self]
        intro x hx
        simpa using fun h : x = a => h1 (h ▸ hx)
      rw [List.filter_cons_of_neg (by simp), this]
      simp
    · have hk' : k ∈ l := by
        rcases List.mem_cons.1 hk with h | h
        · exact absurd h.symm ha
        · exact h
      rw [List.filter_cons_of_pos (by simpa using ha), List.map_cons, List.sum_cons, List.map_cons, List.sum_cons, ih h2 hk']
      omega

theorem counts_total (c : Chain box) (h : c.Valid) (offline : Bool) (x : Fin c.rows → ℕ) (hx : c.Counts offline x) :
    x = fun key : Fin c.rows => askedFor c key + ((List.range (c.parties - 1)).map (fun party => ((c.partyRand party).sample key).toNat)).sum := by
  obtain ⟨cap, s, n, hcap, hn, hf, rfl⟩ := hx
  have h1 := C39_exact_noise _ h offline cap hcap s n hn hf
  have h2 := (Chain.every_run h offline true cap hcap).choose_spec s n hn
  funext (key : Fin c.rows)
  show (lookups (n.seen c.parties)).count key.val = _
  have h3 := h1.count_eq key.val
  have hw : wants (n.seen 0) = (List.range c.count).map c.wanted := by
    have hs := h2.2.2.2.2 hf
    rw [hs, Chain.wants_client, Chain.qs_zero_keys]
  rw [hw] at h3
  refine h3.trans ?_
  rw [List.count_append, List.count_flatMap]
  have e : ((List.range (c.parties - 1)).map (List.count key.val ∘ fun party =>
      (List.range c.rows).flatMap (fun key => List.replicate ((c.partyRand party).sample key).toNat key))) =
      (List.range (c.parties - 1)).map (fun party => ((c.partyRand party).sample key).toNat) := by
    refine List.map_congr_left (fun party _ => ?_)
    exact count_blocks c.rows (fun x => ((c.partyRand party).sample x).toNat) key
  rw [e]
  rfl

theorem counts_eq (c : Chain box) (k : Nat) (hk : k + 1 < c.parties) (σ : Fin c.rows → ℕ) (hσ : ∀ i, σ i < 2 ^ 32)
    (h : (c.sampling k σ).Valid) (offline : Bool) (x : Fin c.rows → ℕ) (hx : (c.sampling k σ).Counts offline x) :
    x = fun key : Fin c.rows => askedFor c key + otherNoise c k key + σ key := by
  rw [counts_total _ h offline x hx]
  funext (key : Fin c.rows)
  show askedFor c key + ((List.range (c.parties - 1)).map (fun party => (((c.sampling k σ).partyRand party).sample key).toNat)).sum = _
  rw [sum_split _ List.nodup_range k (List.mem_range.2 (by omega))]
  have e2 : (((c.sampling k σ).partyRand k).sample key).toNat = σ key := by
    unfold Chain.sampling
    simp only [Function.update_self]
    have hl : key.val < c.rows := key.isLt
    rw [dif_pos hl, BitVec.toNat_ofNat, Nat.mod_eq_of_lt (hσ _)]
  have e3 : ((List.range (c.parties - 1)).filter (fun x => x ≠ k)).map (fun party => (((c.sampling k σ).partyRand party).sample key).toNat) =
      ((List.range (c.parties - 1)).filter (fun x => x ≠ k)).map (fun party => ((c.partyRand party).sample key).toNat) := by
    refine List.map_congr_left (fun party hp => ?_)
    have : party ≠ k := by simpa using (List.mem_filter.1 hp).2
    unfold Chain.sampling
    simp only [Function.update_of_ne this]
  rw [e2, e3]
  unfold otherNoise
  omega

theorem counts_exist {c : Chain box} (h : c.Valid) (offline : Bool) (rows : ℕ) : ∃ x : Fin rows → ℕ, c.Counts offline x := by
  obtain ⟨s, n, h1, h2, -⟩ := Chain.complete_run h offline true (fun _ => 1) (fun _ => Nat.one_pos)
  exact ⟨_, _, s, n, fun _ => Nat.one_pos, h1, h2, rfl⟩

theorem asking_valid (c : Chain box) (k : Nat) (σ : Fin c.rows → ℕ) (row : Nat → Nat) (h : (c.sampling k σ).Valid) :
    ((c.asking row).sampling k σ).Valid := by
  have hq : ∀ i, ((c.asking row).sampling k σ).queries i = (c.sampling k σ).queries i := by
    intro i
    induction i with
    | zero => rfl
    | succ i ih => rw [Chain.queries, Chain.queries, ih]; rfl
  exact ⟨h.parties, h.rows, h.keys, h.pairs, h.division, by rw [hq]; exact h.fits⟩

/-! ### Several servers per party -/

namespace Grid

/-- The number of queries for a row. -/
def askedFor (g : Grid box) (key : ℕ) : ℕ :=
  ((List.range g.servers).map (fun s => ((List.range (g.count s)).map (g.wanted s)).count key)).sum

/-- The number of noise queries of one party for a row. -/
def noiseFor (g : Grid box) (party key : ℕ) : ℕ :=
  ((List.range g.servers).flatMap (fun s =>
    (List.range (g.width s)).flatMap (fun i => List.replicate ((g.partyRand party s).sample i).toNat (g.first s + i)))).count key

theorem wanted_lt {g : Grid box} (h : 1 ≤ g.rows) (s i : ℕ) : g.wanted s i < g.rows := by
  unfold Grid.wanted
  split
  · omega
  · exact Nat.mod_lt _ (by omega)

theorem asking_neighbours (g : Grid box) (hrows : 1 ≤ g.rows) (s : Nat) (hs : s < g.servers) (row row' : Nat → Nat) (j : Nat)
    (hd : ∀ i, i ≠ j → row i = row' i) (z : ℕ → ℕ) :
    (fun key => (g.asking s row).askedFor key + z key) = (fun key => (g.asking s row').askedFor key + z key) ∨
      Neighbours (fun key : Fin g.rows => (g.asking s row).askedFor key + z key) (fun key => (g.asking s row').askedFor key + z key) := by
  have hsame : ∀ i, i ≠ j → (g.asking s row).wanted s i = (g.asking s row').wanted s i := by
    intro i hi
    unfold Grid.wanted Grid.asking
    simp only [Function.update_self, hd i hi]
  have hother : ∀ r t, t ≠ s → (g.asking s r).wanted t = g.wanted t := by
    intro r t ht
    unfold Grid.wanted Grid.asking
    simp only [Function.update_of_ne ht]
  have hsplit : ∀ r key, (g.asking s r).askedFor key = ((List.range (g.count s)).map ((g.asking s r).wanted s)).count key +
      (((List.range g.servers).filter (fun x => x ≠ s)).map (fun t => ((List.range (g.count t)).map (g.wanted t)).count key)).sum := by
    intro r key
    unfold askedFor
    refine (sum_split _ List.nodup_range s (List.mem_range.2 hs) _).trans ?_
    congr 2
    refine List.map_congr_left (fun t ht => ?_)
    have : t ≠ s := by simpa using (List.mem_filter.1 ht).2
    rw [hother r t this]
    rfl
  by_cases hj : j < g.count s
  swap
  · left
    funext key
    rw [hsplit, hsplit]
    congr 3
    refine List.map_congr_left (fun i hi => hsame i ?_)
    have : i < g.count s := List.mem_range.1 hi
    omega
  have hm := fun key => count_moved (g.count s) j hj _ _ hsame key
  by_cases he : (g.asking s row).wanted s j = (g.asking s row').wanted s j
  · left
    funext key
    have := hm key
    rw [he] at this
    rw [hsplit, hsplit]
    omega
  · refine Or.inr (moved_neighbours (fun key => (g.asking s row).askedFor key + z key) (fun key => (g.asking s row').askedFor key + z key)
      _ _ (wanted_lt (g := g.asking s row) hrows s j) (wanted_lt (g := g.asking s row') hrows s j) he (fun key => ?_))
    have := hm key
    simp only [hsplit]
    omega

theorem rows_of_shares (g : Grid box) {α : Type} (f : ℕ → List α) (m : ℕ) (hm : m ≤ g.servers) :
    (List.range m).flatMap (fun s => (List.range (g.width s)).flatMap (fun i => f (g.first s + i))) =
      (List.range (preSum g.width m)).flatMap f := by
  induction m with
  | zero => rw [preSum_zero]; rfl
  | succ m ih =>
    rw [List.range_succ, List.flatMap_append, ih (by omega), preSum_succ, List.range_add, List.flatMap_append, first_eq g (by omega)]
    simp [List.flatMap_map]

theorem counts_total (g : Grid box) (h : g.Valid) (offline : Bool) (hd : offline = true → g.DistinctTags) (x : Fin g.rows → ℕ)
    (hx : g.Counts offline x) :
    x = fun key : Fin g.rows => g.askedFor key + ((List.range (g.parties - 1)).map (fun party => g.noiseFor party key)).sum := by
  obtain ⟨cap, n, hn, hf, rfl⟩ := hx
  have h1 := C52_exact_noise g h offline hd cap n hn hf
  obtain ⟨-, -, a3, -⟩ := (Grid.every_run h offline true hd cap).1 n hn
  funext (key : Fin g.rows)
  have e1 : lookups ((List.range g.servers).flatMap (fun s => n.seen (g.parties, s))) =
      (List.range g.servers).flatMap (fun s => lookups (n.seen (g.parties, s))) := by
    unfold lookups
    rw [List.filterMap_flatMap]
  have e2 : (List.range g.servers).flatMap (fun s => wants (n.seen (0, s))) =
      (List.range g.servers).flatMap (fun s => (List.range (g.count s)).map (g.wanted s)) := by
    refine List.flatMap_congr fun s hs => ?_
    have : n.seen (0, s) = g.obsAll offline true 0 s := a3 _ s (List.mem_range.1 hs) (hf _)
    rw [this, g.wants_client offline s, Grid.qs_zero_keys]
  show (lookups _).count key.val = _
  rw [e1, h1.count_eq key.val, e2, List.count_append, List.count_flatMap, List.count_flatMap]
  rfl

theorem counts_eq (g : Grid box) (k : Nat) (hk : k + 1 < g.parties) (σ : Fin g.rows → ℕ) (hσ : ∀ i, σ i < 2 ^ 32)
    (h : (g.sampling k σ).Valid) (offline : Bool) (hd : offline = true → (g.sampling k σ).DistinctTags) (x : Fin g.rows → ℕ)
    (hx : (g.sampling k σ).Counts offline x) :
    x = fun key : Fin g.rows => g.askedFor key +
      (((List.range (g.parties - 1)).filter (fun party => party ≠ k)).map (fun party => g.noiseFor party key)).sum + σ key := by
  rw [counts_total _ h offline hd x hx]
  funext (key : Fin g.rows)
  show g.askedFor key + ((List.range (g.parties - 1)).map (fun party => (g.sampling k σ).noiseFor party key)).sum = _
  rw [sum_split _ List.nodup_range k (List.mem_range.2 (by omega))]
  have e2 : (g.sampling k σ).noiseFor k key = σ key := by
    obtain ⟨f, hf⟩ : ∃ f : ℕ → ℕ, f = fun x => if h : x < g.rows then σ ⟨x, h⟩ else 0 := ⟨_, rfl⟩
    have hf2 : ∀ x, f x < 2 ^ 32 := by
      intro x
      rw [hf]
      simp only
      split
      · exact hσ _
      · decide
    have e : ∀ s i, (((g.sampling k σ).partyRand k s).sample i).toNat = f (g.first s + i) := by
      intro s i
      have : ((g.sampling k σ).partyRand k s).sample i = BitVec.ofNat 32 (f (g.first s + i)) := by
        rw [hf]
        unfold Grid.sampling
        simp only [Function.update_self]
      rw [this, BitVec.toNat_ofNat, Nat.mod_eq_of_lt (hf2 _)]
    unfold noiseFor
    simp only [e]
    have e3 := rows_of_shares g (fun x => List.replicate (f x) x) g.servers (Nat.le_refl _)
    have e4 : preSum g.width g.servers = g.rows := width_sum (g := g.sampling k σ) h
    rw [e4] at e3
    refine (congrArg (List.count key.val) e3).trans ?_
    rw [count_blocks g.rows f key, hf]
    simp
  have e3 : ((List.range (g.parties - 1)).filter (fun x => x ≠ k)).map (fun party => (g.sampling k σ).noiseFor party key) =
      ((List.range (g.parties - 1)).filter (fun x => x ≠ k)).map (fun party => g.noiseFor party key) := by
    refine List.map_congr_left (fun party hp => ?_)
    have : party ≠ k := by simpa using (List.mem_filter.1 hp).2
    have e : (g.sampling k σ).partyRand party = g.partyRand party := by
      unfold Grid.sampling
      simp only [Function.update_of_ne this]
    unfold noiseFor
    rw [e]
    rfl
  rw [e2, e3]
  omega

theorem counts_exist {g : Grid box} (h : g.Valid) (offline : Bool) (hd : offline = true → g.DistinctTags) (rows : ℕ) :
    ∃ x : Fin rows → ℕ, g.Counts offline x := by
  obtain ⟨cap, hc⟩ := g.exists_roomy
  obtain ⟨n, hn, hr⟩ := Grid.complete_run h offline true hd hc
  exact ⟨_, cap, n, hn, hr, rfl⟩

theorem asking_valid (g : Grid box) (k s : Nat) (σ : Fin g.rows → ℕ) (row : Nat → Nat) (h : (g.sampling k σ).Valid) :
    ((g.asking s row).sampling k σ).Valid := by
  have hq : ∀ i, ((g.asking s row).sampling k σ).total i = (g.sampling k σ).total i := by
    intro i
    induction i with
    | zero => rfl
    | succ i ih => rw [Grid.total, Grid.total, ih]; rfl
  exact ⟨h.parties, h.servers, h.rows, h.ranges, h.keys, h.pairs, h.division, h.order, h.backendOrder, by rw [hq]; exact h.fits⟩

end Grid

end DPPIR.Protocol
