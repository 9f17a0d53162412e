import Verif.Spec.StartPrivate
import Verif.Proofs.Start
import Verif.Proofs.Joint
import Verif.Proofs.NoiseRoundedDP
import Verif.Props.PrivateRun
import Verif.Props.Start

/-!
# Lemmas on the look-ups of deployments started from the command line
-/

open MeasureTheory

namespace DPPIR.Main
open DPPIR.Config DPPIR.Noise DPPIR.Protocol DPPIR.Onion DPPIR.Spec DPPIR.Props

variable {box : SealedBox}

theorem uniformDraws_univ : uniformDraws Set.univ = 1 := by
  unfold uniformDraws
  rw [Measure.smul_apply, Measure.count_apply_finite _ Set.finite_univ]
  simp only [Set.finite_univ.toFinset_eq_toFinset, Set.toFinset_univ, Finset.card_univ, Fintype.card_prod, Fintype.card_fin, smul_eq_mul]
  rw [show ((2 ^ 31 * 2 ^ 31 : ℕ) : ENNReal) = (2 : ENNReal) ^ 62 by norm_num]
  exact ENNReal.inv_mul_cancel (by positivity) (by finiteness)

instance : IsProbabilityMeasure uniformDraws := ⟨uniformDraws_univ⟩

theorem codeLaw_eq (A : FloatOps) (d : Dist) : codeLaw A d = uniformDraws.map (fun r => codeSample A d r.1 r.2) := by
  unfold codeLaw uniformDraws
  rw [Measure.map_smul]

/-- Counts that are a fixed histogram plus a function of draws inherit the privacy of its
law. -/
theorem private_draws {ι Ω : Type} [Fintype ι] [MeasurableSpace Ω] (ν : Measure Ω) [IsProbabilityMeasure ν] (g : Ω → ℕ) (hg : Measurable g)
    {ε δ : ℝ} (he : 0 ≤ ε) (hμ : DP (ν.map g) ε δ) (P P' : (ι → Ω) → (ι → ℕ) → Prop) (f f' : ι → ℕ)
    (hP : ∀ r x, P r x → x = fun i => f i + g (r i)) (hP' : ∀ r, (∃ x, P' r x) ∧ ∀ x, P' r x → x = fun i => f' i + g (r i))
    (hn : f = f' ∨ Neighbours f f') (T : Set (ι → ℕ)) :
    (Measure.pi fun _ => ν) {r | ∃ x ∈ T, P r x} ≤
      ENNReal.ofReal (Real.exp ε) * (Measure.pi fun _ => ν) {r | (∃ x, P' r x) ∧ ∀ x, P' r x → x ∈ T} + ENNReal.ofReal δ := by
  have hprob : IsProbabilityMeasure (ν.map g) := Measure.isProbabilityMeasure_map hg.aemeasurable
  have hrel : ∀ h : ι → ℕ, release (ν.map g) h T = (Measure.pi fun _ : ι => ν) {r | (fun i => h i + g (r i)) ∈ T} := by
    intro h
    rw [release_eq, ← Measure.pi_map_pi (fun _ => hg.aemeasurable), Measure.map_apply (by fun_prop) (Set.to_countable _).measurableSet]
    rfl
  have hL : (Measure.pi fun _ : ι => ν) {r | ∃ x ∈ T, P r x} ≤ release (ν.map g) f T := by
    rw [hrel]
    refine measure_mono (fun r hr => ?_)
    obtain ⟨x, hxT, hx⟩ := hr
    rw [hP r x hx] at hxT
    exact hxT
  have hR : release (ν.map g) f' T ≤ (Measure.pi fun _ : ι => ν) {r | (∃ x, P' r x) ∧ ∀ x, P' r x → x ∈ T} := by
    rw [hrel]
    refine measure_mono (fun r hr => ⟨(hP' r).1, fun x hx => ?_⟩)
    rw [(hP' r).2 x hx]
    exact hr
  refine le_trans hL (le_trans ?_ (add_le_add_left (mul_le_mul_right hR _) _))
  rcases hn with rfl | hn
  · refine le_trans ?_ le_self_add
    calc release (ν.map g) f T = 1 * release (ν.map g) f T := (one_mul _).symm
      _ ≤ _ := mul_le_mul_left (by rw [ENNReal.one_le_ofReal]; exact Real.one_le_exp he) _
  · exact hμ ι f f' hn T

theorem sound_of_double {A : FloatOps} (hA : IsDouble A) : SoundRounding A :=
  ⟨hA.mono, by simpa using hA.nat 0 (by norm_num), fun x => ⟨by rw [← two_mul]; exact hA.twice x, hA.twice x⟩⟩

/-- The sample for a row, given all draws. -/
noncomputable def rowSample (A : FloatOps) (d : Dist) {rows : Nat} (r : Fin rows → Draws) (x : Nat) : Nat :=
  if h : x < rows then codeSample A d (r ⟨x, h⟩).1 (r ⟨x, h⟩).2 else codeSample A d 0 0

variable {w : World box} {c : Config} {d : Dist}

theorem sample_drawing (hs : w.sampling = true) (k S : Nat) {rows : Nat} (r : Fin rows → Draws) (s i : Nat) :
    ((w.drawing k S r).choices d k s).sample i = BitVec.ofNat 32 (rowSample w.arith d r (s * ((rows + S - 1) / S) + i)) := by
  have key : ∀ v u : Nat, (d.sampleReal w.arith (randUniform w.arith v) (randUniform w.arith u)).toOption.getD 0 = codeSample w.arith d v u := by
    intro v u
    unfold codeSample
    cases d.sampleReal w.arith (randUniform w.arith v) (randUniform w.arith u) <;> rfl
  unfold World.choices World.sample
  dsimp only
  rw [show (w.drawing k S r).sampling = true from hs, if_pos rfl, show (w.drawing k S r).arith = w.arith from rfl, key]
  unfold World.drawing rowSample
  simp only [Function.update_self]
  split
  · rfl
  · rfl

theorem rowSample_le (hs : w.sampling = true) (k S : Nat) {rows : Nat} (r : Fin rows → Draws) {N : Nat}
    (hN : (w.drawing k S r).SamplesUpTo d N) (s i : Nat) : rowSample w.arith d r (s * ((rows + S - 1) / S) + i) ≤ N := by
  obtain ⟨n, h1, h2⟩ := hN k s i
  have key : ∀ v u : Nat, d.sampleReal w.arith (randUniform w.arith v) (randUniform w.arith u) = .ok n → codeSample w.arith d v u ≤ N := by
    intro v u e
    unfold codeSample
    rw [e]
    exact h1
  unfold World.sample at h2
  rw [show (w.drawing k S r).sampling = true from hs, if_pos rfl, show (w.drawing k S r).arith = w.arith from rfl] at h2
  have := key _ _ h2
  refine le_trans (le_of_eq ?_) this
  unfold World.drawing rowSample
  simp only [Function.update_self]
  split
  · rfl
  · rfl

theorem sample_row (hs : w.sampling = true) (k S : Nat) {rows : Nat} (r : Fin rows → Draws) {N : Nat}
    (hN : (w.drawing k S r).SamplesUpTo d N) (hNs : N < 2 ^ 32) (s i : Nat) :
    (((w.drawing k S r).choices d k s).sample i).toNat = rowSample w.arith d r (s * ((rows + S - 1) / S) + i) := by
  rw [sample_drawing hs, BitVec.toNat_ofNat, Nat.mod_eq_of_lt (lt_of_le_of_lt (rowSample_le hs k S r hN s i) hNs)]

theorem choices_drawing (k S : Nat) {rows : Nat} (r : Fin rows → Draws) {k' : Nat} (hk : k' ≠ k) (s : Nat) :
    (w.drawing k S r).choices d k' s = w.choices d k' s := by
  unfold World.choices World.sample World.drawing
  simp only [Function.update_of_ne hk]

theorem choices_asking (s0 : Nat) (row : Nat → Nat) (k s : Nat) : (w.asking s0 row).choices d k s = w.choices d k s := rfl

theorem Sane.asking_drawing (hw : w.Sane) (s0 : Nat) (row : Nat → Nat) (k S : Nat) {rows : Nat} (r : Fin rows → Draws) :
    ((w.asking s0 row).drawing k S r).Sane := ⟨hw.division, hw.order, hw.backendOrder⟩

theorem Usable.asking_drawing (h : Usable w c d) (s0 : Nat) (row : Nat → Nat) (k S : Nat) {rows : Nat} (r : Fin rows → Draws) :
    Usable ((w.asking s0 row).drawing k S r) c d := ⟨h.parties, h.servers, h.rows, h.pairs, h.noise⟩

/-- Loops or not, the backend looks up the same rows. -/
theorem looksUp_counts {ch : Chain box} (hv : ch.Valid) (offline : Bool) {rows : Nat} {x : Fin rows → ℕ}
    (hx : LooksUp (ch.progLoops offline true) [ch.parties] x) : ch.Counts offline x := by
  obtain ⟨cap, n, hn, hf, rfl⟩ := hx
  obtain ⟨s, m, h1, h2, -⟩ := Chain.complete_run hv offline true (fun _ => 1) (fun _ => Nat.one_pos)
  refine ⟨_, s, m, fun _ => Nat.one_pos, h1, h2, ?_⟩
  have := C60_loops_same_calls ch hv offline true (fun x => cap x + 1) (fun _ => 1) (fun _ => Nat.succ_pos _) (fun _ => Nat.one_pos) n
    (hn.mono (fun _ => Nat.le_succ _)) s m h1 ch.parties (hf _) (h2 _)
  rw [List.flatMap_singleton, this]

theorem looksUp_counts_many {g : Grid box} (hv : g.Valid) (offline : Bool) (hd : offline = true → g.DistinctTags) {rows : Nat} {x : Fin rows → ℕ}
    (hx : LooksUp (g.progLoops offline true) ((List.range g.servers).map (fun s => (g.parties, s))) x) : g.Counts offline x := by
  obtain ⟨cap, n, hn, hf, rfl⟩ := hx
  obtain ⟨cap', hc⟩ := g.exists_roomy
  obtain ⟨m, hm, hr⟩ := Grid.complete_run hv offline true hd hc
  refine ⟨cap', m, hm, hr, ?_⟩
  rw [List.flatMap_map]
  congr 1
  refine List.flatMap_congr fun s hs => ?_
  exact (C60_loops_same_calls_parallel g hv offline true hd cap cap' n hn m hm _ s (List.mem_range.1 hs) (hf _) (hr _)).symm

/-- What the backend looks up when one party draws `r`. -/
theorem looksUp_eq (hw : w.Sane) (h : Usable w c d) (hS : c.serverCount.toNat = 1) (hs : w.sampling = true)
    {file : String → Option (List Byte)} {path stage : String} (hpath : path ≠ "") (hst : stage = "online" ∨ stage = "all")
    (hc : readFile (file path) = .ok c) {N : Nat} {q k : Nat} {row : Nat → Nat} {r : Fin c.dbSize.toNat → Draws}
    (hN : ((w.asking 0 row).drawing k 1 r).SamplesUpTo d N) (hNs : N < 2 ^ 32)
    (hq : q + (c.partyCount.toNat - 1) * (c.dbSize.toNat * N) < 2 ^ 32) (hk : k + 1 < c.partyCount.toNat) {x : Fin c.dbSize.toNat → ℕ}
    (hx : LooksUp (launch ((w.asking 0 row).drawing k 1 r) file path stage c.partyCount.toNat q) [c.partyCount.toNat] x) :
    x = fun key : Fin c.dbSize.toNat => askedFor ((chainOf w c d q).asking row) key + otherNoise (chainOf w c d q) k key +
      codeSample w.arith d (r key).1 (r key).2 := by
  have hw' := Sane.asking_drawing hw 0 row k 1 r
  have h' := Usable.asking_drawing h 0 row k 1 r
  have hv := chain_valid hw' h' hN hq
  rw [launch_eq _ c d h' hN hS file path stage hpath hst hc q (by omega)] at hx
  rw [counts_total _ hv _ x (looksUp_counts hv _ hx)]
  funext (key : Fin c.dbSize.toNat)
  show askedFor ((chainOf w c d q).asking row) key + _ = _
  have hsum : ((List.range (c.partyCount.toNat - 1)).map (fun party => (((chainOf ((w.asking 0 row).drawing k 1 r) c d q).partyRand party).sample key).toNat)).sum =
      otherNoise (chainOf w c d q) k key + codeSample w.arith d (r key).1 (r key).2 := by
    rw [sum_split _ List.nodup_range k (List.mem_range.2 (by omega))]
    have e2 : (((chainOf ((w.asking 0 row).drawing k 1 r) c d q).partyRand k).sample key).toNat =
        codeSample w.arith d (r key).1 (r key).2 := by
      show ((((w.asking 0 row).drawing k 1 r).choices d k 0).sample key).toNat = _
      rw [sample_row (w := w.asking 0 row) hs k 1 r hN hNs 0 key, Nat.zero_mul, Nat.zero_add]
      unfold rowSample
      rw [dif_pos key.isLt]
      rfl
    have e3 : ((List.range (c.partyCount.toNat - 1)).filter (fun x => x ≠ k)).map (fun party => (((chainOf ((w.asking 0 row).drawing k 1 r) c d q).partyRand party).sample key).toNat) =
        ((List.range (c.partyCount.toNat - 1)).filter (fun x => x ≠ k)).map (fun party => (((chainOf w c d q).partyRand party).sample key).toNat) := by
      refine List.map_congr_left (fun party hp => ?_)
      have : party ≠ k := by simpa using (List.mem_filter.1 hp).2
      show ((((w.asking 0 row).drawing k 1 r).choices d party 0).sample key).toNat = _
      rw [choices_drawing k 1 r this]
      rfl
    rw [e2, e3]
    unfold otherNoise
    exact Nat.add_comm _ _
  rw [Nat.add_assoc, ← hsum]
  rfl

/-- The same with several servers per party. -/
theorem looksUp_eq_many (hw : w.Sane) (h : Usable w c d) (hS : 2 ≤ c.serverCount.toNat ∧ c.serverCount.toNat ≤ 254)
    (hrows : c.serverCount.toNat ≤ c.dbSize.toNat)
    (hshare : (c.serverCount.toNat - 1) * ((c.dbSize.toNat + c.serverCount.toNat - 1) / c.serverCount.toNat) ≤ c.dbSize.toNat)
    (hs : w.sampling = true) {file : String → Option (List Byte)} {path : String} (hpath : path ≠ "")
    (hc : readFile (file path) = .ok c) {N : Nat} {q : Nat → Nat} {k s0 : Nat} {row : Nat → Nat} {r : Fin c.dbSize.toNat → Draws}
    (hN : ((w.asking s0 row).drawing k c.serverCount.toNat r).SamplesUpTo d N) (hNs : N < 2 ^ 32)
    (hq : ((List.range c.serverCount.toNat).map q).sum + (c.partyCount.toNat - 1) * (c.dbSize.toNat * N) < 2 ^ 32)
    (hk : k + 1 < c.partyCount.toNat) {x : Fin c.dbSize.toNat → ℕ}
    (hx : LooksUp (launchMany ((w.asking s0 row).drawing k c.serverCount.toNat r) file path "online" c.partyCount.toNat c.serverCount.toNat q)
      ((List.range c.serverCount.toNat).map (fun s => (c.partyCount.toNat, s))) x) :
    x = fun key : Fin c.dbSize.toNat => ((gridOf w c d q).asking s0 row).askedFor key +
      (((List.range (c.partyCount.toNat - 1)).filter (fun party => party ≠ k)).map (fun party => (gridOf w c d q).noiseFor party key)).sum +
      codeSample w.arith d (r key).1 (r key).2 := by
  have hw' := Sane.asking_drawing hw s0 row k c.serverCount.toNat r
  have h' := Usable.asking_drawing h s0 row k c.serverCount.toNat r
  have hv := grid_valid hw' h' hN hS hrows hshare hq
  have hqs : ∀ s < c.serverCount.toNat, q s < 2 ^ 32 := fun s hs => by
    have : q s ≤ ((List.range c.serverCount.toNat).map q).sum := le_preSum hs
    omega
  rw [launchMany_eq _ c d h' hN (by omega) file path "online" hpath (Or.inl rfl) hc q hqs] at hx
  have hd : ("online" == "all") = true → (gridOf ((w.asking s0 row).drawing k c.serverCount.toNat r) c d q).DistinctTags := fun e => by
    exact absurd e (by decide)
  rw [Grid.counts_total _ hv _ hd x (looksUp_counts_many hv _ hd hx)]
  funext (key : Fin c.dbSize.toNat)
  show ((gridOf w c d q).asking s0 row).askedFor key + _ = _
  have hsum : ((List.range (c.partyCount.toNat - 1)).map (fun party =>
      (gridOf ((w.asking s0 row).drawing k c.serverCount.toNat r) c d q).noiseFor party key)).sum =
      (((List.range (c.partyCount.toNat - 1)).filter (fun party => party ≠ k)).map (fun party => (gridOf w c d q).noiseFor party key)).sum +
        codeSample w.arith d (r key).1 (r key).2 := by
    rw [sum_split _ List.nodup_range k (List.mem_range.2 (by omega))]
    have e2 : (gridOf ((w.asking s0 row).drawing k c.serverCount.toNat r) c d q).noiseFor k key =
        codeSample w.arith d (r key).1 (r key).2 := by
      have e : ∀ s i, (((gridOf ((w.asking s0 row).drawing k c.serverCount.toNat r) c d q).partyRand k s).sample i).toNat =
          rowSample w.arith d r ((gridOf ((w.asking s0 row).drawing k c.serverCount.toNat r) c d q).first s + i) := fun s i =>
        sample_row (w := w.asking s0 row) hs k _ r hN hNs s i
      unfold Grid.noiseFor
      simp only [e]
      have e3 := Grid.rows_of_shares (gridOf ((w.asking s0 row).drawing k c.serverCount.toNat r) c d q)
        (fun x => List.replicate (rowSample w.arith d r x) x) c.serverCount.toNat (Nat.le_refl _)
      have e4 : preSum (gridOf ((w.asking s0 row).drawing k c.serverCount.toNat r) c d q).width c.serverCount.toNat = c.dbSize.toNat :=
        Grid.width_sum hv
      rw [e4] at e3
      refine (congrArg (List.count key.val) e3).trans ?_
      rw [count_blocks c.dbSize.toNat (rowSample w.arith d r) key]
      unfold rowSample
      rw [dif_pos key.isLt]
    have e3 : ((List.range (c.partyCount.toNat - 1)).filter (fun x => x ≠ k)).map (fun party =>
          (gridOf ((w.asking s0 row).drawing k c.serverCount.toNat r) c d q).noiseFor party key) =
        ((List.range (c.partyCount.toNat - 1)).filter (fun x => x ≠ k)).map (fun party => (gridOf w c d q).noiseFor party key) := by
      refine List.map_congr_left (fun party hp => ?_)
      have : party ≠ k := by simpa using (List.mem_filter.1 hp).2
      have e : (gridOf ((w.asking s0 row).drawing k c.serverCount.toNat r) c d q).partyRand party = (gridOf w c d q).partyRand party :=
        funext fun s => choices_drawing (w := w.asking s0 row) k _ r this s
      unfold Grid.noiseFor
      rw [e]
      rfl
    rw [e2, e3]
    exact Nat.add_comm _ _
  rw [Nat.add_assoc, ← hsum]
  rfl

/-- Processes that answer have a complete run. -/
theorem complete_of_answers {ι : Type} [DecidableEq ι] {prog : ι → PProg ι Unit} {link : ι → ι → Prop} {capacity S : Nat} {client : Nat → ι}
    {count : Nat → Nat} {rows : Nat} {row : Nat → Nat → Nat} (ha : Answers prog link capacity S client count rows row) (backends : List ι)
    (rows' : Nat) : ∃ x : Fin rows' → Nat, LooksUp prog backends x := by
  obtain ⟨h1, h2⟩ := ha (fun _ => capacity + 1) (fun _ _ _ => Nat.succ_pos _)
  obtain ⟨m, hm, hstuck⟩ := PNet.exists_end h2
  exact ⟨_, _, m, hm, (((h1 m hm).2.1 (fun _ _ _ => Nat.le_succ _)).resolve_left hstuck).1, rfl⟩

end DPPIR.Main

namespace DPPIR.Joint
open DPPIR.Connect DPPIR.Main
open DPPIR.Protocol (Node Obs PProg)

variable {ι A : Type} [DecidableEq ι] [DecidableEq A] {pl : Plan A} {pos : ι → Node} {prog : ι → PProg ι Unit}

/-- What is looked up in a run that sets up the connections first is looked up in one in
which they exist. -/
theorem connects_and_looksUp (hd : pl.Distinct) (hS : pl.S ≤ 256) (hpos : Function.Injective pos)
    {setup : Node → CProc Node A (Wiring Node)} {st : Node → St} (h0 : Inv pl (CNet.start setup) st)
    {capacity S : Nat} {client : Nat → ι} {count : Nat → Nat} {rows : Nat} {row : Nat → Nat → Nat}
    (ha : Answers prog (fun a b => Linked pl.P pl.S (pos a) (pos b)) capacity S client count rows row) {backends : List ι} {rows' : Nat}
    {x : Fin rows' → Nat} (hx : ConnectsAndLooksUp pos setup prog backends x) : LooksUp prog backends x := by
  obtain ⟨cap, n, hn, hf, rfl⟩ := hx
  have ht : Turns pl pos cap prog := turns ha
  obtain ⟨C, P, h⟩ : ∃ C P, Rel pl pos cap prog n C P := by
    clear hf
    induction hn with
    | refl => exact ⟨_, _, .start h0⟩
    | step _ s ih =>
      obtain ⟨C, P, h⟩ := ih
      obtain ⟨C', P', h', -⟩ := h.step hd hS hpos ht s
      exact ⟨C', P', h'⟩
  refine ⟨_, P, h.reach, fun i => ?_, by rw [h.seen]⟩
  have := (hf i).2
  rw [h.run] at this
  exact this

theorem exists_end {cap : Sock Node → Nat} {n : JNet ι A Obs}
    (h : ¬ ∃ f : Nat → JNet ι A Obs, f 0 = n ∧ ∀ k, JNet.Step pos cap (f k) (f (k + 1))) :
    ∃ m, JNet.Reach pos cap n m ∧ ¬ m.CanStep pos cap := by
  by_contra hno
  simp only [not_exists, not_and, not_not] at hno
  have step : ∀ x : {m // JNet.Reach pos cap n m}, ∃ y : {m // JNet.Reach pos cap n m}, JNet.Step pos cap x.1 y.1 := by
    rintro ⟨m, hm⟩
    obtain ⟨m', hs⟩ := hno m hm
    exact ⟨⟨m', hm.step hs⟩, hs⟩
  choose next hnext using step
  refine h ⟨fun k => (next^[k] ⟨n, .refl⟩).1, rfl, fun k => ?_⟩
  have := hnext (next^[k] ⟨n, .refl⟩)
  rw [← Function.iterate_succ_apply' next] at this
  exact this

theorem complete_of_connects {setup : Node → CProc Node A (Wiring Node)} {capacity S : Nat} {client : Nat → ι}
    {count : Nat → Nat} {rows : Nat} {row : Nat → Nat → Nat} (ha : ConnectsAndAnswers pos setup prog capacity S client count rows row)
    (backends : List ι) (rows' : Nat) : ∃ x : Fin rows' → Nat, ConnectsAndLooksUp pos setup prog backends x := by
  obtain ⟨h1, h2⟩ := ha (fun _ => capacity + 1) (fun _ => Nat.succ_pos _)
  obtain ⟨m, hm, hstuck⟩ := exists_end h2
  exact ⟨_, _, m, hm, (((h1 m hm).2.2.1 (fun _ => Nat.le_succ _)).resolve_left hstuck).1, rfl⟩

end DPPIR.Joint
