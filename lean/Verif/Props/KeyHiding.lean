import Verif.Proofs.HidingGrid
import Verif.Props.Grid
import Verif.Props.Chain
import Mathlib.SetTheory.Cardinal.Finite
import Mathlib.Data.FinEnum

/-!
# C59: the parties before the backend together learn nothing about the client's keys
-/

namespace DPPIR.Props
open DPPIR.Protocol DPPIR.Proc DPPIR.Incremental DPPIR.Spec DPPIR.Onion

variable {box : SealedBox}

/-- There are finitely many draws, so that they can be counted. -/
theorem C59_finitely_many_draws (count parties : Nat) : Finite (Draws count parties) ∧ 0 < Nat.card (Draws count parties) := by
  have : NeZero p := ⟨by decide⟩
  have : NeZero (p - 1) := ⟨by decide⟩
  exact ⟨inferInstance, Nat.card_pos⟩

/-- **C59.** Whatever the keys of the client, whatever the noise and the shuffles of the
parties, and whatever all parties before the backend together may see in a run: the
number of outcomes of the client's draws for which they see it is the same for all other
keys.  So if the draws are uniform, what they see together is independent of the keys. -/
theorem C59_parties_learn_nothing (c : Chain box) (h : c.Valid) (row row' : Nat → Nat) (v : Nat → List Obs) :
    Nat.card {d : Draws c.count c.parties // (c.withDraws row d).PartiesSee v} =
      Nat.card {d : Draws c.count c.parties // (c.withDraws row' d).PartiesSee v} :=
  Nat.card_congr ((shiftEquiv (Chain.key h row) (Chain.key h row')).subtypeEquiv
    (fun d => Chain.partiesSee_shift h row row' d v))

/-- **C59.** For all outcomes of the draws the parties see one thing, and nothing else,
whatever the schedule and the connections. -/
theorem C59_one_view (c : Chain box) (h : c.Valid) (row : Nat → Nat) (d : Draws c.count c.parties) :
    ∃ v, (c.withDraws row d).PartiesSee v ∧
      ∀ v', (c.withDraws row d).PartiesSee v' → ∀ i, 1 ≤ i → i < c.parties → v' i = v i := by
  have hv := Chain.withDraws_valid h row d
  refine ⟨fun i => ((c.withDraws row d).obsAll true true i).map Obs.sealed, ?_, ?_⟩
  · rw [Chain.partiesSee_iff _ hv]
    exact fun i _ _ => rfl
  · intro v' hv' i h1 hi
    rw [Chain.partiesSee_iff _ hv] at hv'
    exact (hv' i h1 hi).symm

/-- **C59**, several servers per party: what all servers of all parties before the backend
together see is independent of the keys of all clients. -/
theorem C59_parties_learn_nothing_parallel (g : Grid box) (h : g.Valid) (hd : g.DistinctTags) (row row' : Nat → Nat → Nat)
    (v : Node → List Obs) :
    Nat.card {d : (s : Fin g.servers) → Draws (g.count s) g.parties // (g.withDraws row d).PartiesSee v} =
      Nat.card {d : (s : Fin g.servers) → Draws (g.count s) g.parties // (g.withDraws row' d).PartiesSee v} :=
  Nat.card_congr ((Grid.shift h row row').subtypeEquiv (fun d => Grid.partiesSee_shift h row row' d hd v))

/-- **C59**, several servers per party: the parties see one thing, and nothing else. -/
theorem C59_one_view_parallel (g : Grid box) (h : g.Valid) (hd : g.DistinctTags) (row : Nat → Nat → Nat)
    (d : (s : Fin g.servers) → Draws (g.count s) g.parties) :
    ∃ v, (g.withDraws row d).PartiesSee v ∧ ∀ v', (g.withDraws row d).PartiesSee v' →
      ∀ i s, 1 ≤ i → i < g.parties → s < g.servers → v' (i, s) = v (i, s) := by
  have hv := Grid.withDraws_valid g row d h
  have hd' := Grid.withDraws_distinct g row d hd
  refine ⟨fun i => ((g.withDraws row d).obsAll true true i.1 i.2).map Obs.sealed, ?_, ?_⟩
  · rw [Grid.partiesSee_iff _ hv hd']
    exact fun i s _ _ _ => rfl
  · intro v' hv' i s h1 hi hs
    rw [Grid.partiesSee_iff _ hv hd'] at hv'
    exact (hv' i s h1 hi hs).symm

/-- **C59** needs the offline stage: in the online-only mode the first party reads the
keys themselves, in order, whatever the draws. -/
theorem C59_needs_offline_stage (c : Chain box) (h : c.Valid) (cap : Nat × Nat → Nat) (hcap : ∀ x, 0 < cap x) (s : List Nat)
    (n : Net Nat Obs) (hn : (c.net false true).run cap s = some n) (hf : n.Finished 1) :
    (queriesRead (n.seen 1)).map (fun q => q.tally.toNat) = (List.range c.count).map c.wanted := by
  have hP := h.parties
  rw [Chain.finished_seen h false true cap hcap hn hf, Chain.queriesRead_pos c false 0 (by omega), Chain.qs, List.map_map,
    List.map_map]
  apply List.map_congr_left
  intro j _
  obtain ⟨hg, hl, -, hs, -⟩ := Chain.clientQs_good h false j
  obtain ⟨t, h1, h2, h3⟩ := roundtrip_aux (BitVec.ofNat 32 (c.clientQs false j).key) (c.shares false j) hs (by
    intro e; rw [e] at hl; simp at hl; omega)
  have e : (c.clientQs false j).tally = t := by
    have : (c.clientQs false j).tally =
      (match generateIncrementalTally (BitVec.ofNat 32 (c.clientQs false j).key) (c.shares false j) with | .ok t => t | .error _ => 0) := rfl
    rw [this, h1]
  have hid : ∀ m (t : BitVec 32), t.toNat < p → (applyAll (List.replicate m ⟨0, 1⟩) t).toNat = t.toNat := by
    intro m
    induction m with
    | zero => intro t _; rfl
    | succ m ih =>
      intro t ht
      have e2 : incrementalReconstruct t ⟨0, 1⟩ = t := by
        apply BitVec.eq_of_toNat_eq
        rw [(reconstruct_toNat t ⟨0, 1⟩).1]
        show (t.toNat * 1 + 0) % p = _
        rw [Nat.mul_one, Nat.add_zero, Nat.mod_eq_of_lt ht]
      rw [List.replicate_succ]
      show (applyAll _ (incrementalReconstruct t ⟨0, 1⟩)).toNat = _
      rw [e2]
      exact ih t ht
  have h4 := hg.tally
  have e3 : (c.clientQs false j).shares = List.replicate c.parties ⟨0, 1⟩ := rfl
  rw [e3, e, hid _ _ h2] at h4
  show (c.clientQs false j).tally.toNat = c.wanted j
  rw [e, h4]
  rfl

/-- Non-vacuity of C59: three parties and two queries, and three parties with two servers
each; other keys are possible. -/
example : exampleChain.Valid ∧ exampleChain.count = 2 ∧
    (∀ d, (exampleChain.withDraws (fun _ => 0) d).wanted 1 = 0) ∧
    (∀ d, (exampleChain.withDraws (fun _ => 3) d).wanted 1 = 3) ∧
    exampleGrid.Valid ∧ exampleGrid.DistinctTags :=
  ⟨exampleChain_valid, rfl, fun _ => rfl, fun _ => rfl, exampleGrid_valid,
    Grid.distinct_even exampleGrid_valid exampleGrid_even.1 exampleGrid_even.2⟩

end DPPIR.Props
