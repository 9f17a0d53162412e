import Verif.Proofs.Coalition
import Verif.Props.Loops
import Verif.Props.Crash
import Verif.Props.Grid
import Mathlib.SetTheory.Cardinal.Finite
import Mathlib.Data.FinEnum

/-!
# C78: a client's keys stay secret from the other clients
-/

namespace DPPIR.Props
open DPPIR.Protocol DPPIR.Proc DPPIR.Incremental DPPIR.Spec DPPIR.Onion PNet

variable {box : SealedBox}

/-- **C78.** What a client sees in a run is determined by this client alone: in two
deployments in which this client is the same, whatever the other clients, the parties and
the schedules, and at any two moments, one view is the beginning of the other; a client
that has returned has seen at least as much as in the other run; and if it has returned
in both it has seen the same.  So nothing it sees depends on the others' keys. -/
theorem C78_client_view (g g' : Grid box) (h : g.Valid) (h' : g'.Valid) (offline online : Bool)
    (hd : offline = true → g.DistinctTags) (hd' : offline = true → g'.DistinctTags)
    (s : Nat) (hs : s < g.servers) (hs' : s < g'.servers) (same : g.SameClient g' s)
    (cap cap' : Node × Node → Nat) (n n' : PNet Node Obs Unit)
    (hn : Reach cap (g.net offline online) n) (hn' : Reach cap' (g'.net offline online) n') :
    let l := n.seen (0, s)
    let l' := n'.seen (0, s)
    (l <+: l' ∨ l' <+: l) ∧ (n.Returned (0, s) () → l' <+: l) ∧ (n.Returned (0, s) () → n'.Returned (0, s) () → l = l') := by
  obtain ⟨-, a2, a3, -⟩ := (Grid.every_run h offline online hd cap).1 n hn
  obtain ⟨-, b2, b3, -⟩ := (Grid.every_run h' offline online hd' cap').1 n' hn'
  have a : n.seen (0, s) <+: g.obsAll offline online 0 s := a2 0 s hs
  have b : n'.seen (0, s) <+: g'.obsAll offline online 0 s := b2 0 s hs'
  have a3 : n.Returned (0, s) () → n.seen (0, s) = g.obsAll offline online 0 s := a3 0 s hs
  have b3 : n'.Returned (0, s) () → n'.seen (0, s) = g'.obsAll offline online 0 s := b3 0 s hs'
  rw [same.obsAll] at b b3
  refine ⟨List.prefix_or_prefix_of_prefix a b, fun hf => ?_, fun hf hf' => ?_⟩
  · rw [a3 hf]
    exact b
  · rw [a3 hf, b3 hf']

/-- **C78**, with the receive loops of the code. -/
theorem C78_client_view_loops (g g' : Grid box) (h : g.Valid) (h' : g'.Valid) (offline online : Bool)
    (hd : offline = true → g.DistinctTags) (hd' : offline = true → g'.DistinctTags)
    (s : Nat) (hs : s < g.servers) (hs' : s < g'.servers) (same : g.SameClient g' s)
    (cap cap' : Node × Node → Nat) (n n' : PNet Node Obs Unit)
    (hn : Reach cap (g.netLoops offline online) n) (hn' : Reach cap' (g'.netLoops offline online) n') :
    let l := n.seen (0, s)
    let l' := n'.seen (0, s)
    (l <+: l' ∨ l' <+: l) ∧ (n.Returned (0, s) () → l' <+: l) ∧ (n.Returned (0, s) () → n'.Returned (0, s) () → l = l') := by
  have hP := h.parties
  have hP' := h'.parties
  obtain ⟨d, m, h2, h3, h4, -⟩ := C60_loops_refine_parallel g (by omega) offline online cap n hn (0, s)
  obtain ⟨d', m', h2', h3', h4', -⟩ := C60_loops_refine_parallel g' (by omega) offline online cap' n' hn' (0, s)
  have := C78_client_view g g' h h' offline online hd hd' s hs hs' same d d' m m' h2 h2'
  rw [h3, h3'] at this
  exact ⟨this.1, fun hf => this.2.1 (h4 hf), fun hf hf' => this.2.2 (h4 hf) (h4' hf')⟩

/-- **C78**, whatever processes crash, and whenever. -/
theorem C78_client_view_crash (g g' : Grid box) (h : g.Valid) (h' : g'.Valid) (offline online : Bool)
    (hd : offline = true → g.DistinctTags) (hd' : offline = true → g'.DistinctTags)
    (s : Nat) (hs : s < g.servers) (hs' : s < g'.servers) (same : g.SameClient g' s)
    (cap cap' : Node × Node → Nat) (n n' : PNet Node Obs Unit)
    (hn : CrashReach cap (g.net offline online) n) (hn' : CrashReach cap' (g'.net offline online) n') :
    let l := n.seen (0, s)
    let l' := n'.seen (0, s)
    (l <+: l' ∨ l' <+: l) ∧ (n.Returned (0, s) () → l' <+: l) ∧ (n.Returned (0, s) () → n'.Returned (0, s) () → l = l') := by
  obtain ⟨m, hm, e, f, -⟩ := C55_nothing_new_parallel g offline online cap n hn
  obtain ⟨m', hm', e', f', -⟩ := C55_nothing_new_parallel g' offline online cap' n' hn'
  have := C78_client_view g g' h h' offline online hd hd' s hs hs' same cap cap' m m' hm hm'
  rw [← e, ← e'] at this
  exact ⟨this.1, fun hf => this.2.1 (f _ hf), fun hf hf' => this.2.2 (f _ hf) (f' _ hf')⟩

/-- **C78.** All parties before the backend and all other clients together learn nothing
about the keys of client `t`: whatever all the others choose, and whatever they see
together in a complete run, the number of outcomes of this client's draws for which they
see it is the same for all other keys of this client. -/
theorem C78_others_learn_nothing (g : Grid box) (h : g.Valid) (hd : g.DistinctTags) (t : Nat) (row row' : Nat → Nat)
    (v : Node → List Obs) :
    Nat.card {d : Draws (g.count t) g.parties // (g.withDrawsOf t row d).OthersSee t v} =
      Nat.card {d : Draws (g.count t) g.parties // (g.withDrawsOf t row' d).OthersSee t v} :=
  Nat.card_congr ((Grid.shiftOf h t row row').subtypeEquiv (fun d => Grid.othersSee_shift h t row row' d hd v))

/-- **C78.** For all outcomes of the draws the others see one thing, and nothing else,
whatever the schedule and the connections. -/
theorem C78_one_view (g : Grid box) (h : g.Valid) (hd : g.DistinctTags) (t : Nat) (row : Nat → Nat)
    (d : Draws (g.count t) g.parties) :
    ∃ v : Node → List Obs, ∀ v', (g.withDrawsOf t row d).OthersSee t v' ↔
      (∀ i s, 1 ≤ i → i < g.parties → s < g.servers → v' (i, s) = v (i, s)) ∧
      ∀ s, s < g.servers → s ≠ t → v' (0, s) = v (0, s) := by
  refine ⟨fun i => if i.1 = 0 then (g.withDrawsOf t row d).obsAll true true 0 i.2
    else ((g.withDrawsOf t row d).obsAll true true i.1 i.2).map Obs.sealed, fun v' => ?_⟩
  rw [Grid.withDrawsOf_rand, Grid.othersSee_iff t v' (Grid.withRand_valid g (Function.update g.clientRand t ((g.clientRand t).withDraws row d)) h)
    (Grid.withRand_distinct g (Function.update g.clientRand t ((g.clientRand t).withDraws row d)) hd)]
  refine and_congr ⟨fun e i s h1 hi hs => ?_, fun e i s h1 hi hs => ?_⟩ ⟨fun e s hs ht => ?_, fun e s hs ht => ?_⟩
  · refine Eq.trans ?_ (if_neg (show ¬ i = 0 by omega)).symm
    exact (e i s h1 hi hs).symm
  · exact ((e i s h1 hi hs).trans (if_neg (show ¬ i = 0 by omega))).symm
  · exact (e s hs ht).symm
  · exact (e s hs ht).symm

/-- Non-vacuity of C78: three parties with two servers each.  Client 0 is the same
whatever client 1 asks for, and client 1 may ask for row 0 or for row 3. -/
example : exampleGrid.Valid ∧ exampleGrid.DistinctTags ∧ exampleGrid.servers = 2 ∧
    (∀ row d, exampleGrid.SameClient (exampleGrid.withDrawsOf 1 row d) 0) ∧
    (∀ d, (exampleGrid.withDrawsOf 1 (fun _ => 0) d).wanted 1 0 = 0) ∧
    (∀ d, (exampleGrid.withDrawsOf 1 (fun _ => 3) d).wanted 1 0 = 3) ∧
    ∀ row d, ∃ v, (exampleGrid.withDrawsOf 1 row d).OthersSee 1 v := by
  have hd := Grid.distinct_even exampleGrid_valid exampleGrid_even.1 exampleGrid_even.2
  refine ⟨exampleGrid_valid, hd, rfl, fun row d => Grid.same_of 1 row d 0 (by decide), fun _ => rfl, fun _ => rfl, fun row d => ?_⟩
  obtain ⟨v, hv⟩ := C78_one_view exampleGrid exampleGrid_valid hd 1 row d
  exact ⟨v, (hv v).2 ⟨fun _ _ _ _ _ => rfl, fun _ _ _ => rfl⟩⟩

end DPPIR.Props
