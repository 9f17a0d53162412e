import Verif.Proofs.GridOrder
import Verif.Props.Grid

/-!
# C48 with several servers per party: the backends learn the order of the queries
-/

namespace DPPIR.Props
open DPPIR Proc PNet Onion Spec Protocol

variable {box : SealedBox}

/-- **C48, violated.** With several servers per party, shuffling among all servers
included: from what the servers of the backend see together, the number `s` of a client
and the number of its queries, one can compute that client's keys in the order of its
queries. -/
theorem C48_violated_backend_learns_order_parallel :
    ∃ f : Nat → Nat → Nat → (Nat → List Obs) → List Nat, ∀ (box : SealedBox) (g : Grid box), g.Valid → g.DistinctTags →
      ∀ (cap : Node × Node → Nat) (n : PNet Node Obs Unit), Reach cap (g.net true true) n → (∀ i, n.Returned i ()) →
        ∀ s < g.servers, f g.servers s (g.count s) (fun t => n.seen (g.parties, t)) = wants (n.seen (0, s)) := by
  refine ⟨fun servers s count seen => (List.range count).map (fun j =>
    (((List.range servers).flatMap (fun t => (queriesRead (seen t)).zip (lookups (seen t)))).find?
      (fun p => p.1.tag = BitVec.ofNat 64 (wrap32 (s * count + j)))).elim 0 Prod.snd), ?_⟩
  intro box g h hd cap n hn hf s hs
  obtain ⟨-, -, a3, -⟩ := (Grid.every_run h true true (fun _ => hd) cap).1 n hn
  have hP := h.parties
  obtain ⟨k, hk⟩ : ∃ k, k + 1 = g.parties := ⟨g.parties - 1, by omega⟩
  have e1 : (List.range g.servers).flatMap (fun t => (queriesRead (n.seen (g.parties, t))).zip (lookups (n.seen (g.parties, t)))) =
      (List.range g.servers).flatMap (fun t => (g.qs true k t).map (fun q => (q.query, q.key))) := by
    refine List.flatMap_congr fun t ht => ?_
    have : n.seen (g.parties, t) = g.obsAll true true g.parties t := a3 _ t (List.mem_range.1 ht) (hf _)
    rw [this, ← hk, g.lookups_backend true t k hk, g.queriesRead_pos true t k (by omega), List.zip_map']
  have e2 : wants (n.seen (0, s)) = (List.range (g.count s)).map (g.wanted s) := by
    have : n.seen (0, s) = g.obsAll true true 0 s := a3 _ s hs (hf _)
    rw [this, g.wants_client true s, Grid.qs_zero_keys]
  beta_reduce
  rw [e1, e2]
  apply List.map_congr_left
  intro j hj
  have hp := Grid.qs_pairs h k (by omega)
  have hnd : ((g.pairsTo k).map Prod.fst).Nodup := by
    rw [Grid.pairsTo_fst]
    exact Grid.tagsTo_nodup hd (by omega)
  have hin : (g.clientTag s j, g.wanted s j) ∈ g.pairsTo k := by
    unfold Grid.pairsTo
    refine List.mem_append_left _ (List.mem_flatMap.2 ⟨s, List.mem_range.2 hs, List.mem_map.2 ⟨j, hj, rfl⟩⟩)
  cases hfind : ((List.range g.servers).flatMap (fun t => (g.qs true k t).map (fun q => (q.query, q.key)))).find?
      (fun p => p.1.tag = BitVec.ofNat 64 (wrap32 (s * g.count s + j))) with
  | none =>
    exfalso
    rw [List.find?_eq_none] at hfind
    rw [← hp.mem_iff, List.mem_flatMap] at hin
    obtain ⟨t, ht, hin⟩ := hin
    rw [List.mem_map] at hin
    obtain ⟨q, hq, e⟩ := hin
    refine hfind (q.query, q.key) (List.mem_flatMap.2 ⟨t, ht, List.mem_map_of_mem hq⟩) (decide_eq_true ?_)
    exact congrArg Prod.fst e
  | some p =>
    have h1 := List.find?_some hfind
    have h2 := List.mem_of_find?_eq_some hfind
    rw [List.mem_flatMap] at h2
    obtain ⟨t, ht, h2⟩ := h2
    rw [List.mem_map] at h2
    obtain ⟨q, hq, rfl⟩ := h2
    have hq' : (q.tag, q.key) ∈ g.pairsTo k := by
      rw [← hp.mem_iff]
      exact List.mem_flatMap.2 ⟨t, ht, List.mem_map.2 ⟨q, hq, rfl⟩⟩
    have ht : q.tag = g.clientTag s j := of_decide_eq_true h1
    rw [ht] at hq'
    exact Grid.eq_of_nodup_fst hnd hq' hin

/-- **C48, violated.** In particular the `j`-th query of client `s` carries the tag
`s * count + j`. -/
theorem C48_violated_tag_is_position_parallel (g : Grid box) (h : g.Valid) (hd : g.DistinctTags) (cap : Node × Node → Nat)
    (n : PNet Node Obs Unit) (hn : Reach cap (g.net true true) n) (s : Nat) (hs : s < g.servers) (j : Nat) (q : Query)
    (hq : (queriesSent (n.seen (0, s)))[j]? = some q) : q.tag = BitVec.ofNat 64 (wrap32 (s * g.count s + j)) := by
  obtain ⟨-, a2, -, -⟩ := (Grid.every_run h true true (fun _ => hd) cap).1 n hn
  have h1 := Chain.queriesSent_prefix (a2 0 s hs)
  have e := g.queriesSent_client true s
  unfold Grid.obsAll at e
  rw [e] at h1
  obtain ⟨r, hr⟩ := h1
  have hj := (List.getElem?_eq_some_iff.1 hq).1
  have h2 : ((g.qs true 0 s).map QTicket.query)[j]? = some q := by
    rw [← hr, List.getElem?_append_left hj, hq]
  have h3 := (List.getElem?_eq_some_iff.1 h2).1
  rw [List.length_map, Grid.qs, List.length_map, List.length_range] at h3
  rw [Grid.qs, List.map_map, List.getElem?_map, List.getElem?_range h3] at h2
  obtain rfl := Option.some.inj h2
  rfl

/-- A complete run of the deployment `exampleGrid`: the backends can tell the keys of both
clients, in order. -/
example : ∃ f : Nat → Nat → Nat → (Nat → List Obs) → List Nat, ∃ cap n, Reach cap (exampleGrid.net true true) n ∧
    f 2 0 2 (fun t => n.seen (3, t)) = [3, 0] ∧ f 2 1 2 (fun t => n.seen (3, t)) = [4, 1] := by
  obtain ⟨f, hf⟩ := C48_violated_backend_learns_order_parallel
  have hd : exampleGrid.DistinctTags := Grid.distinct_even exampleGrid_valid exampleGrid_even.1 exampleGrid_even.2
  obtain ⟨cap, hc⟩ := exampleGrid.exists_roomy
  obtain ⟨n, hn, hr⟩ := Grid.complete_run exampleGrid_valid true true (fun _ => hd) hc
  obtain ⟨-, -, a3, -⟩ := (Grid.every_run exampleGrid_valid true true (fun _ => hd) cap).1 n hn
  have e : ∀ s < 2, wants (n.seen (0, s)) = (List.range (exampleGrid.count s)).map (exampleGrid.wanted s) := by
    intro s hs
    have : n.seen (0, s) = exampleGrid.obsAll true true 0 s := a3 0 s hs (hr _)
    rw [this, Grid.wants_client, Grid.qs_zero_keys]
  refine ⟨f, cap, n, hn, ?_, ?_⟩
  · exact (hf _ _ exampleGrid_valid hd cap n hn hr 0 (by decide)).trans ((e 0 (by decide)).trans (by decide))
  · exact (hf _ _ exampleGrid_valid hd cap n hn hr 1 (by decide)).trans ((e 1 (by decide)).trans (by decide))

end DPPIR.Props
