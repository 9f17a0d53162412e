import Verif.Proofs.GridInstall
import Verif.Props.Chain
import Verif.Props.Loops

/-!
# The offline stage ends before the online stage starts, with several servers per party
-/

namespace DPPIR.Props
open DPPIR Proc PNet Onion Spec Protocol

variable {box : SealedBox}

/-- **C47.** With several servers per party, as soon as any of the clients has made its
first online query, every server of every party and of the backend has installed all its
offline secrets: as many as there are queries coming its way, no further one at any later
time, and no later time at which it has read more queries. -/
theorem C47_installed_before_online_parallel (g : Grid box) (h : g.Valid) (hd : g.DistinctTags) (cap : Node × Node → Nat)
    (n : PNet Node Obs Unit) (hn : Reach cap (g.net true true) n) (s : Nat) (hs : s < g.servers)
    (hq : queriesSent (n.seen (0, s)) ≠ []) (k t : Nat) (hk : k < g.parties) (ht : t < g.servers) :
    (stores (n.seen (k + 1, t))).length = g.load k t ∧
    ∀ n', Reach cap n n' → stores (n'.seen (k + 1, t)) = stores (n.seen (k + 1, t)) ∧
      (queriesRead (n'.seen (k + 1, t))).length ≤ (stores (n.seen (k + 1, t))).length := by
  have e := Grid.installed h hd cap n hn s hs hq k t hk ht
  have hlen := ((Grid.tickets_spec h k hk).1 t ht).1
  refine ⟨by rw [e, List.length_map, hlen], fun n' hn' => ?_⟩
  have hr := hn.trans hn'
  have e' := Grid.installed h hd cap n' hr s hs (by
    intro h0
    have := Chain.queriesSent_prefix (hn'.seen_prefix (0, s))
    rw [h0] at this
    exact hq (List.prefix_nil.1 this)) k t hk ht
  refine ⟨e'.trans e.symm, ?_⟩
  obtain ⟨-, a2, -, -⟩ := (Grid.every_run h true true (fun _ => hd) cap).1 n' hr
  have h1 := (Chain.queriesRead_prefix (a2 (k + 1) t ht)).length_le
  have h2 := g.queriesRead_pos true t k hk
  unfold Grid.obsAll at h2
  rw [h2, List.length_map, (Grid.qs_spec h true k hk t ht).1] at h1
  rw [e, List.length_map, hlen]
  exact h1

/-- **C47.** The same for processes with the receive loops of the code, one server per
party. -/
theorem C47_installed_before_online_loops (c : Chain box) (h : c.Valid) (cap : Nat × Nat → Nat)
    (n : PNet Nat Obs Unit) (hn : Reach cap (c.netLoops true true) n) (hq : queriesSent (n.seen 0) ≠ []) (k : Nat) (hk : k < c.parties) :
    (stores (n.seen (k + 1))).length = c.queries k ∧
    ∀ n', Reach cap n n' → stores (n'.seen (k + 1)) = stores (n.seen (k + 1)) := by
  have key : ∀ n, Reach cap (c.netLoops true true) n → queriesSent (n.seen 0) ≠ [] → (stores (n.seen (k + 1))).length = c.queries k := by
    intro n hn hq
    obtain ⟨cap', s, m, h1, h2, h3, -⟩ := C60_loops_refine c h.parties.2 true true cap n hn 0
    rw [← h3] at hq ⊢
    exact (C47_installed_before_online c h cap' h1 s m h2 hq k hk).1
  refine ⟨key n hn hq, fun n' hn' => ?_⟩
  have h1 := key n' (hn.trans hn') (by
    intro h0
    have := Chain.queriesSent_prefix (hn'.seen_prefix 0)
    rw [h0] at this
    exact hq (List.prefix_nil.1 this))
  exact ((Chain.stores_prefix (hn'.seen_prefix (k + 1))).eq_of_length (by rw [h1, key n hn hq])).symm

/-- **C47.** The same for processes with the receive loops of the code, several servers
per party. -/
theorem C47_installed_before_online_loops_parallel (g : Grid box) (h : g.Valid) (hd : g.DistinctTags) (cap : Node × Node → Nat)
    (n : PNet Node Obs Unit) (hn : Reach cap (g.netLoops true true) n) (s : Nat) (hs : s < g.servers)
    (hq : queriesSent (n.seen (0, s)) ≠ []) (k t : Nat) (hk : k < g.parties) (ht : t < g.servers) :
    (stores (n.seen (k + 1, t))).length = g.load k t ∧
    ∀ n', Reach cap n n' → stores (n'.seen (k + 1, t)) = stores (n.seen (k + 1, t)) ∧
      (queriesRead (n'.seen (k + 1, t))).length ≤ (stores (n.seen (k + 1, t))).length := by
  have hP := h.parties
  have key : ∀ n, Reach cap (g.netLoops true true) n → queriesSent (n.seen (0, s)) ≠ [] →
      (stores (n.seen (k + 1, t))).length = g.load k t ∧
      (queriesRead (n.seen (k + 1, t))).length ≤ (stores (n.seen (k + 1, t))).length := by
    intro n hn hq
    obtain ⟨cap', m, h2, h3, -⟩ := C60_loops_refine_parallel g (by omega) true true cap n hn (0, s)
    rw [← h3] at hq ⊢
    obtain ⟨h4, h5⟩ := C47_installed_before_online_parallel g h hd cap' m h2 s hs hq k t hk ht
    exact ⟨h4, (h5 m .refl).2⟩
  refine ⟨(key n hn hq).1, fun n' hn' => ?_⟩
  obtain ⟨h1, h2⟩ := key n' (hn.trans hn') (by
    intro h0
    have := Chain.queriesSent_prefix (hn'.seen_prefix (0, s))
    rw [h0] at this
    exact hq (List.prefix_nil.1 this))
  have e := ((Chain.stores_prefix (hn'.seen_prefix (k + 1, t))).eq_of_length (by rw [h1, (key n hn hq).1])).symm
  exact ⟨e, by rw [← e]; exact h2⟩

/-- In some run of `exampleGrid` the client of server 0 has sent its queries, and then
server 1 of the backend has installed seven secrets. -/
example : ∃ cap n, Reach cap (exampleGrid.net true true) n ∧ queriesSent (n.seen (0, 0)) ≠ [] ∧ (stores (n.seen (3, 1))).length = 7 := by
  have hd : exampleGrid.DistinctTags := Grid.distinct_even exampleGrid_valid exampleGrid_even.1 exampleGrid_even.2
  obtain ⟨cap, hc⟩ := exampleGrid.exists_roomy
  obtain ⟨n, hn, hr⟩ := Grid.complete_run exampleGrid_valid true true (fun _ => hd) hc
  obtain ⟨-, -, a3, -⟩ := (Grid.every_run exampleGrid_valid true true (fun _ => hd) cap).1 n hn
  have e : n.seen (0, 0) = exampleGrid.obsAll true true 0 0 := a3 0 0 (by decide) (hr _)
  have hq : queriesSent (n.seen (0, 0)) ≠ [] := by
    rw [e, Grid.queriesSent_client]
    intro h0
    have h1 := congrArg List.length (exampleGrid.qs_zero_keys true 0)
    have h2 := congrArg List.length h0
    rw [List.length_map] at h1 h2
    rw [h2] at h1
    revert h1
    decide
  refine ⟨cap, n, hn, hq, ?_⟩
  rw [(C47_installed_before_online_parallel exampleGrid exampleGrid_valid hd cap n hn 0 (by decide) hq 2 1 (by decide) (by decide)).1]
  decide

end DPPIR.Props
