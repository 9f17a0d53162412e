import Verif.Proofs.Causal
import Verif.Props.Barrier
import Verif.Props.Crash
import Verif.Spec.Causal

/-!
# Nothing is read before it was sent, and one client that stops stops all
-/

namespace DPPIR.Props
open DPPIR Proc PNet Onion Spec Protocol

variable {box : SealedBox}

/-- **C79.** At every moment of every run, everything that has been read was sent before. -/
theorem C79_in_order (c : Chain box) (h : c.Valid) (offline : Bool) (cap : Nat × Nat → Nat) (s : List Nat) (n : Net Nat Obs)
    (hn : (c.net offline true).run cap s = some n) : InOrder c.parties n.seen :=
  ⟨fun _ hk => Chain.queries_causal h offline cap s n hn hk, fun _ hk => Chain.responses_causal h offline cap s n hn hk,
    (Chain.ends_causal h offline cap s n hn).1, (Chain.ends_causal h offline cap s n hn).2⟩

/-- **C79.** With several servers per party, for the chain of every server. -/
theorem C79_in_order_parallel (g : Grid box) (h : g.Valid) (offline : Bool) (hd : offline = true → g.DistinctTags)
    (cap : Node × Node → Nat) (n : PNet Node Obs Unit) (hn : Reach cap (g.net offline true) n) (s : Nat) (hs : s < g.servers) :
    InOrder g.parties (fun k => n.seen (k, s)) :=
  ⟨fun _ hk => Grid.queries_causal h offline hd cap n hn hk hs, fun _ hk => Grid.responses_causal h offline hd cap n hn hk hs,
    (Grid.ends_causal h offline hd cap n hn s hs).1, (Grid.ends_causal h offline hd cap n hn s hs).2⟩

/-- **C79.** With the receive loops of the code. -/
theorem C79_in_order_loops (c : Chain box) (h : c.Valid) (offline : Bool) (cap : Nat × Nat → Nat) (n : PNet Nat Obs Unit)
    (hn : Reach cap (c.netLoops offline true) n) : InOrder c.parties n.seen := by
  obtain ⟨cap', s, m, -, h2, h3, -⟩ := C60_loops_refine c h.parties.2 offline true cap n hn 0
  rw [← h3]
  exact C79_in_order c h offline cap' s m h2

/-- **C79.** With the receive loops of the code and several servers per party. -/
theorem C79_in_order_loops_parallel (g : Grid box) (h : g.Valid) (offline : Bool) (hd : offline = true → g.DistinctTags)
    (cap : Node × Node → Nat) (n : PNet Node Obs Unit) (hn : Reach cap (g.netLoops offline true) n) (s : Nat) (hs : s < g.servers) :
    InOrder g.parties (fun k => n.seen (k, s)) := by
  have hP := h.parties
  obtain ⟨cap', m, h2, h3, -⟩ := C60_loops_refine_parallel g (by omega) offline true cap n hn (0, s)
  rw [← h3]
  exact C79_in_order_parallel g h offline hd cap' m h2 s hs

/-- **C79.** Also when processes crash. -/
theorem C79_in_order_crash (c : Chain box) (h : c.Valid) (offline : Bool) (cap : Nat × Nat → Nat) (n : Net Nat Obs)
    (hn : Net.CrashReach cap (c.net offline true) n) : InOrder c.parties n.seen := by
  obtain ⟨s, m, h1, h2, -⟩ := C55_nothing_new c offline true cap n hn
  rw [h2]
  exact C79_in_order c h offline cap s m h1

/-- **C79.** Also when processes crash, with several servers per party. -/
theorem C79_in_order_crash_parallel (g : Grid box) (h : g.Valid) (offline : Bool) (hd : offline = true → g.DistinctTags)
    (cap : Node × Node → Nat) (n : PNet Node Obs Unit) (hn : PNet.CrashReach cap (g.net offline true) n) (s : Nat) (hs : s < g.servers) :
    InOrder g.parties (fun k => n.seen (k, s)) := by
  obtain ⟨m, h1, h2, -⟩ := C55_nothing_new_parallel g offline true cap n hn
  rw [h2]
  exact C79_in_order_parallel g h offline hd cap m h1 s hs

theorem nil_of_le {α β : Type} {l : List α} {m : List β} (h : l.length ≤ m.length) (hm : m = []) : l = [] := by
  rw [hm] at h
  exact List.length_eq_zero_iff.1 (Nat.le_zero.1 h)

/-- **C80.** As long as one client has not sent all its queries, all clients wait: nothing
goes on behind the first party, for no client. -/
theorem C80_one_client_holds_all (g : Grid box) (h : g.Valid) (offline : Bool) (hd : offline = true → g.DistinctTags)
    (cap : Node × Node → Nat) (n : PNet Node Obs Unit) (hn : Reach cap (g.net offline true) n) (t : Nat) (ht : t < g.servers)
    (hq : (queriesSent (n.seen (0, t))).length < g.count t) (s : Nat) (hs : s < g.servers) :
    Waiting g.parties (fun k => n.seen (k, s)) := by
  have hP := h.parties
  have no : (queriesRead (n.seen (1, t))).length ≠ g.load 0 t := by
    have h1 := ((C79_in_order_parallel g h offline hd cap n hn t ht).queries 0 (by omega)).length_le
    have h2 : g.load 0 t = g.count t := rfl
    simp only [Nat.zero_add] at h1
    omega
  have q1 : ∀ s < g.servers, ∀ k, 1 ≤ k → k < g.parties → queriesSent (n.seen (k, s)) = [] := by
    intro s hs k h0 hk
    by_contra hne
    exact no ((C77_queries_wait_parallel g h offline hd cap n hn s hs).1 k h0 hk hne 1 t le_rfl h0 ht)
  have q2 : ∀ s < g.servers, lookups (n.seen (g.parties, s)) = [] := by
    intro s hs
    by_contra hne
    exact no (((C77_queries_wait_parallel g h offline hd cap n hn s hs).2 hne).2 1 t le_rfl (by omega) ht)
  have q3 : ∀ d, d < g.parties → ∀ s < g.servers, responsesSent (n.seen (g.parties - d, s)) = [] := by
    intro d
    induction d with
    | zero =>
      intro _ s hs
      exact nil_of_le (C79_in_order_parallel g h offline hd cap n hn s hs).lookups (q2 s hs)
    | succ d ih =>
      intro hd1 s hs
      by_contra hne
      have hfull := (C77_responses_wait_parallel g h offline hd cap n hn s hs).1 (g.parties - (d + 1)) (by omega) (by omega) hne
        (g.parties - (d + 1))
      obtain ⟨k, hk⟩ : ∃ k, g.parties - (d + 1) = k + 1 := ⟨g.parties - (d + 1) - 1, by omega⟩
      have hkd : g.parties - d = k + 2 := by omega
      rw [hk] at hne hfull
      have hpos := List.length_pos_iff.2 hne
      obtain ⟨pre, post, L, a1, a2, a3⟩ := Grid.where_are h offline hd cap n hn
      have w : g.Where offline n pre post L := ⟨a1, a2, a3⟩
      have h4 := (Chain.responsesSent_prefix (w.prefix (k + 1) s hs)).length_le
      rw [Grid.responsesSent_pos g offline s k (by omega), List.length_map, (Grid.qs_spec h offline k (by omega) s hs).1] at h4
      have h5 : 0 < g.total (k + 1) := lt_of_lt_of_le (Grid.total_pos h hs (by omega)) (Grid.total_mono g (Nat.le_succ k))
      rw [← Grid.load_sum g h.pos] at h5
      obtain ⟨u, x, hu, hx, -⟩ := preSum_find _ _ _ h5
      have h6 := hfull u le_rfl (by omega) hu
      have h7 := ((C79_in_order_parallel g h offline hd cap n hn u hu).responses (k + 1) (by omega)).length_le
      have h8 := ih (by omega) u hu
      rw [hkd] at h8
      change (responsesRead (n.seen (k + 1, u))).length ≤ (responsesSent (n.seen (k + 2, u))).length at h7
      rw [h6, h8, List.length_nil] at h7
      omega
  have q4 : ∀ k, 1 ≤ k → k ≤ g.parties → responsesSent (n.seen (k, s)) = [] := by
    intro k h0 hk
    have := q3 (g.parties - k) (by omega) s hs
    rwa [show g.parties - (g.parties - k) = k by omega] at this
  have q5 : ∀ k < g.parties, responsesRead (n.seen (k, s)) = [] := fun k hk =>
    nil_of_le ((C79_in_order_parallel g h offline hd cap n hn s hs).responses k hk).length_le (q4 (k + 1) (by omega) (by omega))
  exact ⟨q1 s hs, q2 s hs, q4, q5, nil_of_le (C79_in_order_parallel g h offline hd cap n hn s hs).results (q5 0 (by omega))⟩

/-- **C80.** With the receive loops of the code. -/
theorem C80_one_client_holds_all_loops (g : Grid box) (h : g.Valid) (offline : Bool) (hd : offline = true → g.DistinctTags)
    (cap : Node × Node → Nat) (n : PNet Node Obs Unit) (hn : Reach cap (g.netLoops offline true) n) (t : Nat) (ht : t < g.servers)
    (hq : (queriesSent (n.seen (0, t))).length < g.count t) (s : Nat) (hs : s < g.servers) :
    Waiting g.parties (fun k => n.seen (k, s)) := by
  have hP := h.parties
  obtain ⟨cap', m, h2, h3, -⟩ := C60_loops_refine_parallel g (by omega) offline true cap n hn (0, s)
  rw [← h3] at hq ⊢
  exact C80_one_client_holds_all g h offline hd cap' m h2 t ht hq s hs

/-- **C80.** Also when processes crash. -/
theorem C80_one_client_holds_all_crash (g : Grid box) (h : g.Valid) (offline : Bool) (hd : offline = true → g.DistinctTags)
    (cap : Node × Node → Nat) (n : PNet Node Obs Unit) (hn : PNet.CrashReach cap (g.net offline true) n) (t : Nat) (ht : t < g.servers)
    (hq : (queriesSent (n.seen (0, t))).length < g.count t) (s : Nat) (hs : s < g.servers) :
    Waiting g.parties (fun k => n.seen (k, s)) := by
  obtain ⟨m, h1, h2, -⟩ := C55_nothing_new_parallel g offline true cap n hn
  rw [h2] at hq ⊢
  exact C80_one_client_holds_all g h offline hd cap m h1 t ht hq s hs

/-- **C80.** A client crashes before it has sent all its queries: from then on, whatever
else happens or crashes, no client gets a result. -/
theorem C80_one_crash_stops_all (g : Grid box) (h : g.Valid) (offline : Bool) (hd : offline = true → g.DistinctTags)
    (cap : Node × Node → Nat) (n m : PNet Node Obs Unit) (hn : PNet.CrashReach cap (g.net offline true) n) (t : Nat) (ht : t < g.servers)
    (hf : n.Faulted (0, t)) (hq : (queriesSent (n.seen (0, t))).length < g.count t) (hm : PNet.CrashReach cap n m) (s : Nat)
    (hs : s < g.servers) : Waiting g.parties (fun k => m.seen (k, s)) := by
  refine C80_one_client_holds_all_crash g h offline hd cap m (hn.trans hm) t ht ?_ s hs
  rw [(hm.down hf).2]
  exact hq

/-- In some run of `exampleChain` the first party has read the two queries that the client
has sent, and the client has the two responses that the first party has sent. -/
example : ∃ s n, (exampleChain.net true true).run (fun _ => 1) s = some n ∧ (queriesRead (n.seen 1)).length = 2 ∧
    (queriesSent (n.seen 0)).length = 2 ∧ (responsesRead (n.seen 0)).length = 2 ∧ InOrder exampleChain.parties n.seen := by
  obtain ⟨s, n, h1, -, -, h4⟩ := Chain.complete_run exampleChain_valid true true (fun _ => 1) (fun _ => Nat.one_pos)
  have hl : (exampleChain.qs true 0).length = exampleChain.queries 0 := (Chain.qs_spec exampleChain_valid true 0 (by decide)).1
  refine ⟨s, n, h1, ?_, ?_, ?_, C79_in_order exampleChain exampleChain_valid true _ s n h1⟩
  · rw [h4, Chain.queriesRead_pos exampleChain true 0 (by decide), List.length_map, hl]
    decide
  · rw [h4, Chain.queriesSent_client, List.length_map, hl]
    decide
  · rw [h4, Chain.responsesRead_client, List.length_map, hl]
    decide

/-- In `exampleGrid` client 1 crashes at once; client 0 then never gets a result, whatever
happens. -/
example (cap : Node × Node → Nat) : ∃ n, PNet.CrashReach cap (exampleGrid.net true true) n ∧
    ∀ m, PNet.CrashReach cap n m → results (m.seen (0, 0)) = [] := by
  have hd : exampleGrid.DistinctTags := Grid.distinct_even exampleGrid_valid exampleGrid_even.1 exampleGrid_even.2
  refine ⟨_, .step .refl (.crash (0, 1)), fun m hm => ?_⟩
  exact (C80_one_crash_stops_all exampleGrid exampleGrid_valid true (fun _ => hd) cap _ m (.step .refl (.crash (0, 1))) 1 (by decide)
    ⟨.exception, by simp⟩ (by show 0 < _; decide) hm 0 (by decide)).results

end DPPIR.Props
