import Verif.Proofs.Barrier
import Verif.Props.Chain
import Verif.Props.Crash
import Verif.Props.Loops

/-!
# A batch is complete before any of it goes on

The parties hide who asked what by mixing the queries of a whole batch, and "wait until
siblings finished everything (to avoid timing side channel)" before they answer. So at
every moment of every run: once one query has left a party, all its servers and all
servers of the parties before it have read their whole batch; once one response has left a
party, all its servers and all those after it have read all their responses.
-/

namespace DPPIR.Props
open DPPIR Proc PNet Onion Spec Protocol

variable {box : SealedBox}

/-- **C77.** Once party `k` has sent a query on, it and every party before it have read
their whole batch; once the backend has looked a key up, so have all parties and the
backend itself. -/
theorem C77_queries_wait (c : Chain box) (h : c.Valid) (offline : Bool) (cap : Nat × Nat → Nat) (s : List Nat) (n : Net Nat Obs)
    (hn : (c.net offline true).run cap s = some n) :
    (∀ k, 1 ≤ k → k < c.parties → queriesSent (n.seen k) ≠ [] →
      ∀ j, 1 ≤ j → j ≤ k → (queriesRead (n.seen j)).length = c.queries (j - 1)) ∧
    (lookups (n.seen c.parties) ≠ [] → ∀ j, 1 ≤ j → j ≤ c.parties → (queriesRead (n.seen j)).length = c.queries (j - 1)) :=
  ⟨fun _ h0 hk hq j hj0 hj => Chain.queries_wait h offline cap s n hn h0 hk hq j hj0 hj,
    fun hq j hj0 hj => Chain.lookups_wait h offline cap s n hn (by omega) hq j hj0 hj⟩

/-- **C77.** Once party `k` has sent a response back, it and every party after it have
read all their responses; once the client has one, so have all parties. -/
theorem C77_responses_wait (c : Chain box) (h : c.Valid) (offline : Bool) (cap : Nat × Nat → Nat) (s : List Nat) (n : Net Nat Obs)
    (hn : (c.net offline true).run cap s = some n) :
    (∀ k, 1 ≤ k → k < c.parties → responsesSent (n.seen k) ≠ [] →
      ∀ j, k ≤ j → j < c.parties → (responsesRead (n.seen j)).length = c.queries j) ∧
    (responsesRead (n.seen 0) ≠ [] → ∀ j, 1 ≤ j → j < c.parties → (responsesRead (n.seen j)).length = c.queries j) :=
  ⟨fun _ h0 hk hq j hj hjp => Chain.responses_wait h offline cap s n hn h0 hk hq j hj hjp,
    fun hq j hj0 hj => Chain.results_wait h offline cap s n hn hq j hj0 hj⟩

/-- **C77.** With several servers per party: once any server `t` of party `k` has sent a
query on, all servers of that party and of every party before it have read their whole
batch; once any server of the backend has looked a key up, so have all servers of all
parties, and that server of the backend. -/
theorem C77_queries_wait_parallel (g : Grid box) (h : g.Valid) (offline : Bool) (hd : offline = true → g.DistinctTags)
    (cap : Node × Node → Nat) (n : PNet Node Obs Unit) (hn : Reach cap (g.net offline true) n) (t : Nat) (ht : t < g.servers) :
    (∀ k, 1 ≤ k → k < g.parties → queriesSent (n.seen (k, t)) ≠ [] →
      ∀ j s, 1 ≤ j → j ≤ k → s < g.servers → (queriesRead (n.seen (j, s))).length = g.load (j - 1) s) ∧
    (lookups (n.seen (g.parties, t)) ≠ [] → (queriesRead (n.seen (g.parties, t))).length = g.load (g.parties - 1) t ∧
      ∀ j s, 1 ≤ j → j < g.parties → s < g.servers → (queriesRead (n.seen (j, s))).length = g.load (j - 1) s) :=
  ⟨fun _ h0 hk hq j s hj0 hj hs => Grid.queries_wait h offline hd cap n hn h0 hk ht hq j s hj0 hj hs,
    fun hq => ⟨Grid.lookups_own h offline hd cap n hn ht hq,
      fun j s hj0 hj hs => Grid.lookups_wait h offline hd cap n hn ht hq j s hj0 hj hs⟩⟩

/-- **C77.** With several servers per party: once any server of party `k` has sent a
response back, all servers of that party and of every party after it have read all their
responses; once any client has one, so have all servers of all parties. -/
theorem C77_responses_wait_parallel (g : Grid box) (h : g.Valid) (offline : Bool) (hd : offline = true → g.DistinctTags)
    (cap : Node × Node → Nat) (n : PNet Node Obs Unit) (hn : Reach cap (g.net offline true) n) (t : Nat) (ht : t < g.servers) :
    (∀ k, 1 ≤ k → k < g.parties → responsesSent (n.seen (k, t)) ≠ [] →
      ∀ j s, k ≤ j → j < g.parties → s < g.servers → (responsesRead (n.seen (j, s))).length = g.load j s) ∧
    (responsesRead (n.seen (0, t)) ≠ [] →
      ∀ j s, 1 ≤ j → j < g.parties → s < g.servers → (responsesRead (n.seen (j, s))).length = g.load j s) :=
  ⟨fun _ h0 hk hq j s hj hjp hs => Grid.responses_wait h offline hd cap n hn h0 hk ht hq j s hj hjp hs,
    fun hq j s hj0 hj hs => Grid.results_wait h offline hd cap n hn ht hq j s hj0 hj hs⟩

/-- **C77.** The same for processes with the receive loops of the code, one server per
party. -/
theorem C77_wait_loops (c : Chain box) (h : c.Valid) (offline : Bool) (cap : Nat × Nat → Nat) (n : PNet Nat Obs Unit)
    (hn : Reach cap (c.netLoops offline true) n) :
    (∀ k, 1 ≤ k → k < c.parties → queriesSent (n.seen k) ≠ [] →
      ∀ j, 1 ≤ j → j ≤ k → (queriesRead (n.seen j)).length = c.queries (j - 1)) ∧
    (lookups (n.seen c.parties) ≠ [] → ∀ j, 1 ≤ j → j ≤ c.parties → (queriesRead (n.seen j)).length = c.queries (j - 1)) ∧
    (∀ k, 1 ≤ k → k < c.parties → responsesSent (n.seen k) ≠ [] →
      ∀ j, k ≤ j → j < c.parties → (responsesRead (n.seen j)).length = c.queries j) ∧
    (responsesRead (n.seen 0) ≠ [] → ∀ j, 1 ≤ j → j < c.parties → (responsesRead (n.seen j)).length = c.queries j) := by
  obtain ⟨cap', s, m, -, h2, h3, -⟩ := C60_loops_refine c h.parties.2 offline true cap n hn 0
  rw [← h3]
  obtain ⟨a1, a2⟩ := C77_queries_wait c h offline cap' s m h2
  obtain ⟨a3, a4⟩ := C77_responses_wait c h offline cap' s m h2
  exact ⟨a1, a2, a3, a4⟩

/-- **C77.** The same for processes with the receive loops of the code, several servers
per party. -/
theorem C77_wait_loops_parallel (g : Grid box) (h : g.Valid) (offline : Bool) (hd : offline = true → g.DistinctTags)
    (cap : Node × Node → Nat) (n : PNet Node Obs Unit) (hn : Reach cap (g.netLoops offline true) n) (t : Nat) (ht : t < g.servers) :
    (∀ k, 1 ≤ k → k < g.parties → queriesSent (n.seen (k, t)) ≠ [] →
      ∀ j s, 1 ≤ j → j ≤ k → s < g.servers → (queriesRead (n.seen (j, s))).length = g.load (j - 1) s) ∧
    (lookups (n.seen (g.parties, t)) ≠ [] → (queriesRead (n.seen (g.parties, t))).length = g.load (g.parties - 1) t ∧
      ∀ j s, 1 ≤ j → j < g.parties → s < g.servers → (queriesRead (n.seen (j, s))).length = g.load (j - 1) s) ∧
    (∀ k, 1 ≤ k → k < g.parties → responsesSent (n.seen (k, t)) ≠ [] →
      ∀ j s, k ≤ j → j < g.parties → s < g.servers → (responsesRead (n.seen (j, s))).length = g.load j s) ∧
    (responsesRead (n.seen (0, t)) ≠ [] →
      ∀ j s, 1 ≤ j → j < g.parties → s < g.servers → (responsesRead (n.seen (j, s))).length = g.load j s) := by
  have hP := h.parties
  obtain ⟨cap', m, h2, h3, -⟩ := C60_loops_refine_parallel g (by omega) offline true cap n hn (0, t)
  rw [← h3]
  obtain ⟨a1, a2⟩ := C77_queries_wait_parallel g h offline hd cap' m h2 t ht
  obtain ⟨a3, a4⟩ := C77_responses_wait_parallel g h offline hd cap' m h2 t ht
  exact ⟨a1, a2, a3, a4⟩

/-- **C77.** Also when processes crash, one server per party. -/
theorem C77_wait_crash (c : Chain box) (h : c.Valid) (offline : Bool) (cap : Nat × Nat → Nat) (n : Net Nat Obs)
    (hn : Net.CrashReach cap (c.net offline true) n) :
    (∀ k, 1 ≤ k → k < c.parties → queriesSent (n.seen k) ≠ [] →
      ∀ j, 1 ≤ j → j ≤ k → (queriesRead (n.seen j)).length = c.queries (j - 1)) ∧
    (lookups (n.seen c.parties) ≠ [] → ∀ j, 1 ≤ j → j ≤ c.parties → (queriesRead (n.seen j)).length = c.queries (j - 1)) ∧
    (∀ k, 1 ≤ k → k < c.parties → responsesSent (n.seen k) ≠ [] →
      ∀ j, k ≤ j → j < c.parties → (responsesRead (n.seen j)).length = c.queries j) ∧
    (responsesRead (n.seen 0) ≠ [] → ∀ j, 1 ≤ j → j < c.parties → (responsesRead (n.seen j)).length = c.queries j) := by
  obtain ⟨s, m, h1, h2, -⟩ := C55_nothing_new c offline true cap n hn
  rw [h2]
  obtain ⟨a1, a2⟩ := C77_queries_wait c h offline cap s m h1
  obtain ⟨a3, a4⟩ := C77_responses_wait c h offline cap s m h1
  exact ⟨a1, a2, a3, a4⟩

/-- **C77.** Also when processes crash, several servers per party. -/
theorem C77_wait_crash_parallel (g : Grid box) (h : g.Valid) (offline : Bool) (hd : offline = true → g.DistinctTags)
    (cap : Node × Node → Nat) (n : PNet Node Obs Unit) (hn : PNet.CrashReach cap (g.net offline true) n) (t : Nat) (ht : t < g.servers) :
    (∀ k, 1 ≤ k → k < g.parties → queriesSent (n.seen (k, t)) ≠ [] →
      ∀ j s, 1 ≤ j → j ≤ k → s < g.servers → (queriesRead (n.seen (j, s))).length = g.load (j - 1) s) ∧
    (lookups (n.seen (g.parties, t)) ≠ [] → (queriesRead (n.seen (g.parties, t))).length = g.load (g.parties - 1) t ∧
      ∀ j s, 1 ≤ j → j < g.parties → s < g.servers → (queriesRead (n.seen (j, s))).length = g.load (j - 1) s) ∧
    (∀ k, 1 ≤ k → k < g.parties → responsesSent (n.seen (k, t)) ≠ [] →
      ∀ j s, k ≤ j → j < g.parties → s < g.servers → (responsesRead (n.seen (j, s))).length = g.load j s) ∧
    (responsesRead (n.seen (0, t)) ≠ [] →
      ∀ j s, 1 ≤ j → j < g.parties → s < g.servers → (responsesRead (n.seen (j, s))).length = g.load j s) := by
  obtain ⟨m, h1, h2, -⟩ := C55_nothing_new_parallel g offline true cap n hn
  rw [h2]
  obtain ⟨a1, a2⟩ := C77_queries_wait_parallel g h offline hd cap m h1 t ht
  obtain ⟨a3, a4⟩ := C77_responses_wait_parallel g h offline hd cap m h1 t ht
  exact ⟨a1, a2, a3, a4⟩

/-- In some run of `exampleChain` party 2 has sent queries and responses and the backend
has looked keys up; party 1 has read two queries then, and six responses. -/
example : ∃ s n, (exampleChain.net true true).run (fun _ => 1) s = some n ∧ queriesSent (n.seen 2) ≠ [] ∧ lookups (n.seen 3) ≠ [] ∧
    (queriesRead (n.seen 1)).length = 2 ∧ responsesSent (n.seen 1) ≠ [] ∧ (responsesRead (n.seen 1)).length = 6 := by
  obtain ⟨s, n, h1, -, -, h4⟩ := Chain.complete_run exampleChain_valid true true (fun _ => 1) (fun _ => Nat.one_pos)
  have pos : ∀ {α : Type} {l : List α} {m : Nat}, l.length = m → 0 < m → l ≠ [] := by
    intro α l m h h0
    exact List.length_pos_iff.1 (by omega)
  have hl : ∀ k, k < 3 → (exampleChain.qs true k).length = exampleChain.queries k := fun k hk =>
    (Chain.qs_spec exampleChain_valid true k hk).1
  have hq : queriesSent (n.seen 2) ≠ [] := by
    rw [h4, Chain.queriesSent_party exampleChain true 1 (by decide)]
    exact pos (m := exampleChain.queries 2) (by rw [List.length_map]; exact hl 2 (by decide)) (by decide)
  have hr : responsesSent (n.seen 1) ≠ [] := by
    rw [h4, Chain.responsesSent_pos exampleChain true 0 (by decide)]
    exact pos (m := exampleChain.queries 0) (by rw [List.length_map]; exact hl 0 (by decide)) (by decide)
  refine ⟨s, n, h1, hq, ?_, ?_, hr, ?_⟩
  · rw [h4, Chain.lookups_backend exampleChain true 2 (by decide)]
    exact pos (m := exampleChain.queries 2) (by rw [List.length_map]; exact hl 2 (by decide)) (by decide)
  · rw [(C77_queries_wait exampleChain exampleChain_valid true (fun _ => 1) s n h1).1 2 (by decide) (by decide) hq 1 (by decide) (by decide)]
    decide
  · rw [(C77_responses_wait exampleChain exampleChain_valid true (fun _ => 1) s n h1).1 1 (by decide) (by decide) hr 1 (by decide) (by decide)]
    decide

/-- In some run of `exampleGrid` server 0 of party 2 has sent a query, and then server 1 of
party 1 has read its two. -/
example : ∃ cap n, Reach cap (exampleGrid.net true true) n ∧ queriesSent (n.seen (2, 0)) ≠ [] ∧ (queriesRead (n.seen (1, 1))).length = 2 := by
  have hd : exampleGrid.DistinctTags := Grid.distinct_even exampleGrid_valid exampleGrid_even.1 exampleGrid_even.2
  obtain ⟨cap, hc⟩ := exampleGrid.exists_roomy
  obtain ⟨n, hn, hr⟩ := Grid.complete_run exampleGrid_valid true true (fun _ => hd) hc
  obtain ⟨-, -, a3, -⟩ := (Grid.every_run exampleGrid_valid true true (fun _ => hd) cap).1 n hn
  have e : n.seen (2, 0) = exampleGrid.obsAll true true 2 0 := a3 2 0 (by decide) (hr _)
  have hq : queriesSent (n.seen (2, 0)) ≠ [] := by
    rw [e, Grid.queriesSent_party exampleGrid true 0 1 (by decide)]
    intro h0
    have h1 := congrArg List.length h0
    rw [List.length_map, (Grid.qs_spec exampleGrid_valid true 2 (by decide) 0 (by decide)).1] at h1
    revert h1
    decide
  refine ⟨cap, n, hn, hq, ?_⟩
  rw [(C77_queries_wait_parallel exampleGrid exampleGrid_valid true (fun _ => hd) cap n hn 0 (by decide)).1 2 (by decide) (by decide) hq 1 1
    (by decide) (by decide) (by decide)]
  decide

end DPPIR.Props
