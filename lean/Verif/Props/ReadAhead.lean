import Verif.Spec.ReadAhead
import Verif.Proofs.ReadAheadRun
import Verif.Props.Chain
import Verif.Props.Grid

/-!
# Properties of deployments whose processes read ahead
-/

namespace DPPIR.Props
open DPPIR Proc Onion Spec Protocol

variable {box : SealedBox}

private theorem rows_of_keys {rows : Nat} {d : Database} (hd : Database.new rows = .ok d) (keys : List Nat)
    (hk : ∀ k ∈ keys, k < rows) (l : List QTicket) (hl : l.map QTicket.key = keys) :
    ((l.map (fun q => Database.row q.key)).map Except.ok : List (Res Response)) = keys.map d.lookup := by
  rw [database_new] at hd
  obtain rfl := Except.ok.inj hd
  subst hl
  rw [List.map_map, List.map_map]
  refine List.map_congr_left (fun q hq => ?_)
  have := hk q.key (List.mem_map_of_mem hq)
  exact (rd_eq_ok.2 (by simp [this])).symm

/-- **C60.** One server per party, with or without the offline stage: processes that read
ahead, each as far as it likes, still serve the client, and never block each other. -/
theorem C60_reading_ahead (c : Chain box) (h : c.Valid) (offline : Bool) : c.ServesBuffered offline := by
  intro cap hcap
  obtain ⟨h1, h2⟩ := Chain.every_run_ahead h offline true cap (fun _ _ => ⟨hcap _, hcap _⟩)
  refine ⟨fun n hn => ?_, fun ⟨f, hf, hall⟩ => h2 f hf hall⟩
  obtain ⟨a1, a2, a3, a4⟩ := h1 n hn
  refine ⟨a1, a4, fun d hd => ?_⟩
  have hw := Chain.wants_prefix (a2 0)
  rw [Chain.wants_client, Chain.qs_zero_keys] at hw
  have hall := rows_of_keys hd ((List.range c.count).map c.wanted) (fun k hk => by
    obtain ⟨j, -, rfl⟩ := List.mem_map.1 hk
    have hr := h.rows
    unfold Chain.wanted
    split
    · omega
    · exact Nat.mod_lt _ (by omega)) _ (Chain.qs_zero_keys c offline)
  refine ⟨hw, ?_, fun hf => ?_⟩
  · have hr := Chain.results_prefix (a2 0)
    rw [Chain.results_client] at hr
    rw [← hall]
    obtain ⟨r, hr⟩ := hr
    rw [← hr, List.map_append]
    exact List.prefix_append _ _
  · have e : wants (n.seen 0) = (List.range c.count).map c.wanted := by
      rw [a3 0 hf, Chain.wants_client, Chain.qs_zero_keys]
    exact ⟨e, by rw [e, a3 0 hf, Chain.results_client, hall]⟩

/-- **C60.** The same with several servers per party. -/
theorem C60_reading_ahead_parallel (g : Grid box) (h : g.Valid) (offline : Bool) (hd : offline = true → g.DistinctTags) :
    g.ServesBuffered offline := by
  intro cap
  obtain ⟨h1, h2⟩ := Grid.every_run_ahead h offline true hd cap
  refine ⟨fun n hn => ?_, fun ⟨f, hf, hall⟩ => h2 f hf hall⟩
  obtain ⟨a1, a2, a3, a4⟩ := h1 n hn
  refine ⟨a1, a4, fun s hs d hdb => ?_⟩
  have hw := Chain.wants_prefix (a2 0 s hs)
  rw [Grid.wants_client, Grid.qs_zero_keys] at hw
  have hall := rows_of_keys hdb ((List.range (g.count s)).map (g.wanted s)) (fun k hk => by
    obtain ⟨j, -, rfl⟩ := List.mem_map.1 hk
    have hr := h.rowsp
    unfold Grid.wanted
    split
    · omega
    · exact Nat.mod_lt _ (by omega)) _ (Grid.qs_zero_keys g offline s)
  refine ⟨hw, ?_, fun hf => ?_⟩
  · have hr := Chain.results_prefix (a2 0 s hs)
    rw [Grid.results_client] at hr
    rw [← hall]
    obtain ⟨r, hr⟩ := hr
    rw [← hr, List.map_append]
    exact List.prefix_append _ _
  · have e : wants (n.seen (0, s)) = (List.range (g.count s)).map (g.wanted s) := by
      rw [a3 0 s hs hf, Grid.wants_client, Grid.qs_zero_keys]
    exact ⟨e, by rw [e, a3 0 s hs hf, Grid.results_client, hall]⟩

/-- **C60.** Not only the client: a process that has returned has made exactly the calls,
in the same order, that it makes in a run in which bytes are read one by one. -/
theorem C60_same_calls (c : Chain box) (h : c.Valid) (offline online : Bool) (cap cap' : Nat × Nat → Nat) (hcap : ∀ x, 0 < cap x)
    (hcap' : ∀ x, 0 < cap' x) (n : RNet Nat Obs Unit) (hn : RNet.Reach (fun _ => True) cap (c.bufferedNet offline online) n)
    (s : List Nat) (m : Net Nat Obs) (hm : (c.net offline online).run cap' s = some m) (i : Nat) (hi : n.Returned i ())
    (hi' : m.Finished i) : n.seen i = m.seen i := by
  rw [Chain.finished_seen h offline online cap' hcap' hm hi']
  exact ((Chain.every_run_ahead h offline online cap (fun _ _ => ⟨hcap _, hcap _⟩)).1 n hn).2.2.1 i hi

/-- **C60.** The same with several servers per party. -/
theorem C60_same_calls_parallel (g : Grid box) (h : g.Valid) (offline online : Bool) (hd : offline = true → g.DistinctTags)
    (cap cap' : Node × Node → Nat) (n : RNet Node Obs Unit) (hn : RNet.Reach Grid.chainLink cap (g.bufferedNet offline online) n)
    (m : PNet Node Obs Unit) (hm : PNet.Reach cap' (g.net offline online) m) (i s : Nat) (hs : s < g.servers)
    (hi : n.Returned (i, s) ()) (hi' : m.Returned (i, s) ()) : n.seen (i, s) = m.seen (i, s) :=
  (((Grid.every_run_ahead h offline online hd cap).1 n hn).2.2.1 i s hs hi).trans
    (((Grid.every_run h offline online hd cap').1 m hm).2.2.1 i s hs hi').symm

/-- **C60.** Whatever programs communicate, also ones that do not follow the protocol: a
state of a run with read buffers is, for every process and its record of calls, a state
of a run in which the bytes that were read ahead are still in (larger) connections.  So
what holds in every run without read buffers, whatever the capacities (C56, C57), holds
with them. -/
theorem C60_no_new_behaviour {ι O α : Type} [DecidableEq ι] (prog : ι → Proc ι O α) (links : ι × ι → Prop) (cap : ι × ι → Nat)
    (n : RNet ι O α) (hn : RNet.Reach links cap (RNet.start (fun i => PProc.ofProc (prog i))) n) :
    ∃ cap' m, PNet.Reach cap' (PNet.start (fun i => PProc.ofProc (prog i))) m ∧ m.proc = n.proc ∧ m.seen = n.seen ∧
      ∀ x, m.chan x = n.ahead x ++ n.chan x := by
  obtain ⟨-, cap', h⟩ := hn.unread (RNet.Clean.start (fun i => RNet.Direct.ofProc (prog i)))
  exact ⟨cap', n.unread, h, rfl, rfl, fun _ => rfl⟩

/-- The example of three parties can end, with queues of one byte; all have returned. -/
example : ∃ n, RNet.Reach (fun _ => True) (fun _ => 1) (exampleChain.bufferedNet true true) n ∧ ∀ i, n.Returned i () := by
  obtain ⟨h1, h2⟩ := C60_reading_ahead exampleChain exampleChain_valid true (fun _ => 1) (fun _ => Nat.one_pos)
  by_contra hno
  push Not at hno
  have step : ∀ n : {n // RNet.Reach (fun _ => True) (fun _ => 1) (exampleChain.bufferedNet true true) n},
      ∃ m : {n // RNet.Reach (fun _ => True) (fun _ => 1) (exampleChain.bufferedNet true true) n},
        ∃ i, RNet.Step (fun _ => True) (fun _ => 1) i n.1 m.1 := by
    rintro ⟨n, hn⟩
    obtain ⟨-, h | h, -⟩ := h1 n hn
    · obtain ⟨i, m, h⟩ := h
      exact ⟨⟨m, hn.step h⟩, i, h⟩
    · obtain ⟨i, hi⟩ := hno n hn
      exact absurd (h.1 i) hi
  choose g hg using step
  exact h2 ⟨fun k => (Nat.rec ⟨_, .refl⟩ (fun _ n => g n) k : {n // RNet.Reach (fun _ => True) (fun _ => 1) (exampleChain.bufferedNet true true) n}).1,
    rfl, fun k => hg _⟩

/-- Reading ahead does happen: a process that waits for one byte may have read two. -/
example : ∃ n : RNet Bool Unit Unit,
    RNet.Reach (fun _ => True) (fun _ => 2)
      (RNet.start (fun i => PProc.ofProc (if i then (.send false 1 (.send false 2 (.done ()))) else .recv true (fun _ => .done ())))) n ∧
    n.Returned false () ∧ n.ahead (true, false) = [2] ∧ n.chan (true, false) = [] := by
  refine ⟨_, ((((RNet.Reach.refl.step (i := true) (.plain (.send (d := false) (b := 1) (k := .send false 2 (.done ())) rfl (by decide))
      (fun s k e => by cases e))).step (i := true) (.plain (.send (d := false) (b := 2) (k := .done ()) ?_ (by decide)) (fun s k e => ?_))).step
      (i := false) (.fill (s := true) (k := fun _ => .done ()) (c := [1, 2]) (rest := []) ?_ trivial rfl (by simp) rfl)).step (i := false)
      (.take (s := true) (k := fun _ => .done ()) (b := 1) (rest := [2]) ?_ trivial rfl)), ?_, rfl, rfl⟩
  all_goals first | rfl | (cases e)

end DPPIR.Props
