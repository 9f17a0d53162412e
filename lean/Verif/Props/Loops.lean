import Verif.Spec.Loops
import Verif.Proofs.LoopsHear
import Verif.Props.Hostile
import Verif.Props.HostileGrid
import Verif.Props.Crash

/-!
# Properties of deployments whose processes have the receive loops of the code
-/

namespace DPPIR.Props
open DPPIR Proc Onion Spec Protocol

variable {box : SealedBox}

private theorem rows_of_keys {rows : Nat} {d : Database} (hd : Database.new rows = .ok d) (keys : List Nat)
    (hk : ∀ k ∈ keys, k < rows) : ((keys.map Database.row).map Except.ok : List (Res Response)) = keys.map d.lookup := by
  rw [database_new] at hd
  obtain rfl := Except.ok.inj hd
  rw [List.map_map]
  refine List.map_congr_left (fun q hq => ?_)
  have := hk q hq
  exact (rd_eq_ok.2 (by simp [this])).symm

private theorem chain_keys (c : Chain box) (h : 1 ≤ c.rows) : ∀ k ∈ (List.range c.count).map c.wanted, k < c.rows := by
  intro k hk
  obtain ⟨j, -, rfl⟩ := List.mem_map.1 hk
  unfold Chain.wanted
  split
  · omega
  · exact Nat.mod_lt _ (by omega)

private theorem grid_keys (g : Grid box) (h : 1 ≤ g.rows) (s : Nat) : ∀ k ∈ (List.range (g.count s)).map (g.wanted s), k < g.rows := by
  intro k hk
  obtain ⟨j, -, rfl⟩ := List.mem_map.1 hk
  unfold Grid.wanted
  split
  · omega
  · exact Nat.mod_lt _ (by omega)

/-- **C60.** One server per party, with or without the offline stage: processes that
receive their messages with the loops of the code, which read as many bytes as fit their
buffer and as are missing, serve the client, and never block each other. -/
theorem C60_receive_loops (c : Chain box) (h : c.Valid) (offline : Bool) : c.ServesLoops offline := by
  intro cap hcap
  obtain ⟨h1, h2⟩ := Chain.every_run_loops h offline true cap hcap
  refine ⟨fun n hn => ?_, fun ⟨f, hf, hall⟩ => h2 f hf hall⟩
  obtain ⟨a1, a2, a3, a4⟩ := h1 n hn
  refine ⟨a1, a4, fun d hd => ?_⟩
  have hw := Chain.wants_prefix (a2 0)
  rw [Chain.wants_client, Chain.qs_zero_keys] at hw
  have hall := rows_of_keys hd _ (chain_keys c h.rows.1)
  have hres : results (c.obsAll offline true 0) = ((List.range c.count).map c.wanted).map Database.row := by
    rw [Chain.results_client, ← Chain.qs_zero_keys c offline, List.map_map]
    rfl
  refine ⟨hw, ?_, fun hf => ?_⟩
  · have hr := Chain.results_prefix (a2 0)
    rw [hres] at hr
    rw [← hall]
    exact hr.map _
  · have e : wants (n.seen 0) = (List.range c.count).map c.wanted := by
      rw [a3 0 hf, Chain.wants_client, Chain.qs_zero_keys]
    exact ⟨e, by rw [e, a3 0 hf, hres, hall]⟩

/-- **C60.** The same with several servers per party. -/
theorem C60_receive_loops_parallel (g : Grid box) (h : g.Valid) (offline : Bool) (hd : offline = true → g.DistinctTags) :
    g.ServesLoops offline := by
  intro cap
  obtain ⟨h1, h2⟩ := Grid.every_run_loops h offline true hd cap
  refine ⟨fun n hn => ?_, fun ⟨f, hf, hall⟩ => h2 f hf hall⟩
  obtain ⟨a1, a2, a3, a4⟩ := h1 n hn
  refine ⟨a1, a4, fun s hs d hdb => ?_⟩
  have hw := Chain.wants_prefix (a2 0 s hs)
  rw [Grid.wants_client, Grid.qs_zero_keys] at hw
  have hall := rows_of_keys hdb _ (grid_keys g h.rowsp.1 s)
  have hres : results (g.obsAll offline true 0 s) = ((List.range (g.count s)).map (g.wanted s)).map Database.row := by
    rw [Grid.results_client, ← Grid.qs_zero_keys g offline, List.map_map]
    rfl
  refine ⟨hw, ?_, fun hf => ?_⟩
  · have hr := Chain.results_prefix (a2 0 s hs)
    rw [hres] at hr
    rw [← hall]
    exact hr.map _
  · have e : wants (n.seen (0, s)) = (List.range (g.count s)).map (g.wanted s) := by
      rw [a3 0 s hs hf, Grid.wants_client, Grid.qs_zero_keys]
    exact ⟨e, by rw [e, a3 0 s hs hf, hres, hall]⟩

/-- **C60.** Not only the client: a process that has returned has made exactly the calls,
in the same order, that it makes in a run in which bytes are read one by one. -/
theorem C60_loops_same_calls (c : Chain box) (h : c.Valid) (offline online : Bool) (cap cap' : Nat × Nat → Nat) (hcap : ∀ x, 0 < cap x)
    (hcap' : ∀ x, 0 < cap' x) (n : PNet Nat Obs Unit) (hn : PNet.Reach cap (c.netLoops offline online) n)
    (s : List Nat) (m : Net Nat Obs) (hm : (c.net offline online).run cap' s = some m) (i : Nat) (hi : n.Returned i ())
    (hi' : m.Finished i) : n.seen i = m.seen i := by
  rw [Chain.finished_seen h offline online cap' hcap' hm hi']
  exact ((Chain.every_run_loops h offline online cap (fun _ _ => ⟨hcap _, hcap _⟩)).1 n hn).2.2.1 i hi

/-- **C60.** The same with several servers per party. -/
theorem C60_loops_same_calls_parallel (g : Grid box) (h : g.Valid) (offline online : Bool) (hd : offline = true → g.DistinctTags)
    (cap cap' : Node × Node → Nat) (n : PNet Node Obs Unit) (hn : PNet.Reach cap (g.netLoops offline online) n)
    (m : PNet Node Obs Unit) (hm : PNet.Reach cap' (g.net offline online) m) (i s : Nat) (hs : s < g.servers)
    (hi : n.Returned (i, s) ()) (hi' : m.Returned (i, s) ()) : n.seen (i, s) = m.seen (i, s) :=
  (((Grid.every_run_loops h offline online hd cap).1 n hn).2.2.1 i s hs hi).trans
    (((Grid.every_run h offline online hd cap').1 m hm).2.2.1 i s hs hi').symm

/-- **C60.** Also in a deployment that is not set up correctly, whose processes may stop
abnormally: whatever the processes with receive loops have called, they call in a run
that reads byte by byte, and a process that has returned or stopped has done so there,
in the same way. -/
theorem C60_loops_refine (c : Chain box) (hP : c.parties ≤ 255) (offline online : Bool) (cap : Nat × Nat → Nat)
    (n : PNet Nat Obs Unit) (hn : PNet.Reach cap (c.netLoops offline online) n) (i : Nat) :
    ∃ cap' s m, (∀ x, 0 < cap' x) ∧ (c.net offline online).run cap' s = some m ∧ m.seen = n.seen ∧
      (n.Returned i () → m.Finished i) ∧ ∀ e, n.proc i = .fault e → m.proc i = .fault e := by
  have hrel : RNet.Rel (fun _ => True) (c.netLoops offline online) (RNet.start (fun i => PProc.ofProc (c.prog offline online i))) :=
    RNet.Rel.start (c.sim_prog hP offline online)
  obtain ⟨cap', m, h1, h2, h3, h4⟩ := hrel.unread (RNet.Clean.start (fun i => RNet.Direct.ofProc _)) hn i
  have h1 : PNet.Reach (fun x => cap' x + 1) (PNet.start (fun i => PProc.ofProc (c.prog offline online i))) m :=
    RNet.reach_mono (fun _ => Nat.le_succ _) h1
  obtain ⟨s, m', k1, k2, -, k4⟩ := PNet.reach_net h1
  refine ⟨_, s, m', fun _ => Nat.succ_pos _, k1, k4.symm.trans h2, fun hr => ?_, fun e he => ?_⟩
  · have := (k2 i).symm.trans (h3 () hr)
    show m'.proc i = .done ()
    generalize m'.proc i = q at this ⊢
    cases q <;> simp only [PProc.ofProc] at this <;> cases this
    rfl
  · have := (k2 i).symm.trans (h4 e he)
    generalize m'.proc i = q at this ⊢
    cases q <;> simp only [PProc.ofProc] at this <;> cases this
    rfl

/-- **C60.** The same with several servers per party. -/
theorem C60_loops_refine_parallel (g : Grid box) (hP : 1 ≤ g.parties ∧ g.parties ≤ 255) (offline online : Bool) (cap : Node × Node → Nat)
    (n : PNet Node Obs Unit) (hn : PNet.Reach cap (g.netLoops offline online) n) (i : Node) :
    ∃ cap' m, PNet.Reach cap' (g.net offline online) m ∧ m.seen = n.seen ∧
      (n.Returned i () → m.Returned i ()) ∧ ∀ e, n.proc i = .fault e → m.proc i = .fault e := by
  have hrel : RNet.Rel (fun x => x.1.1 ≠ x.2.1) (g.netLoops offline online) (RNet.start (g.prog offline online)) :=
    RNet.Rel.start (g.sim_prog hP offline online)
  obtain ⟨cap', m, h1, h2, h3, h4⟩ := hrel.unread (RNet.Clean.start (Grid.direct_prog g offline online)) hn i
  exact ⟨cap', m, h1, h2, h3 (), h4⟩

/-! ### Among arbitrary peers -/

private theorem among {c : Chain box} {i : Nat} {p : Prog Nat Unit} {p' : PProg Nat Unit} {I : List Obs → Obs → Prop} {F : List Obs → Fault → Prop}
    {Q : Unit → List Obs → Prop} (hs : RNet.Sim (fun s => (fun x : Nat × Nat => x.2 = i ∧ True) (s, i)) (fun _ => []) p' (PProc.ofProc p))
    (hsafe : Safe I F p Q []) {n0 n : PNet Nat Obs Unit} {cap : Nat × Nat → Nat} (hp : n0.proc i = p') (h0 : n0.seen i = [])
    (hn : PNet.Reach cap n0 n) : (∀ a o b, n.seen i = a ++ o :: b → I a o) ∧ (n.Returned i () → Q () (n.seen i)) ∧
      ∀ e, n.proc i = .fault e → F (n.seen i) e := by
  obtain ⟨cap', m, h1, h2, h3, h4⟩ := RNet.one_of_many (L := fun _ => True) (p' := PProc.ofProc p) (by rw [hp]; exact hs) (RNet.Direct.ofProc _) hn
  obtain ⟨k1, t, k2, k3⟩ := PProc.Safe.net (I := I) (F := F) (Q := Q) (i := i) (by
    show PProc.Safe _ _ (Function.update n0.proc i _ i) _ (n0.seen i)
    rw [Function.update_self, h0]
    exact PProc.Safe.ofProc hsafe) h1
  have h0' : ({ n0 with proc := Function.update n0.proc i (PProc.ofProc p) } : PNet Nat Obs Unit).seen i = [] := h0
  rw [h0', List.nil_append] at k2
  rw [h2] at k1 k2
  refine ⟨fun a o b hab => ?_, fun hr => ?_, fun e he => ?_⟩
  · have := k3 a o b (k2 ▸ hab)
    rwa [h0', List.nil_append] at this
  · rw [h3 () hr] at k1
    exact k1
  · rw [h4 e he] at k1
    exact k1

/-- **C56, for parties with the receive loops of the code.** -/
theorem C56_party_loops_partial (c : Chain box) (h : c.Configured) (k : Nat) (hk : k + 1 < c.parties) (offline online : Bool)
    (i : Nat) (n0 n : PNet Nat Obs Unit) (cap : Nat × Nat → Nat)
    (hp : n0.proc i = c.partyLoops k offline online) (h0 : n0.seen i = []) (hn : PNet.Reach cap n0 n)
    (e : Fault) (he : n.proc i = .fault e) :
    e = .assertFail ∨ e = .exception ∨ TooMany (c.noise k) (n.seen i) ∨ (offline = true ∧ UnknownTag (n.seen i)) :=
  (among (c := c) (c.sim_partyProg h.parties.2 k (links := fun x => x.2 = i ∧ True) (i := i) ⟨rfl, trivial⟩ ⟨rfl, trivial⟩ offline online) (party_hostile h k hk offline online) hp h0 hn).2.2 e he

/-- **C56, for backends with the receive loops of the code.** -/
theorem C56_backend_loops_partial (c : Chain box) (h : c.Configured) (offline online : Bool)
    (i : Nat) (n0 n : PNet Nat Obs Unit) (cap : Nat × Nat → Nat)
    (hp : n0.proc i = c.backendLoops offline online) (h0 : n0.seen i = []) (hn : PNet.Reach cap n0 n)
    (e : Fault) (he : n.proc i = .fault e) :
    e = .assertFail ∨ e = .exception ∨ (offline = true ∧ UnknownTag (n.seen i)) ∨ OutOfRange c.rows (n.seen i) :=
  (among (c := c) (c.sim_backendProg (links := fun x => x.2 = i ∧ True) (i := i) ⟨rfl, trivial⟩ offline online) (backend_hostile h.parties.1 offline online) hp h0 hn).2.2 e he

/-- **C56, for clients with the receive loops of the code.** -/
theorem C56_client_loops (c : Chain box) (h : c.Configured) (hc : c.count < 2 ^ 32) (offline online : Bool)
    (i : Nat) (n0 n : PNet Nat Obs Unit) (cap : Nat × Nat → Nat)
    (hp : n0.proc i = c.clientLoops offline online) (h0 : n0.seen i = []) (hn : PNet.Reach cap n0 n)
    (e : Fault) (he : n.proc i = .fault e) : e = .assertFail :=
  (among (c := c) (c.sim_clientProg (links := fun x => x.2 = i ∧ True) (i := i) ⟨rfl, trivial⟩ offline online) (client_hostile h hc offline online) hp h0 hn).2.2 e he

/-- **C57, for clients with the receive loops of the code.** -/
theorem C57_client_never_wrong_loops (c : Chain box) (h : c.Configured) (hc : c.count < 2 ^ 32) (offline online : Bool)
    (i : Nat) (n0 n : PNet Nat Obs Unit) (cap : Nat × Nat → Nat)
    (hp : n0.proc i = c.clientLoops offline online) (h0 : n0.seen i = []) (hn : PNet.Reach cap n0 n)
    (d : Database) (hd : Database.new c.rows = .ok d) :
    wants (n.seen i) <+: (List.range c.count).map c.wanted ∧
    (results (n.seen i)).length ≤ (wants (n.seen i)).length ∧
    (results (n.seen i)).dropLast.map Except.ok <+: ((List.range c.count).map c.wanted).map d.lookup ∧
    (n.Returned i () → online = true → wants (n.seen i) = (List.range c.count).map c.wanted ∧
      (results (n.seen i)).map Except.ok = (wants (n.seen i)).map d.lookup) := by
  obtain ⟨h1, h2, -⟩ := among (c := c) (c.sim_clientProg (links := fun x => x.2 = i ∧ True) (i := i) ⟨rfl, trivial⟩ offline online) (client_hostile h hc offline online) hp h0 hn
  have hrow := rows_of_keys hd _ (chain_keys c h.rows.1)
  obtain ⟨k1, k2, k3, k4⟩ := clientI_record h1
  refine ⟨k1, ?_, ?_, fun hf ho => ?_⟩
  · by_cases hr : results (n.seen i) = []
    · rw [hr]; exact Nat.zero_le _
    · rw [k2 hr]; exact k4
  · have := k3.map (Except.ok (ε := Fault))
    rw [← hrow]
    exact this
  · obtain ⟨m1, m2⟩ := h2 hf ho
    exact ⟨m1, by rw [m2, m1]; exact hrow⟩

/-- **C56, for clients with receive loops, with several servers per party.** -/
theorem C56_client_loops_parallel (g : Grid box) (h : g.Configured) (s : Nat) (hc : g.count s < 2 ^ 32) (offline online : Bool)
    (i : Node) (n0 n : PNet Node Obs Unit) (cap : Node × Node → Nat)
    (hp : n0.proc i = g.clientLoops s offline online) (h0 : n0.seen i = []) (hn : PNet.Reach cap n0 n)
    (e : Fault) (he : n.proc i = .fault e) : e = .assertFail := by
  obtain ⟨cap', m, h1, h2, h3, h4⟩ := RNet.one_of_many (L := fun _ => True) (p' := g.client s offline online)
    (by rw [hp]; exact g.sim_clientProg s (links := fun x => x.2 = i ∧ True) (i := i) ⟨rfl, trivial⟩ offline online) (RNet.Direct.ofProc _) hn
  exact C56_client_parallel g h s hc offline online i { n0 with proc := Function.update n0.proc i (g.client s offline online) } m cap' (Function.update_self ..) h0 h1 e (h4 e he)

/-- **C56, for backends with receive loops and several servers.**
Missing: the cases excluded in `C56_backend_parallel_partial`. -/
theorem C56_backend_loops_parallel_partial (g : Grid box) (h : g.Configured) (s : Nat) (hs : s < g.servers) (offline online : Bool)
    (i : Node) (n0 n : PNet Node Obs Unit) (cap : Node × Node → Nat) (heard : Node → List Byte)
    (hp : n0.proc i = g.backendLoops s offline online) (h0 : n0.seen i = []) (hn : PNet.Hears cap i n0 n heard)
    (e : Fault) (he : n.proc i = .fault e) :
    e = .assertFail ∨ e = .exception ∨ OutOfRange g.rows (n.seen i) ∨ offline = true ∧
      (2 ^ 32 ≤ sumOthers g.servers s (fun t => numberAt 0 (heard (g.parties, t))) ∨
        ∃ q ∈ queriesRead (n.seen i), q.tag ∉ (stores (n.seen i)).map OfflineSecret.tag ∧
          ∀ t < g.servers, t ≠ s → q.tag ∉ (secretsAt 0 (heard (g.parties, t))).map OfflineSecret.tag) := by
  have hP := h.parties
  have hX : ∀ t, ¬ (fun x : Node × Node => x.2 = i ∧ x.1.1 ≠ g.parties) ((g.parties, t), i) := fun t h => h.2 rfl
  obtain ⟨cap', m, heard', h1, h5, h2, h3, h4⟩ := RNet.one_of_many_hears (Q := fun j => j.1 ≠ g.parties) (p' := g.backend s offline online)
    (by rw [hp]; exact g.sim_backendProg s (links := fun x => x.2 = i ∧ x.1.1 ≠ g.parties) (i := i) ⟨rfl, by dsimp only; omega⟩ hX offline online)
    ((direct_lift _).bind (fun _ => (direct_lift _).bind (fun _ => (direct_lift _).bind (fun _ => direct_backend _ hX _ _ _ _ _ _ _ _)))) hn
  have := C56_backend_parallel_partial g h s hs offline online i { n0 with proc := Function.update n0.proc i (g.backend s offline online) } m cap' heard' (Function.update_self ..) h0 h1 e (h4 e he)
  rw [h2] at this
  simpa only [h5 (g.parties, _) (fun h => h rfl)] using this

/-- **C56, for parties with receive loops and several servers.**
Missing: the cases excluded in `C56_party_parallel_partial`. -/
theorem C56_party_loops_parallel_partial (g : Grid box) (h : g.Configured) (k s : Nat) (hk : k + 1 < g.parties) (hs : s < g.servers)
    (hrows : g.servers ≤ g.rows) (hrange : (g.servers - 1) * g.share ≤ g.rows) (hdiv : Noise.IsDivRounding (g.partyRand k s).rnd)
    (offline online : Bool)
    (i : Node) (n0 n : PNet Node Obs Unit) (cap : Node × Node → Nat) (heard : Node → List Byte)
    (hp : n0.proc i = g.partyLoops k s offline online) (h0 : n0.seen i = []) (hn : PNet.Hears cap i n0 n heard)
    (e : Fault) (he : n.proc i = .fault e) :
    e = .assertFail ∨ e = .exception ∨
      Misled g.rand (g.sharedSeed k) g.servers s (g.noise k s) (cipherSize (g.parties - k - 1)) offline (fun t => heard (k + 1, t)) (n.seen i) := by
  have hP := h.parties
  have hX : ∀ t, ¬ (fun x : Node × Node => x.2 = i ∧ x.1.1 ≠ k + 1) ((k + 1, t), i) := fun t h => h.2 rfl
  obtain ⟨cap', m, heard', h1, h5, h2, h3, h4⟩ := RNet.one_of_many_hears (Q := fun j => j.1 ≠ k + 1) (p' := g.party k s offline online)
    (by rw [hp]; exact g.sim_partyProg hP.2 k s (links := fun x => x.2 = i ∧ x.1.1 ≠ k + 1) (i := i) ⟨rfl, by dsimp only; omega⟩ ⟨rfl, by dsimp only; omega⟩ hX offline online)
    ((direct_lift _).bind (fun _ => (direct_lift _).bind (fun _ => direct_start _ hX _ _ _ _ _ _))) hn
  have := C56_party_parallel_partial g h k s hk hs hrows hrange hdiv offline online i { n0 with proc := Function.update n0.proc i (g.party k s offline online) } m cap' heard' (Function.update_self ..) h0 h1 e (h4 e he)
  rw [h2] at this
  simpa only [h5 (k + 1, _) (fun h => h rfl)] using this

/-- **C57, for clients with receive loops, with several servers per party.** -/
theorem C57_client_never_wrong_loops_parallel (g : Grid box) (h : g.Configured) (s : Nat) (hc : g.count s < 2 ^ 32) (offline online : Bool)
    (i : Node) (n0 n : PNet Node Obs Unit) (cap : Node × Node → Nat)
    (hp : n0.proc i = g.clientLoops s offline online) (h0 : n0.seen i = []) (hn : PNet.Reach cap n0 n)
    (d : Database) (hd : Database.new g.rows = .ok d) :
    wants (n.seen i) <+: (List.range (g.count s)).map (g.wanted s) ∧
    (results (n.seen i)).length ≤ (wants (n.seen i)).length ∧
    (results (n.seen i)).dropLast.map Except.ok <+: ((List.range (g.count s)).map (g.wanted s)).map d.lookup ∧
    (n.Returned i () → online = true → wants (n.seen i) = (List.range (g.count s)).map (g.wanted s) ∧
      (results (n.seen i)).map Except.ok = (wants (n.seen i)).map d.lookup) := by
  obtain ⟨cap', m, h1, h2, h3, h4⟩ := RNet.one_of_many (L := fun _ => True) (p' := g.client s offline online)
    (by rw [hp]; exact g.sim_clientProg s (links := fun x => x.2 = i ∧ True) (i := i) ⟨rfl, trivial⟩ offline online) (RNet.Direct.ofProc _) hn
  obtain ⟨a1, a2, a3, a4⟩ := C57_client_never_wrong_parallel g h s hc offline online i { n0 with proc := Function.update n0.proc i (g.client s offline online) } m cap' (Function.update_self ..) h0 h1 d hd
  rw [h2] at a1 a2 a3 a4
  exact ⟨a1, a2, a3, fun hr => a4 (h3 () hr)⟩

/-! ### With crashes -/

/-- **C55, for processes with the receive loops of the code.** Whatever processes crash,
the client never gets a wrong row, no process runs into undefined behaviour or a failing
assertion, and the backend looks up rows of the database only. -/
theorem C55_results_loops (c : Chain box) (h : c.Valid) (offline : Bool) (cap : Nat × Nat → Nat) (hcap : ∀ x, 0 < cap x)
    (n : PNet Nat Obs Unit) (hn : PNet.CrashReach cap (c.netLoops offline true) n) (d : Database) (hd : Database.new c.rows = .ok d) :
    wants (n.seen 0) <+: (List.range c.count).map c.wanted ∧
    (results (n.seen 0)).map Except.ok <+: ((List.range c.count).map c.wanted).map d.lookup ∧
    (n.Returned 0 () → wants (n.seen 0) = (List.range c.count).map c.wanted ∧
      (results (n.seen 0)).map Except.ok = (wants (n.seen 0)).map d.lookup) ∧
    (∀ i e, n.proc i = .fault e → e = .exception) ∧ ∀ key ∈ lookups (n.seen c.parties), key < c.rows := by
  obtain ⟨m, hm, hl⟩ := hn.like
  obtain ⟨a1, -, a3⟩ := (C60_receive_loops c h offline cap (fun _ _ => ⟨hcap _, hcap _⟩)).1 m hm
  obtain ⟨b1, b2, b3⟩ := a3 d hd
  rw [hl.seen]
  refine ⟨b1, b2, fun hr => b3 ?_, fun i e he => (hl.fault i e he).resolve_right (fun hf => a1 i ⟨e, hf⟩), ?_⟩
  · have hnf : ¬ n.Faulted 0 := by
      rintro ⟨e, he⟩
      rw [show n.proc 0 = .done () from hr] at he
      cases he
    exact (hl.proc 0 hnf).symm.trans hr
  · obtain ⟨cap', s, m', k1, k2, k3, -⟩ := C60_loops_refine c h.parties.2 offline true cap m hm c.parties
    rw [← k3]
    exact C40_lookups_in_range c h offline cap' k1 s m' k2

/-- **C55, for processes with the receive loops of the code,** with several servers per
party. -/
theorem C55_results_loops_parallel (g : Grid box) (h : g.Valid) (offline : Bool) (ht : offline = true → g.DistinctTags)
    (cap : Node × Node → Nat) (n : PNet Node Obs Unit) (hn : PNet.CrashReach cap (g.netLoops offline true) n)
    (d : Database) (hd : Database.new g.rows = .ok d) :
    (∀ s < g.servers, wants (n.seen (0, s)) <+: (List.range (g.count s)).map (g.wanted s) ∧
      (results (n.seen (0, s))).map Except.ok <+: ((List.range (g.count s)).map (g.wanted s)).map d.lookup ∧
      (n.Returned (0, s) () → wants (n.seen (0, s)) = (List.range (g.count s)).map (g.wanted s) ∧
        (results (n.seen (0, s))).map Except.ok = (wants (n.seen (0, s))).map d.lookup)) ∧
    (∀ i e, n.proc i = .fault e → e = .exception) ∧ ∀ s < g.servers, ∀ key ∈ lookups (n.seen (g.parties, s)), key < g.rows := by
  obtain ⟨m, hm, hl⟩ := hn.like
  obtain ⟨a1, -, a3⟩ := (C60_receive_loops_parallel g h offline ht cap).1 m hm
  rw [hl.seen]
  refine ⟨fun s hs => ?_, fun i e he => (hl.fault i e he).resolve_right (fun hf => a1 i ⟨e, hf⟩), fun s hs => ?_⟩
  · obtain ⟨b1, b2, b3⟩ := a3 s hs d hd
    refine ⟨b1, b2, fun hr => b3 ?_⟩
    have hnf : ¬ n.Faulted (0, s) := by
      rintro ⟨e, he⟩
      rw [show n.proc (0, s) = .done () from hr] at he
      cases he
    exact (hl.proc (0, s) hnf).symm.trans hr
  · obtain ⟨cap', m', k2, k3, -⟩ := C60_loops_refine_parallel g ⟨by have := h.parties; omega, h.parties.2⟩ offline true cap m hm (g.parties, s)
    rw [← k3]
    exact C53_lookups_in_range g h offline ht cap' m' k2 s hs

/-! ### Examples -/

/-- The example of three parties can end, with queues of one byte; all have returned, and
the client has got rows 3 and 2. -/
example : ∃ n, PNet.Reach (fun _ => 1) (exampleChain.netLoops true true) n ∧ (∀ i, n.Returned i ()) ∧
    wants (n.seen 0) = [3, 2] ∧ (results (n.seen 0)).map Except.ok = [(Except.ok (Database.row 3) : Res Response), .ok (Database.row 2)] := by
  obtain ⟨h1, h2⟩ := C60_receive_loops exampleChain exampleChain_valid true (fun _ => 1) (fun _ _ => ⟨Nat.one_pos, Nat.one_pos⟩)
  by_contra hno
  have step : ∀ n : {n // PNet.Reach (fun _ => 1) (exampleChain.netLoops true true) n},
      ∃ m : {n // PNet.Reach (fun _ => 1) (exampleChain.netLoops true true) n}, ∃ i, PNet.Step (fun _ => 1) i n.1 m.1 := by
    rintro ⟨n, hn⟩
    obtain ⟨-, h | h, h3⟩ := h1 n hn
    · obtain ⟨i, m, h⟩ := h
      exact ⟨⟨m, hn.step h⟩, i, h⟩
    · refine absurd ⟨n, hn, h.1, ?_⟩ hno
      obtain ⟨-, -, h4⟩ := h3 _ (database_new _)
      obtain ⟨e1, e2⟩ := h4 (h.1 0)
      have e : (List.range exampleChain.count).map exampleChain.wanted = [3, 2] := by decide
      rw [e] at e1
      refine ⟨e1, ?_⟩
      rw [e2, e1]
      exact (rows_of_keys (rows := exampleChain.rows) (database_new _) [3, 2] (by decide)).symm
  choose g hg using step
  exact h2 ⟨fun k => (Nat.rec ⟨_, .refl⟩ (fun _ n => g n) k : {n // PNet.Reach (fun _ => 1) (exampleChain.netLoops true true) n}).1,
    rfl, fun k => hg _⟩

/-- A receive loop for two messages of two bytes that gets three bytes by its first
`read` and one by its second. -/
example : ∃ n : PNet Bool Obs (List (List Byte)), PNet.Reach (fun _ => 9)
    { proc := fun i => if i then .done [] else receiveAll true 2 2 0 (fun _ m l => .done (l ++ [m])) []
      chan := fun x => if x = (true, false) then [1, 2, 3, 4] else []
      seen := fun _ => [] } n ∧ n.Returned false [[1, 2], [3, 4]] := by
  have h1 := PNet.Step.read (cap := fun _ => 9) (i := false) (s := true) (m := 4) (c := [1, 2, 3]) (rest := [4])
    (n := { proc := fun i => if i then .done [] else receiveAll true 2 2 0 (fun _ m l => .done (l ++ [m])) []
            chan := fun x => if x = (true, false) then [1, 2, 3, 4] else [], seen := fun _ => [] }) (by exact rfl) (by simp) (by decide) rfl
  refine ⟨_, (PNet.Reach.refl.step h1).step (i := false) (PNet.Step.read (s := true) (m := 1) (k := ?k) (c := [4]) (rest := []) ?h (by simp) (by decide) rfl), ?_⟩
  case h => rfl
  rfl

end DPPIR.Props
