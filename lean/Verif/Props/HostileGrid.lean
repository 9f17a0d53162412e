import Verif.Proofs.PSafety
import Verif.Proofs.HostileBackends
import Verif.Proofs.HostileClient
import Verif.Proofs.HostileStart
import Verif.Props.Grid

/-!
# Clients, parties and backends among arbitrary peers, with several servers per party
-/

namespace DPPIR.Props
open DPPIR Proc Onion Spec Protocol

variable {box : SealedBox}

theorem Grid.Configured.good {g : Grid box} (h : g.Configured) : GoodKeys box g.pkeys ((List.range g.parties).map g.skey) := by
  have e := h.keys
  refine ⟨by rw [e]; simp, ?_⟩
  generalize g.pkeys = pk at e
  subst e
  intro k h1 h2
  simp only [List.getElem_map, List.getElem_range]
  exact h.pairs k (by simpa using h1)

theorem grid_client_hostile {g : Grid box} (h : g.Configured) {s : Nat} (h32 : g.count s < 2 ^ 32) (offline online : Bool) :
    PProc.Safe (ClientI ((List.range (g.count s)).map (g.wanted s))) OnlyAsserts (g.client s offline online)
      (fun _ h' => online = true → wants h' = (List.range (g.count s)).map (g.wanted s) ∧
        results h' = ((List.range (g.count s)).map (g.wanted s)).map Database.row) [] := by
  have hP := h.parties
  have hR := h.rows
  have hp : Spec.p = 2 ^ 31 - 1 := by decide
  have hlen : g.pkeys.length = g.parties := by rw [h.keys]; simp
  unfold Grid.client
  refine PProc.Safe.ofProc (safe_ok (database_new _) ?_)
  let cl : Client box := { serverId := s, partyCount := g.parties, db := { size := g.rows, rows := (List.range g.rows).map Database.row }, pkeys := g.pkeys }
  refine safe_ok (a := cl) (by simp [Client.new, assert, hP.1]; rfl) ?_
  exact client_start_hostile (Grid.Configured.good h) (by omega) (by omega) cl rfl hlen.symm (g.clientRand s) (1, s) (g.count s) g.rows h32 rfl
    (by omega) (by omega) _ rfl offline online

/-- **C56, for clients of deployments with several servers per party.** A client stops
by a failed assertion only. -/
theorem C56_client_parallel (g : Grid box) (h : g.Configured) (s : Nat) (hc : g.count s < 2 ^ 32) (offline online : Bool)
    (i : Node) (n0 n : PNet Node Obs Unit) (cap : Node × Node → Nat)
    (hp : n0.proc i = g.client s offline online) (h0 : n0.seen i = []) (hn : PNet.Reach cap n0 n)
    (e : Fault) (he : n.proc i = .fault e) : e = .assertFail := by
  obtain ⟨h1, -⟩ := PProc.Safe.net (by rw [h0, hp]; exact grid_client_hostile h hc offline online) hn
  rw [he] at h1
  exact h1

theorem grid_backend_heeds {g : Grid box} (h : g.Configured) {s : Nat} (hs : s < g.servers) (offline online : Bool) :
    PProc.Heeds (BackendF g.rows offline (fun t => (g.parties, t)) g.servers s) (g.backend s offline online) (fun _ _ _ => True) (fun _ => []) [] := by
  have hP := h.parties
  have hS := h.servers
  unfold Grid.backend
  refine PProc.Heeds.lift_ok (database_new _) ?_
  refine PProc.Heeds.lift_ok (a := List.replicate g.servers 0) ?_ ?_
  · unfold serverTable
    rw [if_neg]
    unfold wrap8
    omega
  let b : Backend box := { db := { size := g.rows, rows := (List.range g.rows).map Database.row }, pkey := g.pkey (g.parties - 1), skey := g.skey (g.parties - 1) }
  refine PProc.Heeds.lift_ok (a := b) (by simp [Backend.new, assert, hP.1]; rfl) ?_
  refine backend_parallel_heeds (lvl_group g.servers g.parties) (by omega) s hs b _ _ ?_ _ g.rows offline online rfl rfl
  intro t e
  have := congrArg Prod.fst e
  simp only [sibs] at this
  omega

/-- **C56, for backends with several servers.** The backend stops by a failed assertion
or an exception, unless it looked up a key outside of the database or, with the offline
stage, its siblings announced 2^32 or more secrets together or it read a query with a
tag neither it nor a sibling has a secret for.
Missing: the excluded cases; see `C56_violated_backend`. -/
theorem C56_backend_parallel_partial (g : Grid box) (h : g.Configured) (s : Nat) (hs : s < g.servers) (offline online : Bool)
    (i : Node) (n0 n : PNet Node Obs Unit) (cap : Node × Node → Nat) (heard : Node → List Byte)
    (hp : n0.proc i = g.backend s offline online) (h0 : n0.seen i = []) (hn : PNet.Hears cap i n0 n heard)
    (e : Fault) (he : n.proc i = .fault e) :
    e = .assertFail ∨ e = .exception ∨ OutOfRange g.rows (n.seen i) ∨ offline = true ∧
      (2 ^ 32 ≤ sumOthers g.servers s (fun t => numberAt 0 (heard (g.parties, t))) ∨
        ∃ q ∈ queriesRead (n.seen i), q.tag ∉ (stores (n.seen i)).map OfflineSecret.tag ∧
          ∀ t < g.servers, t ≠ s → q.tag ∉ (secretsAt 0 (heard (g.parties, t))).map OfflineSecret.tag) := by
  have h1 := PProc.Heeds.net (by rw [h0, hp]; exact grid_backend_heeds h hs offline online) hn
  rw [he] at h1
  exact h1

theorem grid_party_heeds {g : Grid box} (h : g.Configured) {k s : Nat} (hk : k + 1 < g.parties) (hs : s < g.servers)
    (hrows : g.servers ≤ g.rows) (hrange : (g.servers - 1) * g.share ≤ g.rows) (hdiv : Noise.IsDivRounding (g.partyRand k s).rnd)
    (offline online : Bool) :
    PProc.Heeds (PartyF (g.slot k s) offline (fun t => (k + 1, t))) (g.party k s offline online) (fun _ _ _ => True) (fun _ => []) [] := by
  have hP := h.parties
  have hS := h.servers
  have hR := h.rows
  have hp : Spec.p = 2 ^ 31 - 1 := by decide
  have hlen : g.pkeys.length = g.parties := by rw [h.keys]; simp
  have hfind := findRange_at (rnd := (g.choices k s).rnd) hdiv g.servers g.rows s hs (by omega) (by omega) hrows hrange
  have hb : (g.slot k s).Base := by
    refine ⟨hS.1, ?_, hs, ?_, ?_, ?_, Grid.Configured.good h, hfind.2, ?_, hfind.1⟩
    · show g.servers < 255
      omega
    · show k + (g.parties - k - 1) + 1 = g.pkeys.length
      omega
    · show 0 < g.parties - k - 1
      omega
    · show g.pkeys.length ≤ 255
      omega
    · show g.rows ≤ Spec.p
      omega
  have hm1 : g.parties - k = g.parties - k - 1 + 1 := by omega
  let db : Database := { size := g.rows, rows := (List.range g.rows).map Database.row }
  let ciphers := CipherBatch.new (cipherSize (g.parties - k - 1)) (cipherSize (g.parties - k))
  let p : ParallelParty box := { partyId := k, serverId := s, partyCount := g.parties, serverCount := g.servers, db := db, shuffler := Shuffle.LocalShuffler.new (g.localSeed k s), pshuffler := Shuffle.ParallelShuffler.new s g.servers (g.sharedSeed k), ciphers := ciphers, outCiphers := ciphers, atSiblingCounts := List.replicate g.servers 0, noiseFrom := List.replicate g.servers 0, noisePrefix := List.replicate g.servers 0, pkeys := g.pkeys, pkey := g.pkey k, skey := g.skey k }
  have hnew : ParallelParty.new k s g.parties g.servers (g.sharedSeed k) (g.localSeed k s) g.pkeys (g.pkey k) (g.skey k) db = .ok p := by
    have h1 : k < g.parties - 1 := by omega
    have h2 : 1 < g.servers := by omega
    have h3 : serverTable g.servers = .ok (List.replicate g.servers 0) := by
      unfold serverTable wrap8
      rw [if_neg (by omega)]
    unfold ParallelParty.new
    rw [h3]
    simp [assert, hP.1, h1, h2, hs]
    rfl
  have hfr : (g.slot k s).Fresh p := by
    refine ⟨rfl, rfl, rfl, rfl, rfl, rfl, rfl, hlen.symm, rfl, rfl, ?_, ?_, rfl, rfl, ?_, rfl⟩
    · show g.pkeys[k]? = some (g.pkey k)
      rw [h.keys, List.getElem?_map, List.getElem?_range (by omega)]
      rfl
    · show ((List.range g.parties).map g.skey)[k]? = some (g.skey k)
      rw [List.getElem?_map, List.getElem?_range (by omega)]
      rfl
    · show cipherSize (g.parties - k) = cipherSize (g.parties - k - 1 + 1)
      rw [← hm1]
  unfold Grid.party
  refine PProc.Heeds.lift_ok (database_new _) ?_
  refine PProc.Heeds.lift_ok hnew ?_
  refine party_parallel_heeds (b := g.slot k s) (lvl_group g.servers (k + 1)) hb hfr (k, s) (k + 2, s) ?_ ?_ offline online
  · intro t e
    have := congrArg Prod.fst e
    simp only [sibs] at this
    omega
  · intro t e
    have := congrArg Prod.fst e
    simp only [sibs] at this
    omega

/-- **C56, for parties with several servers.** Each server of such a party stops by a
failed assertion or an exception, unless its siblings or neighbours mislead it: the
messages they announce do not fit the 32-bit counters, or a sibling announces more noise
for this server than messages, or, with the offline stage, the siblings announce 2^32 or
more secrets together or it reads a query with a tag neither it nor a sibling has a
secret for.
Missing: the excluded cases; see `C56_violated_party`. -/
theorem C56_party_parallel_partial (g : Grid box) (h : g.Configured) (k s : Nat) (hk : k + 1 < g.parties) (hs : s < g.servers)
    (hrows : g.servers ≤ g.rows) (hrange : (g.servers - 1) * g.share ≤ g.rows) (hdiv : Noise.IsDivRounding (g.partyRand k s).rnd)
    (offline online : Bool)
    (i : Node) (n0 n : PNet Node Obs Unit) (cap : Node × Node → Nat) (heard : Node → List Byte)
    (hp : n0.proc i = g.party k s offline online) (h0 : n0.seen i = []) (hn : PNet.Hears cap i n0 n heard)
    (e : Fault) (he : n.proc i = .fault e) :
    e = .assertFail ∨ e = .exception ∨
      Misled g.rand (g.sharedSeed k) g.servers s (g.noise k s) (cipherSize (g.parties - k - 1)) offline (fun t => heard (k + 1, t)) (n.seen i) := by
  have h1 := PProc.Heeds.net (by rw [h0, hp]; exact grid_party_heeds h hk hs hrows hrange hdiv offline online) hn
  rw [he] at h1
  exact h1

/-- **C57, for deployments with several servers per party.** Whatever the servers send,
each client asks for its own keys, in order; of the results it reports only the last can
be wrong; and if it returns, none is. -/
theorem C57_client_never_wrong_parallel (g : Grid box) (h : g.Configured) (s : Nat) (hc : g.count s < 2 ^ 32) (offline online : Bool)
    (i : Node) (n0 n : PNet Node Obs Unit) (cap : Node × Node → Nat)
    (hp : n0.proc i = g.client s offline online) (h0 : n0.seen i = []) (hn : PNet.Reach cap n0 n)
    (d : Database) (hd : Database.new g.rows = .ok d) :
    wants (n.seen i) <+: (List.range (g.count s)).map (g.wanted s) ∧
    (results (n.seen i)).length ≤ (wants (n.seen i)).length ∧
    (results (n.seen i)).dropLast.map Except.ok <+: ((List.range (g.count s)).map (g.wanted s)).map d.lookup ∧
    (n.Returned i () → online = true → wants (n.seen i) = (List.range (g.count s)).map (g.wanted s) ∧
      (results (n.seen i)).map Except.ok = (wants (n.seen i)).map d.lookup) := by
  obtain ⟨h1, t, h2, h3⟩ := PProc.Safe.net (by rw [h0, hp]; exact grid_client_hostile h hc offline online) hn
  rw [h0, List.nil_append] at h2
  rw [h2] at h1 ⊢
  rw [database_new] at hd
  obtain rfl := Except.ok.inj hd
  have hrow : (((List.range (g.count s)).map (g.wanted s)).map Database.row).map Except.ok =
      ((List.range (g.count s)).map (g.wanted s)).map ({ size := g.rows, rows := (List.range g.rows).map Database.row } : Database).lookup := by
    rw [List.map_map]
    refine List.map_congr_left (fun k hk => ?_)
    obtain ⟨j, -, rfl⟩ := List.mem_map.1 hk
    have hlt : g.wanted s j < g.rows := by
      have := h.rows
      unfold Grid.wanted
      split
      · omega
      · exact Nat.mod_lt _ (by omega)
    unfold Database.lookup
    symm
    refine rd_eq_ok.2 ?_
    simp [hlt]
  obtain ⟨k1, k2, k3, k4⟩ := clientI_record (t := t) (fun a o b hab => by simpa [h0] using h3 a o b hab)
  refine ⟨k1, ?_, ?_, ?_⟩
  · by_cases hr : results t = []
    · rw [hr]; exact Nat.zero_le _
    · rw [k2 hr]; exact k4
  · have := k3.map (Except.ok (ε := Fault))
    rw [hrow] at this
    exact this
  · intro hf ho
    rw [show n.proc i = .done () from hf] at h1
    obtain ⟨m1, m2⟩ := h1 ho
    refine ⟨m1, ?_⟩
    rw [m2, m1]
    exact hrow

/-- Non-vacuity: the deployment of the examples is configured. -/
example : exampleGrid.Configured ∧ (∀ s, exampleGrid.count s < 2 ^ 32) ∧ exampleGrid.servers ≤ exampleGrid.rows ∧
    (exampleGrid.servers - 1) * exampleGrid.share ≤ exampleGrid.rows ∧ ∀ k s, Noise.IsDivRounding (exampleGrid.partyRand k s).rnd := by
  have h := exampleGrid_valid
  exact ⟨⟨h.parties, h.servers, ⟨by decide, h.rows.2⟩, h.keys, h.pairs⟩, fun s => by show 2 < 2 ^ 32; decide, h.rows.1, h.ranges, h.division⟩

end DPPIR.Props
