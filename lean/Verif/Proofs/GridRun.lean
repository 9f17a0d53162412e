import Verif.Proofs.GridWaves
import Verif.Proofs.Siblings

/-!
# What every process of a deployment with several servers per party does
-/

namespace DPPIR.Protocol
open DPPIR Proc PNet Onion Incremental Additive Spec Props Shuffle

variable {box : SealedBox}

theorem segComm_rseg {ι : Type} (idx : ι → Option Nat) (sib : Nat → ι) (o s) (L : List (Seg ι Obs)) :
    segComm (rseg idx sib o s :: L) = rseg idx sib o s :: segComm L := rfl
theorem segObs_rseg {ι : Type} (idx : ι → Option Nat) (sib : Nat → ι) (o s) (L : List (Seg ι Obs)) :
    segObs (rseg idx sib o s :: L) = segObs L := rfl

section
variable (S P i s : Nat) (f : Nat → Nat → List Byte) (B : Nat → List (Nat → List (Nat × Byte)))

theorem downSeg_first (hP : 0 < P) : downSeg S P 0 s f B = sends (1, s) (f 0 s) := by simp [downSeg, hP]
theorem downSeg_mid (hi : 1 ≤ i) (hP : i < P) :
    downSeg S P i s f B = recvs (i - 1, s) (f (i - 1) s) ++ (rsegs S i s (B i) ++ sends (i + 1, s) (f i s)) := by
  simp [downSeg, hi, hP, hP.le]
theorem downSeg_last (hP : 0 < P) : downSeg S P P s f B = recvs (P - 1, s) (f (P - 1) s) ++ rsegs S P s (B P) := by
  have : 1 ≤ P := hP
  simp [downSeg, this]
theorem downSeg_none (hP : P < i) : downSeg S P i s f B = [] := by
  rw [downSeg, if_neg (by omega), if_neg (by omega)]
  rfl
theorem upSeg_first (hP : 0 < P) : upSeg S P 0 s f B = recvs (1, s) (f 0 s) ++ rsegs S 0 s (B 0) := by simp [upSeg, hP]
theorem upSeg_mid (hi : 1 ≤ i) (hP : i < P) :
    upSeg S P i s f B = recvs (i + 1, s) (f i s) ++ (rsegs S i s (B i) ++ sends (i - 1, s) (f (i - 1) s)) := by
  simp [upSeg, hi, hP, hP.le]
theorem upSeg_last (hP : 0 < P) : upSeg S P P s f B = sends (P - 1, s) (f (P - 1) s) := by
  have : 1 ≤ P := hP
  simp [upSeg, this]
theorem upSeg_none (hP : P < i) : upSeg S P i s f B = [] := by
  rw [upSeg, if_neg (by omega), if_neg (by omega)]
  rfl
theorem inSeg_in (hP : i ≤ P) : inSeg S P i s B = rsegs S i s (B i) := by simp [inSeg, hP]
theorem inSeg_none (hP : P < i) : inSeg S P i s B = [] := by
  rw [inSeg, if_neg (by omega)]

end

namespace Grid

/-! ### Bytes and rounds of the waves -/

def countB (g : Grid box) (k s : Nat) : List Byte := natLE 4 (BitVec.ofNat 32 (g.load k s)).toNat
def readyB (_ _ : Nat) : List Byte := [1]
def cipherB (g : Grid box) (k s : Nat) : List Byte := (g.tickets k s).flatMap (fun t => t.cipher g.pkeys k)
def queryB (g : Grid box) (offline : Bool) (k s : Nat) : List Byte := (g.qs offline k s).flatMap (fun q => q.query.encode)
def respB (g : Grid box) (offline : Bool) (k s : Nat) : List Byte := (g.qs offline k s).flatMap (fun q => q.resp.encode)

/-- Rounds of the parties only, by party. -/
def atParty (g : Grid box) (os : Nat → List (Nat → List (Nat × Byte))) (l : Nat) : List (Nat → List (Nat × Byte)) :=
  if 1 ≤ l ∧ l < g.parties then os (l - 1) else []

/-- A barrier. -/
def wait (g : Grid box) : Nat → List (Nat × Byte) := castOut g.servers readyMsg
/-- Exchange of noise counts. -/
def noiseR (g : Grid box) (k : Nat) : Nat → List (Nat × Byte) := noiseRound g.servers (g.dests k) (g.noise k)
/-- Shuffle of ciphers. -/
def cipherR (g : Grid box) (k : Nat) : Nat → List (Nat × Byte) :=
  cipherRound (cipherSize (g.parties - k - 1)) g.servers (g.dests k) ((g.slot k 0).batch (g.tickets k) (g.noiseTs k))
/-- Shuffle of queries. -/
def queryR (g : Grid box) (offline : Bool) (k : Nat) : Nat → List (Nat × Byte) :=
  queryRound g.servers (g.dests k) (fun s => (rawQ (g.noiseQs offline k) (g.qs offline k) s).map QTicket.query)
/-- Return of responses. -/
def backR (g : Grid box) (offline : Bool) (k : Nat) : Nat → List (Nat × Byte) :=
  backRound g.servers (g.dests k) (fun s => (g.noiseQs offline k s).length)
    (fun s => ((g.qs offline k s).map QTicket.next).map QTicket.resp)

def countRs (g : Grid box) : Nat → List (Nat → List (Nat × Byte)) :=
  g.atParty (fun k => [countsRound g.servers (g.slot k 0).own])
def simRs (g : Grid box) (offline : Bool) : Nat → List (Nat → List (Nat × Byte)) :=
  g.atParty (fun k => if offline then [] else [g.noiseR k])
def waitRs (g : Grid box) : Nat → List (Nat → List (Nat × Byte)) := g.atParty (fun _ => [g.wait])
def cipherRs (g : Grid box) : Nat → List (Nat → List (Nat × Byte)) :=
  g.atParty (fun k => [g.wait, g.noiseR k, g.cipherR k, g.wait])
def castRs (g : Grid box) (l : Nat) : List (Nat → List (Nat × Byte)) :=
  if l = g.parties then [bcastCounts g.servers g.itemsB, bcastRound g.servers g.itemsB, g.wait]
  else g.atParty (fun k => [bcastCounts g.servers (g.items k), bcastRound g.servers (g.items k), g.noiseR k]) l
def queryRs (g : Grid box) (offline : Bool) : Nat → List (Nat → List (Nat × Byte)) :=
  g.atParty (fun k => [g.wait, g.queryR offline k, g.wait])
def backRs (g : Grid box) (offline : Bool) : Nat → List (Nat → List (Nat × Byte)) :=
  g.atParty (fun k => [g.backR offline k, g.wait, g.wait])

theorem atParty_mid (g : Grid box) (os) {k : Nat} (hk : k + 1 < g.parties) : g.atParty os (k + 1) = os k := by
  unfold atParty
  rw [if_pos ⟨by omega, hk⟩]
  rfl
theorem atParty_zero (g : Grid box) (os) : g.atParty os 0 = [] := if_neg (by omega)
theorem atParty_last (g : Grid box) (os) : g.atParty os g.parties = [] := if_neg (by omega)

theorem castRs_mid (g : Grid box) {k : Nat} (hk : k + 1 < g.parties) :
    g.castRs (k + 1) = [bcastCounts g.servers (g.items k), bcastRound g.servers (g.items k), g.noiseR k] := by
  unfold castRs
  rw [if_neg (by omega), atParty_mid g _ hk]
theorem castRs_zero {g : Grid box} (h : g.Valid) : g.castRs 0 = [] := by
  unfold castRs
  have := h.parties
  rw [if_neg (by omega), atParty_zero]

/-- Communication of server `s` of level `i` in the offline stage. -/
def commOff (g : Grid box) (offline : Bool) (i s : Nat) : List (Seg Node Obs) :=
  downSeg g.servers g.parties i s g.countB g.countRs ++ (inSeg g.servers g.parties i s (g.simRs offline) ++
    (upSeg g.servers g.parties i s readyB g.waitRs ++
    if offline then downSeg g.servers g.parties i s g.cipherB g.cipherRs ++ (inSeg g.servers g.parties i s g.castRs ++
      upSeg g.servers g.parties i s readyB g.waitRs) else []))

/-- Communication of server `s` of level `i` in the online stage. -/
def commOn (g : Grid box) (offline online : Bool) (i s : Nat) : List (Seg Node Obs) :=
  if online then downSeg g.servers g.parties i s (g.queryB offline) (g.queryRs offline) ++
    upSeg g.servers g.parties i s (g.respB offline) (g.backRs offline) else []

/-- Calls of server `s` of level `i` in the offline stage. -/
def obsOff (g : Grid box) (offline : Bool) (i s : Nat) : List Obs :=
  if i = 0 then [.sendCount (BitVec.ofNat 32 (g.load 0 s)), .recvReady] ++
    if offline then (g.tickets 0 s).map (fun t => .sendCipher (t.cipher g.pkeys 0)) ++ [.recvReady] else []
  else if i < g.parties then
    [.recvCount (BitVec.ofNat 32 (g.load (i - 1) s)), .sendCount (BitVec.ofNat 32 (g.load i s)), .recvReady, .sendReady] ++
    if offline then (g.tickets (i - 1) s).map (fun t => .recvCipher (t.cipher g.pkeys (i - 1))) ++
      ((g.tickets (i - 1) s).map (fun t => .store t.head) ++
      ((g.tickets i s).map (fun t => .sendCipher (t.cipher g.pkeys i)) ++ [.recvReady, .sendReady])) else []
  else if i = g.parties then
    [.recvCount (BitVec.ofNat 32 (g.load (i - 1) s)), .sendReady] ++
    if offline then (g.tickets (i - 1) s).flatMap (fun t => [.recvCipher (t.cipher g.pkeys (i - 1)), .store t.head]) ++ [.sendReady]
      else []
  else []

/-- Calls of server `s` of level `i` in the online stage. -/
def obsOn (g : Grid box) (offline : Bool) (i s : Nat) : List Obs :=
  if i = 0 then (g.qs offline 0 s).flatMap (fun q => [.want q.key, .sendQuery q.query]) ++
    (g.qs offline 0 s).flatMap (fun q => [.recvResponse q.resp, .result (Database.row q.key)])
  else if i < g.parties then
    (g.qs offline (i - 1) s).map (fun q => .recvQuery q.query) ++ ((g.qs offline i s).map (fun q => .sendQuery q.query) ++
      ((g.qs offline i s).map (fun q => .recvResponse q.resp) ++ (g.qs offline (i - 1) s).map (fun q => .sendResponse q.resp)))
  else if i = g.parties then
    (g.qs offline (i - 1) s).map (fun q => .recvQuery q.query) ++
      (g.qs offline (i - 1) s).flatMap (fun q => [.lookup q.key, .sendResponse q.resp])
  else []

/-! ### The single processes -/

/-- How the offline stage of server `s` of level `i` ends: it waits for the level below
(unless it is the last one), for its siblings, and lets the level above go on. -/
def endSegs (g : Grid box) (i s : Nat) : List (Seg Node Obs) :=
  (if i < g.parties then (aRecvReady (i + 1, s)).map Seg.act else []) ++
    (rseg (lvl g.servers i) (sibs i) g.wait s :: (aSendReady (i - 1, s)).map Seg.act)

/-- The online part of a process, piece by piece: what it reads, the exchanges with its
siblings, what it sends. -/
structure Cuts (g : Grid box) (offline : Bool) (i s : Nat) (post : List (Seg Node Obs)) : Prop where
  client : i = 0 → ∃ sq, post = (sq ++ (List.range (g.count s)).flatMap (fun j => aRecvResponse (1, s) (g.clientQs offline s j).resp ++
      [.obs (.result (Database.row (g.clientQs offline s j).key))])).map Seg.act ∧
    Sends (1, s) sq (g.queryB offline 0 s) ((g.qs offline 0 s).flatMap (fun q => [.want q.key, .sendQuery q.query]))
  party : 0 < i → i < g.parties → ∃ sq sr,
    post = ((g.qs offline (i - 1) s).flatMap (fun q => aRecvQuery (i - 1, s) q.query)).map Seg.act ++
      (rseg (lvl g.servers i) (sibs i) g.wait s :: ([rseg (lvl g.servers i) (sibs i) (g.queryR offline (i - 1)) s,
        rseg (lvl g.servers i) (sibs i) g.wait s] ++ (sq.map Seg.act ++
      (((g.qs offline i s).flatMap (fun q => aRecvResponse (i + 1, s) q.resp)).map Seg.act ++
      ([rseg (lvl g.servers i) (sibs i) (g.backR offline (i - 1)) s, rseg (lvl g.servers i) (sibs i) g.wait s] ++
      (rseg (lvl g.servers i) (sibs i) g.wait s :: sr.map Seg.act)))))) ∧
    Sends (i + 1, s) sq (g.queryB offline i s) ((g.qs offline i s).map (fun q => .sendQuery q.query)) ∧
    Sends (i - 1, s) sr (g.respB offline (i - 1) s) ((g.qs offline (i - 1) s).map (fun q => .sendResponse q.resp))
  backend : i = g.parties → ∃ sr, post = ((g.qs offline (i - 1) s).flatMap (fun q => aRecvQuery (i - 1, s) q.query) ++ sr).map Seg.act ∧
    Sends (i - 1, s) sr (g.respB offline (i - 1) s) ((g.qs offline (i - 1) s).flatMap (fun q => [.lookup q.key, .sendResponse q.resp]))

/-- A process performs the offline part, then the online part. -/
structure Does (g : Grid box) (offline online : Bool) (i s : Nat) (pre post : List (Seg Node Obs)) : Prop where
  runs : PProc.Does (fun _ => True) (g.prog offline online (i, s)) (pre ++ post)
  commPre : segComm pre = g.commOff offline i s
  commPost : segComm post = g.commOn offline online i s
  obsPre : segObs pre = g.obsOff offline i s
  obsPost : segObs post = if online then g.obsOn offline i s else []
  tail : offline = true → 0 < i → i ≤ g.parties → g.endSegs i s <:+ pre
  cuts : online = true → g.Cuts offline i s post

theorem Valid.load_lt {g : Grid box} (h : g.Valid) {k s : Nat} (hk : k < g.parties) (hs : s < g.servers) : g.load k s < 2 ^ 32 := by
  have h1 := load_sum g h.pos k
  have h2 := preSum_mono (g.load k) (show s + 1 ≤ g.servers by omega)
  rw [preSum_succ] at h2
  have := h.lt hk
  omega

theorem client_does {g : Grid box} (h : g.Valid) (offline online : Bool) (s : Nat) (hs : s < g.servers) :
    ∃ pre post, g.Does offline online 0 s pre post := by
  have hP := h.parties
  have hlen := h.keysLength
  have h32 : g.count s < 2 ^ 32 := h.load_lt (k := 0) (by omega) hs
  have hpos : 0 < g.pkeys.length := by omega
  have e : g.prog offline online (0, s) = g.client s offline online := by
    unfold prog
    rw [if_pos hs, if_pos rfl]
  let db : Database := { size := g.rows, rows := (List.range g.rows).map Database.row }
  let cl : Client box := { serverId := s, partyCount := g.parties, db := db, pkeys := g.pkeys }
  have hnew : Client.new s g.parties g.pkeys db = .ok cl := by
    simp [Client.new, assert, hP.1]
    rfl
  have e1 := downSeg_first g.servers g.parties s
  have e2 := upSeg_first g.servers g.parties s
  have hoff : ∃ cl' pre, Runs (if offline then cl.startOffline (g.clientRand s) (1, s) (g.count s) else
        cl.simulateOffline (1, s) (g.count s)) pre cl' ∧
      cl'.db = db ∧ ClientReady cl'.state (g.count s) (g.tag offline s) (g.shares offline s) (g.own offline s) ∧
      segComm (pre.map Seg.act) = g.commOff offline 0 s ∧ obsOf pre = g.obsOff offline 0 s := by
    unfold commOff
    rw [e1 _ _ (by omega), e2 _ _ (by omega), e1 _ _ (by omega), inSeg_in _ _ _ _ _ (by omega), inSeg_in _ _ _ _ _ (by omega)]
    unfold simRs waitRs
    rw [castRs_zero h]
    simp only [atParty_zero, rsegs, List.map_nil, List.append_nil, List.nil_append, segComm_acts]
    cases offline with
    | true =>
      obtain ⟨st, sc, h1, h2, h3⟩ := client_offline h.good (by omega) cl rfl hlen.symm hpos (g.clientRand s) (1, s) (g.count s) h32
      rw [hlen] at h2 h3
      refine ⟨_, _, h1, rfl, h3, ?_, ?_⟩
      · simp only [comm_append, comm_aSendCount, comm_aRecvReady, h2.comm, if_true, List.map_append]
        simp only [cipherB, tickets, List.flatMap_map]
        rfl
      · simp only [obsOf_append, h2.obs, obsOff, if_true, tickets, List.map_map]
        rfl
    | false =>
      obtain ⟨st, h1, h3⟩ := client_simulated cl (1, s) (g.count s)
      refine ⟨_, _, h1, rfl, h3, ?_, ?_⟩
      · simp only [comm_append, comm_aSendCount, comm_aRecvReady, List.map_append, Bool.false_eq_true, if_false, List.append_nil]
        rfl
      · simp only [obsOf_append, obsOff]
        rfl
  obtain ⟨cl', pre, h1, h2, h3, h4, h5⟩ := hoff
  have hstart : ∀ post, Runs (if online then do
        let _ ← cl'.startOnline (g.clientRand s) (1, s) (g.count s)
        return ()
      else return ()) post () → PProc.Does (fun _ => True) (g.prog offline online (0, s)) (pre.map Seg.act ++ post.map Seg.act) := by
    intro post hp
    rw [e, ← List.map_append]
    refine PProc.Does.mono (PProc.Does.ofProc (a := ()) ?_) (fun _ _ => trivial)
    refine Runs.bind' (Runs.lift (database_new _)) (Runs.bind' (bs := pre ++ post) (Runs.lift hnew) ?_ rfl) rfl
    cases offline <;> exact Runs.bind h1 hp
  cases online with
  | true =>
    have hq := clientQs_good h offline s
    obtain ⟨c', sq, h6, h7⟩ := client_online cl' (g.clientRand s) (1, s) (g.count s) g.rows g.parties h32 h2 h.rowsp.1 h.rowsp.2
      (g.tag offline s) (g.shares offline s) (g.own offline s) h3 (g.pres offline s) (by omega) (fun j _ => (hq j).2.1)
      (fun j _ => (hq j).2.2.1) (fun j _ => (hq j).2.2.2.1) (fun j _ => (hq j).2.2.2.2)
    refine ⟨_, _, hstart _ (Runs.bind' h6 (Runs.done _) (List.append_nil _).symm), h4, ?_, by rw [segObs_acts]; exact h5, ?_,
      fun _ h0 _ => absurd h0 (lt_irrefl _), fun _ => ⟨fun _ => ⟨sq, rfl, ?_⟩, fun h0 _ => absurd h0 (lt_irrefl _), by omega⟩⟩
    · rw [segComm_acts, comm_append, h7.comm, comm_recvs (1, s) _ _ (fun j => (g.clientQs offline s j).resp.encode)
          (by intro j; simp [aRecvResponse]; rfl), commOn, if_pos rfl, e1 _ _ (by omega), e2 _ _ (by omega)]
      simp only [queryB, respB, qs, List.flatMap_map, backRs, atParty_zero, rsegs, List.map_nil, List.append_nil, List.map_append]
      rfl
    · rw [segObs_acts, obsOf_append, h7.obs, obsOf_recvs _ _ (fun j => [.recvResponse (g.clientQs offline s j).resp,
        .result (Database.row (g.clientQs offline s j).key)]) (by intro j; simp only [aRecvResponse, obsOf_append, obsOf_map_recv]; rfl), if_pos rfl]
      simp only [obsOn, if_true, qs, List.flatMap_map]
      rfl
    · unfold queryB qs
      rw [List.flatMap_map, List.flatMap_map]
      exact h7
  | false =>
    exact ⟨_, _, hstart [] (Runs.done _), h4, rfl, by rw [segObs_acts]; exact h5, rfl, fun _ h0 _ => absurd h0 (lt_irrefl _), fun h0 => by cases h0⟩

theorem party_does {g : Grid box} (h : g.Valid) (offline online : Bool) (hd : offline = true → g.DistinctTags) (k s : Nat)
    (hk : k + 1 < g.parties) (hs : s < g.servers) : ∃ pre post, g.Does offline online (k + 1) s pre post := by
  have hP := h.parties
  have hS := h.servers
  have hlen := h.keysLength
  have e : g.prog offline online (k + 1, s) = g.party k s offline online := by
    unfold prog
    rw [if_pos hs, if_neg (by simp), if_pos hk]
    rfl
  have hok := h.slot hk hs
  have hgr := lvl_group g.servers (k + 1)
  have hT := (tickets_spec h k (by omega)).1
  have hq := qs_spec h offline k (by omega)
  have hm1 : g.parties - k = g.parties - k - 1 + 1 := by omega
  let db : Database := { size := g.rows, rows := (List.range g.rows).map Database.row }
  let ciphers := CipherBatch.new (cipherSize (g.parties - k - 1)) (cipherSize (g.parties - k))
  let p : ParallelParty box := { partyId := k, serverId := s, partyCount := g.parties, serverCount := g.servers, db := db, shuffler := LocalShuffler.new (g.localSeed k s), pshuffler := ParallelShuffler.new s g.servers (g.sharedSeed k), ciphers := ciphers, outCiphers := ciphers, atSiblingCounts := List.replicate g.servers 0, noiseFrom := List.replicate g.servers 0, noisePrefix := List.replicate g.servers 0, pkeys := g.pkeys, pkey := g.pkey k, skey := g.skey k }
  have hnew : ParallelParty.new k s g.parties g.servers (g.sharedSeed k) (g.localSeed k s) g.pkeys (g.pkey k) (g.skey k) db = .ok p := by
    have h1 : k < g.parties - 1 := by omega
    have h2 : 1 < g.servers := by omega
    have h3 : serverTable g.servers = .ok (List.replicate g.servers 0) := by
      unfold serverTable wrap8
      rw [if_neg (by omega)]
    unfold ParallelParty.new
    rw [h3]
    simp [assert, hP.1, h1, h2, hs]
    rfl
  have hfr : (g.slot k s).Fresh p := by
    refine ⟨rfl, rfl, rfl, rfl, rfl, rfl, rfl, hlen.symm, rfl, rfl, ?_, ?_, rfl, rfl, ?_, rfl⟩
    · show g.pkeys[k]? = some (g.pkey k)
      rw [h.keys, List.getElem?_map, List.getElem?_range (by omega)]
      rfl
    · show ((List.range g.parties).map g.skey)[k]? = some (g.skey k)
      rw [List.getElem?_map, List.getElem?_range (by omega)]
      rfl
    · show cipherSize (g.parties - k) = cipherSize (g.parties - k - 1 + 1)
      rw [← hm1]
  have hslice := slice_eq h hk hs
  have hNQ : ∀ t, t < g.servers → (g.noiseQs offline k t).length = g.noise k t := fun t _ => noiseQs_length g offline k t
  have hQ : ∀ t, t < g.servers → (g.qs offline k t).length = g.load k t := fun t ht => (hq t ht).1
  have e1 := fun f B => downSeg_mid g.servers g.parties (k + 1) s f B (by omega) hk
  have e2 := fun f B => upSeg_mid g.servers g.parties (k + 1) s f B (by omega) hk
  have e3 := fun B => inSeg_in g.servers g.parties (k + 1) s B (by omega)
  simp only [Nat.add_sub_cancel] at e1 e2
  have hoff : ∃ pre, PProc.Does (fun p' => ParallelReady p' g.servers s (g.dests k) (g.noiseQs offline k) (g.qs offline k)
          (g.slot k s).shuf.forward (g.slot k s).shuf.backward ∧ ∀ q ∈ g.qs offline k s, PartyServes p'.queriesState q)
        (if offline then p.startOffline (g.choices k s) (k, s) (k + 2, s) (sibs (k + 1)) else
          p.simulateOffline (g.choices k s) (k, s) (k + 2, s) (sibs (k + 1))) pre ∧
      segComm pre = g.commOff offline (k + 1) s ∧ segObs pre = g.obsOff offline (k + 1) s ∧
      (offline = true → g.endSegs (k + 1) s <:+ pre) := by
    cases offline with
    | true =>
      obtain ⟨sc, h1, h2⟩ := Slot.offline_does hgr hok hfr (k, s) (k + 2, s) (load_ok h hk hs)
        (tickets_nodup h (hd rfl) (by omega)) (g.noiseQs true k) (g.qs true k)
        hNQ hQ (by
          show g.noiseQs true k s = _
          have : (g.slot k s).tag = g.noiseTag k s := funext (slot_tag g h.pos k s)
          rw [this]
          rfl) (g.tickets (k + 1) s) rfl
      refine ⟨_, h1.mono ?_, ?_, ?_, ?_⟩
      · rintro p' ⟨h3, h4⟩
        refine ⟨h3, fun q hq' => h4 q ?_⟩
        obtain ⟨s', hs', t, ht, hm⟩ := (hq s hs).2.2.1 rfl q hq'
        exact ⟨s', hs', t, ht, hm⟩
      · unfold Slot.offSegs commOff
        rw [e1, e1, e2, e3, e3]
        unfold countRs simRs waitRs cipherRs
        rw [castRs_mid g hk]
        simp only [atParty_mid g _ hk, rsegs, List.map_nil, List.map_cons, List.append_nil, List.nil_append, if_true, segComm_append,
          segComm_rseg, segComm_acts, comm_aSendCount, comm_aRecvCount, comm_aRecvReady, comm_aSendReady, h2.comm, comm_stores,
          List.append_assoc, List.cons_append]
        rw [comm_recvs (k, s) _ _ (fun t => t.cipher g.pkeys k) (by intro t; simp [aRecvCipher]; rfl), hslice]
        rfl
      · unfold Slot.offSegs obsOff
        rw [if_neg (by omega), if_pos hk]
        simp only [segObs_append, segObs_rseg, segObs_acts, h2.obs, obsOf_stores]
        rw [obsOf_recvs _ _ (fun t => [.recvCipher (t.cipher g.pkeys k)]) (by intro t; simp [aRecvCipher]; rfl),
          ← List.map_eq_flatMap, hslice]
        simp [aRecvCount, aSendCount, aRecvReady, aSendReady]
        exact ⟨rfl, rfl⟩
      · intro _
        unfold Slot.offSegs endSegs
        rw [if_pos hk]
        repeat first | exact List.suffix_refl _ | refine List.IsSuffix.trans ?_ (List.suffix_append _ _) | refine List.IsSuffix.trans ?_ (List.suffix_cons _ _)
    | false =>
      have h1 := Slot.simulated_does hgr hok hfr (k, s) (k + 2, s) (g.parties - k) (g.noiseQs false k) (g.qs false k) hNQ hQ rfl
      refine ⟨_, h1.mono ?_, ?_, ?_, ?_⟩
      · rintro p' ⟨h3, h4⟩
        refine ⟨h3, fun q hq' => ?_⟩
        obtain ⟨a1, a2, a3⟩ := (hq s hs).2.2.2 rfl q hq'
        exact h4 q a1 a2 a3
      · unfold Slot.simSegs commOff
        rw [e1, e2, e3]
        unfold countRs simRs waitRs
        simp only [atParty_mid g _ hk, rsegs, List.map_nil, List.map_cons, List.append_nil, List.nil_append, Bool.false_eq_true,
          if_false, segComm_append,
          segComm_rseg, segComm_acts, comm_aSendCount, comm_aRecvCount, comm_aRecvReady, comm_aSendReady,
          List.append_assoc, List.cons_append, hslice]
        rfl
      · unfold Slot.simSegs obsOff
        rw [if_neg (by omega), if_pos hk]
        simp only [segObs_append, segObs_rseg, segObs_acts, hslice]
        simp [aRecvCount, aSendCount, aRecvReady, aSendReady]
        rfl
      · intro h0
        cases h0
  obtain ⟨pre, h1, h4, h5, htail⟩ := hoff
  have hstart : ∀ post, (∀ p' : ParallelParty box, (ParallelReady p' g.servers s (g.dests k) (g.noiseQs offline k) (g.qs offline k)
          (g.slot k s).shuf.forward (g.slot k s).shuf.backward ∧ ∀ q ∈ g.qs offline k s, PartyServes p'.queriesState q) →
      PProc.Does (fun _ => True) (if online then do
        let _ ← p'.startOnline (k, s) (k + 2, s) (sibs (k + 1))
        return ()
      else return ()) post) → PProc.Does (fun _ => True) (g.prog offline online (k + 1, s)) (pre ++ post) := by
    intro post hp
    rw [e]
    unfold party
    simp only [PProc.bind_def]
    refine PProc.Does.lifts (database_new _) (PProc.Does.lifts hnew ?_)
    unfold ParallelParty.start
    simp only [PProc.bind_def]
    cases offline <;> exact PProc.Does.bind h1 hp
  cases online with
  | true =>
    obtain ⟨sq, sr, h6, h7, h8⟩ := parallel_online (box := box) hgr (by omega) (by omega) (k, s) (k + 2, s) s hs (g.dests k) (routing h hk) g.rows
      (g.parties - k - 1) (g.noiseQs offline k) (g.qs offline k) (fun t ht => by
        rw [hNQ t ht, hQ t ht, dests_length h hk ht]) _ _ (isShuffler h hk hs) (by
        rw [← hm1]
        exact (hq s hs).2.1) (g.qs offline (k + 1) s) rfl
    have hrun := hstart _ (fun p' hp' => by
      simp only [if_true, PProc.bind_def]
      exact PProc.Does.bind' (h6 p' hp'.1 hp'.2) (fun _ _ => .done trivial) (List.append_nil _).symm)
    refine ⟨pre, _, hrun, h4, ?_, h5, ?_, fun h0 _ _ => htail h0, fun _ => ⟨by omega, fun _ _ => ⟨sq, sr, rfl, h7, h8⟩, by omega⟩⟩
    · rw [commOn, if_pos rfl, e1, e2]
      unfold queryRs backRs
      simp only [atParty_mid g _ hk, rsegs, List.map_nil, List.map_cons, List.append_nil, List.nil_append, segComm_append,
          segComm_rseg, segComm_acts, h7.comm, h8.comm, List.append_assoc, List.cons_append]
      rw [comm_recvs (k, s) _ _ (fun q => q.query.encode) (by intro j; simp [aRecvQuery]),
        comm_recvs (k + 2, s) _ _ (fun q => q.resp.encode) (by intro j; simp [aRecvResponse])]
      rfl
    · simp only [segObs_append, segObs_rseg, segObs_acts, h7.obs, h8.obs, List.nil_append, List.cons_append]
      rw [obsOf_recvs _ _ (fun q => [.recvQuery q.query]) (by intro j; simp [aRecvQuery]),
        obsOf_recvs _ _ (fun q => [.recvResponse q.resp]) (by intro j; simp [aRecvResponse]), if_true, obsOn,
        if_neg (by omega), if_pos hk, ← List.map_eq_flatMap, ← List.map_eq_flatMap]
      rfl
  | false => exact ⟨pre, [], hstart [] (fun _ _ => .done trivial), h4, rfl, h5, rfl, fun h0 _ _ => htail h0, fun h0 => by cases h0⟩

theorem backend_does {g : Grid box} (h : g.Valid) (offline online : Bool) (hd : offline = true → g.DistinctTags) (s : Nat)
    (hs : s < g.servers) : ∃ pre post, g.Does offline online g.parties s pre post := by
  have hP := h.parties
  have hS := h.servers
  have hlen := h.keysLength
  obtain ⟨k, hk⟩ : ∃ k, g.parties = k + 1 := ⟨g.parties - 1, by omega⟩
  have hk1 : g.parties - 1 = k := by omega
  have h32 := h.load_lt (k := k) (by omega) hs
  have e : g.prog offline online (g.parties, s) = g.backend s offline online := by
    unfold prog
    rw [if_pos hs, if_neg (show ¬ g.parties = 0 by omega), if_neg (show ¬ g.parties < g.parties by omega), if_pos rfl]
  have hgr := lvl_group g.servers g.parties
  have hT := (tickets_spec h k (by omega)).1
  have hq := qs_spec h offline k (by omega) s hs
  have hm1 : g.parties - k = 1 := by omega
  rw [hm1] at hq
  let db : Database := { size := g.rows, rows := (List.range g.rows).map Database.row }
  let b : Backend box := { db := db, pkey := g.pkey k, skey := g.skey k }
  have hnew : Backend.new g.parties (g.pkey (g.parties - 1)) (g.skey (g.parties - 1)) db = .ok b := by
    simp [Backend.new, assert, hP.1, hk1]
    rfl
  have htab : serverTable g.servers = .ok (List.replicate g.servers 0) := by
    unfold serverTable wrap8
    rw [if_neg (by omega)]
  have e1 := fun f B => downSeg_last g.servers g.parties s f B (by omega)
  have e2 := fun f B => upSeg_last g.servers g.parties s f B (by omega)
  have e3 := fun B => inSeg_in g.servers g.parties g.parties s B (by omega)
  rw [hk1] at e1 e2
  have hoff : ∃ pre, PProc.Does (fun b' : Backend box => b'.db = db ∧ b'.queries = Batch.initialize (g.qs offline k s).length ⟨0, 0⟩ ∧
          ∀ q ∈ g.qs offline k s, BackendServes b'.state q)
        (if offline then b.startOfflineParallel (g.backendOrder s) s g.servers (k, s) (sibs g.parties) else
          PProc.ofProc (b.simulateOffline (k, s))) pre ∧
      segComm pre = g.commOff offline g.parties s ∧ segObs pre = g.obsOff offline g.parties s ∧
      (offline = true → g.endSegs g.parties s <:+ pre) := by
    cases offline with
    | true =>
      have h1 := backend_offline_does hgr (by omega) hs h.good (by omega) (by omega) b rfl (g.backendOrder s) (k, s) (g.tickets k)
        (by
          have := (hT s hs).2
          rwa [hm1] at this) (tickets_nodup h (hd rfl) (by omega)) (by
          rw [hlen, hk1, h.keys, List.getElem?_map, List.getElem?_range (by omega)]
          rfl)
        (by
          rw [hlen, hk1, List.getElem?_map, List.getElem?_range (by omega)]
          rfl) (by
          have e4 := load_sum g h.pos k
          have e5 := preSum_congr (f := fun s => (g.tickets k s).length) (g := g.load k) (n := g.servers) (fun t ht => (hT t ht).1)
          rw [e5, e4]
          exact h.lt (by omega)) g.itemsB (by
          intro t ht
          have := itemsB_perm h t
          rwa [hk1] at this) (by
          unfold itemsB
          rw [hk1])
      refine ⟨_, h1.mono ?_, ?_, ?_, ?_⟩
      · rintro b' ⟨st, rfl, h4⟩
        refine ⟨rfl, by rw [hq.1, ← (hT s hs).1], fun q hq' => h4 q ?_⟩
        obtain ⟨s', hs', t, ht, hm⟩ := hq.2.2.1 rfl q hq'
        exact ⟨s', hs', t, ht, hm⟩
      · unfold backSegs commOff
        rw [e1, e1, e2, e3, e3]
        unfold countRs simRs cipherRs castRs
        simp only [atParty_last, rsegs, List.map_nil, List.map_cons, List.append_nil, List.nil_append, if_true, segComm_append,
          segComm_rseg, segComm_acts, comm_aSendCount, comm_aRecvCount, comm_aRecvReady, comm_aSendReady,
          List.append_assoc, List.cons_append]
        rw [comm_recvs (k, s) _ _ (fun t => t.cipher g.pkeys (g.pkeys.length - 1)) (by intro t; simp [aRecvCipher]),
          hlen, hk1, (hT s hs).1]
        rfl
      · unfold backSegs obsOff
        rw [if_neg (by omega), if_neg (by omega), if_pos rfl]
        simp only [segObs_append, segObs_rseg, segObs_acts]
        rw [obsOf_recvs _ _ (fun t => [.recvCipher (t.cipher g.pkeys (g.pkeys.length - 1)), .store t.head])
            (by intro t; simp [aRecvCipher]), hlen, hk1, (hT s hs).1]
        simp [aRecvCount, aSendReady]
      · intro _
        unfold backSegs endSegs
        rw [if_neg (by omega), hk1]
        repeat first | exact List.suffix_refl _ | refine List.IsSuffix.trans ?_ (List.suffix_append _ _) | refine List.IsSuffix.trans ?_ (List.suffix_cons _ _)
    | false =>
      obtain ⟨st, h1, h4⟩ := backend_simulated b rfl (k, s) (g.load k s) 1 h32
      refine ⟨_, (PProc.Does.ofProc h1).mono ?_, ?_, ?_, fun h0 => by cases h0⟩
      · rintro b' rfl
        refine ⟨rfl, by rw [hq.1], fun q hq' => ?_⟩
        obtain ⟨a1, a2, a3⟩ := hq.2.2.2 rfl q hq'
        exact h4 q a2 a3
      · unfold commOff
        rw [e1, e2, e3]
        unfold countRs simRs
        simp only [atParty_last, rsegs, List.map_nil, List.map_cons, List.append_nil, List.nil_append, Bool.false_eq_true,
          if_false, segComm_acts, comm_append, comm_aRecvCount, comm_aSendReady, List.map_append]
        rfl
      · unfold obsOff
        rw [if_neg (by omega), if_neg (by omega), if_pos rfl, hk1]
        simp only [segObs_acts, obsOf_append]
        simp [aRecvCount, aSendReady]
  obtain ⟨pre, h1, h4, h5, htail⟩ := hoff
  have hstart : ∀ post, (∀ b' : Backend box, (b'.db = db ∧ b'.queries = Batch.initialize (g.qs offline k s).length ⟨0, 0⟩ ∧
          ∀ q ∈ g.qs offline k s, BackendServes b'.state q) →
      PProc.Does (fun _ => True) (if online then do
        let _ ← PProc.ofProc (b'.startOnline (k, s) g.junk)
        return ()
      else return ()) post) → PProc.Does (fun _ => True) (g.prog offline online (g.parties, s)) (pre ++ post) := by
    intro post hp
    rw [e]
    unfold backend
    simp only [PProc.bind_def]
    refine PProc.Does.lifts (database_new _) (PProc.Does.lifts htab (PProc.Does.lifts hnew ?_))
    unfold Backend.startParallel
    simp only [PProc.bind_def]
    rw [hk1]
    cases offline <;> exact PProc.Does.bind h1 hp
  cases online with
  | true =>
    obtain ⟨sr, h7, h6⟩ := backend_online_all (box := box) ((k, s) : Node) g.junk (g.qs offline k s) g.rows (by rw [hq.1]; exact h32) hq.2.1
    have hrun := hstart _ (fun b' hb' => by
      obtain ⟨b'', h8⟩ := h6 b' hb'.1 hb'.2.1 hb'.2.2
      simp only [if_true, PProc.bind_def]
      exact PProc.Does.bind' (PProc.Does.ofProc h8) (fun _ _ => .done trivial) (List.append_nil _).symm)
    refine ⟨pre, _, hrun, h4, ?_, h5, ?_, fun h0 _ _ => htail h0, fun _ => ⟨by omega, by omega, fun _ => ⟨sr, by rw [hk1], ?_⟩⟩⟩
    · rw [segComm_acts, comm_append, h7.comm]
      rw [comm_recvs (k, s) _ _ (fun q => q.query.encode) (by intro j; simp [aRecvQuery]),
        commOn, if_pos rfl, e1, e2]
      unfold queryRs
      simp only [atParty_last, rsegs, List.map_nil, List.append_nil, List.map_append]
      rfl
    · rw [segObs_acts, obsOf_append, h7.obs]
      rw [obsOf_recvs _ _ (fun q => [.recvQuery q.query]) (by intro j; simp [aRecvQuery]), if_pos rfl, obsOn,
        if_neg (by omega), if_neg (by omega), if_pos rfl, ← List.map_eq_flatMap, hk1]
    · rw [hk1]
      exact h7
  | false => exact ⟨pre, [], hstart [] (fun _ _ => .done trivial), h4, rfl, h5, rfl, fun h0 _ _ => htail h0, fun h0 => by cases h0⟩

theorem proc_does {g : Grid box} (h : g.Valid) (offline online : Bool) (hd : offline = true → g.DistinctTags) (i s : Nat)
    (hs : s < g.servers) : ∃ pre post, g.Does offline online i s pre post := by
  have hP := h.parties
  rcases Nat.lt_trichotomy i g.parties with hi | hi | hi
  · rcases Nat.eq_zero_or_pos i with h0 | h0
    · rw [h0]
      exact client_does h offline online s hs
    · obtain ⟨k, rfl⟩ : ∃ k, i = k + 1 := ⟨i - 1, by omega⟩
      exact party_does h offline online hd k s hi hs
  · rw [hi]
    exact backend_does h offline online hd s hs
  · refine ⟨[], [], ⟨?_, ?_, ?_, ?_, ?_, fun _ _ h0 => absurd h0 (by omega), fun _ => ⟨by omega, by omega, by omega⟩⟩⟩
    · unfold prog
      rw [if_pos hs, if_neg (by simp; omega), if_neg (by simp; omega), if_neg (by simp; omega)]
      exact .done trivial
    · unfold commOff
      rw [downSeg_none _ _ _ _ _ _ hi, downSeg_none _ _ _ _ _ _ hi, upSeg_none _ _ _ _ _ _ hi, inSeg_none _ _ _ _ _ hi, inSeg_none _ _ _ _ _ hi]
      simp
    · unfold commOn
      rw [downSeg_none _ _ _ _ _ _ hi, upSeg_none _ _ _ _ _ _ hi]
      simp
    · unfold obsOff
      rw [if_neg (by omega), if_neg (by omega), if_neg (by omega)]
      rfl
    · unfold obsOn
      rw [if_neg (show ¬ i = 0 by omega), if_neg (show ¬ i < g.parties by omega), if_neg (show ¬ i = g.parties by omega)]
      simp

/-! ### The whole deployment -/

/-- The global script. -/
def script (g : Grid box) (offline online : Bool) : List (GSeg Node) :=
  (downWave g.servers g.parties g.countB g.countRs ++ (inWave g.servers g.parties (g.simRs offline) ++
    (upWave g.servers g.parties readyB g.waitRs ++
    if offline then downWave g.servers g.parties g.cipherB g.cipherRs ++ (inWave g.servers g.parties g.castRs ++
      upWave g.servers g.parties readyB g.waitRs) else []))) ++
  if online then downWave g.servers g.parties (g.queryB offline) (g.queryRs offline) ++
    upWave g.servers g.parties (g.respB offline) (g.backRs offline) else []

theorem proj_script (g : Grid box) (offline online : Bool) (i s : Nat) (hs : s < g.servers) :
    (proj (i, s) (g.script offline online) : List (Seg Node Obs)) = g.commOff offline i s ++ g.commOn offline online i s := by
  unfold script commOff commOn
  cases offline <;> cases online <;>
    simp [pproj_append, pproj_down _ _ _ _ hs, pproj_up _ _ _ _ hs, pproj_in _ _ _ _ hs] <;> rfl

theorem proj_script_out (g : Grid box) (offline online : Bool) (i s : Nat) (hs : ¬ s < g.servers) :
    (proj (i, s) (g.script offline online) : List (Seg Node Obs)) = [] := by
  unfold script
  have h1 := fun f B => (pproj_out g.servers g.parties i s hs f B).1
  have h2 := fun f B => (pproj_out g.servers g.parties i s hs f B).2.1
  have h3 := fun B => (pproj_out g.servers g.parties i s hs readyB B).2.2
  cases offline <;> cases online <;> simp [pproj_append, h1, h2, h3] <;> rfl

/-- The segments of all processes. -/
theorem all_do {g : Grid box} (h : g.Valid) (offline online : Bool) (hd : offline = true → g.DistinctTags) :
    ∃ L : Node → List (Seg Node Obs), (∀ i, PProc.Does (fun _ => True) (g.prog offline online i) (L i)) ∧
      (∀ i, segComm (L i) = proj i (g.script offline online)) ∧
      ∀ i s, s < g.servers → segObs (L (i, s)) = g.obsOff offline i s ++ if online then g.obsOn offline i s else [] := by
  have key : ∀ i : Node, ∃ L, PProc.Does (fun _ => True) (g.prog offline online i) L ∧
      segComm L = proj i (g.script offline online) ∧
      (i.2 < g.servers → segObs L = g.obsOff offline i.1 i.2 ++ if online then g.obsOn offline i.1 i.2 else []) := by
    rintro ⟨i, s⟩
    by_cases hs : s < g.servers
    · obtain ⟨pre, post, h1, h2, h3, h4, h5, -⟩ := proc_does h offline online hd i s hs
      exact ⟨_, h1, by rw [proj_script g offline online i s hs, segComm_append, h2, h3], fun _ => by rw [segObs_append, h4, h5]⟩
    · refine ⟨[], ?_, (proj_script_out g offline online i s hs).symm, fun h => absurd h hs⟩
      unfold prog
      rw [if_neg hs]
      exact .done trivial
  choose L h1 h2 h3 using key
  exact ⟨L, h1, h2, fun i s hs => h3 (i, s) hs⟩

end Grid

end DPPIR.Protocol
