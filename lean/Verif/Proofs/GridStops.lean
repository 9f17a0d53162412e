import Verif.Proofs.OfflineMay
import Verif.Proofs.GridFacts
import Verif.Proofs.GridTags

/-!
# A deployment in which two secrets have the same tag

Up to the end of the broadcast of secrets every process follows the script or stops.  The
servers of the backend all stop, so everybody else waits for ever.
-/

namespace DPPIR.Protocol
open DPPIR Proc PNet Onion Incremental Additive Spec Props Shuffle

variable {box : SealedBox}

/-- A program that waits for a byte. -/
def Reads {ι O α : Type} (p : PProc ι O α) : Prop := ∃ s k, p = .recv s k

theorem Reads.waits {ι O α : Type} {p : PProc ι O α} (h : Reads p) : Waits p := by
  obtain ⟨s, k, rfl⟩ := h
  trivial

theorem Reads.bind {ι O α β : Type} {p : PProc ι O α} (h : Reads p) (f : α → PProc ι O β) : Reads (p.bind f) := by
  obtain ⟨s, k, rfl⟩ := h
  exact ⟨_, _, rfl⟩

theorem Reads.not_done {ι O α : Type} {a : α} : ¬ Reads (PProc.done a : PProc ι O α) := by
  rintro ⟨s, k, h⟩
  cases h

/-! ### Segments that read from finitely many others -/

theorem finSeg_of_comm {ι : Type} {L : List (Seg ι Obs)} (h : ∀ x ∈ segComm L, PProc.FinSeg x) : ∀ x ∈ L, PProc.FinSeg x := by
  induction L with
  | nil => intro x hx; cases hx
  | cons y L ih =>
    intro x hx
    rcases List.mem_cons.1 hx with rfl | hx
    · match x, h with
      | .act _, _ => exact trivial
      | .xchg os is av, h => exact h _ List.mem_cons_self
    · refine ih (fun z hz => h z ?_) x hx
      match y with
      | .act (.obs _) => exact hz
      | .act (.send _ _) => exact List.mem_cons_of_mem _ hz
      | .act (.recv _ _) => exact List.mem_cons_of_mem _ hz
      | .xchg _ _ _ => exact List.mem_cons_of_mem _ hz

theorem finSeg_rseg (S l s : Nat) (o) : PProc.FinSeg (rseg (lvl S l) (sibs l) o s) := by
  refine ⟨(List.range S).map (sibs l), fun j hj => ?_⟩
  have : lvl S l j = none := by
    unfold lvl
    refine if_neg fun h => hj ?_
    rw [List.mem_map]
    exact ⟨j.2, List.mem_range.2 h.2, Prod.ext h.1.symm rfl⟩
  unfold roundIns
  rw [this]

theorem finSeg_sends (d : Node) (l) : ∀ x ∈ sends d l, PProc.FinSeg x := by
  intro x hx
  obtain ⟨y, -, rfl⟩ := List.mem_map.1 hx
  trivial

theorem finSeg_recvs (d : Node) (l) : ∀ x ∈ recvs d l, PProc.FinSeg x := by
  intro x hx
  obtain ⟨y, -, rfl⟩ := List.mem_map.1 hx
  trivial

theorem finSeg_rsegs (S l s : Nat) (os) : ∀ x ∈ rsegs S l s os, PProc.FinSeg x := by
  intro x hx
  obtain ⟨y, -, rfl⟩ := List.mem_map.1 hx
  exact finSeg_rseg _ _ _ _

theorem finSeg_append {L M : List (Seg Node Obs)} (h : ∀ x ∈ L, PProc.FinSeg x) (h' : ∀ x ∈ M, PProc.FinSeg x) :
    ∀ x ∈ L ++ M, PProc.FinSeg x := by
  intro x hx
  rcases List.mem_append.1 hx with hx | hx
  · exact h x hx
  · exact h' x hx

theorem finSeg_ite {c : Prop} [Decidable c] {L : List (Seg Node Obs)} (h : ∀ x ∈ L, PProc.FinSeg x) :
    ∀ x ∈ (if c then L else []), PProc.FinSeg x := by
  intro x hx
  split at hx
  · exact h x hx
  · cases hx

theorem finSeg_down (S P i s : Nat) (f B) : ∀ x ∈ downSeg S P i s f B, PProc.FinSeg x :=
  finSeg_append (finSeg_ite (finSeg_append (finSeg_recvs _ _) (finSeg_rsegs _ _ _ _))) (finSeg_ite (finSeg_sends _ _))

theorem finSeg_up (S P i s : Nat) (f B) : ∀ x ∈ upSeg S P i s f B, PProc.FinSeg x :=
  finSeg_append (finSeg_ite (finSeg_append (finSeg_recvs _ _) (finSeg_rsegs _ _ _ _))) (finSeg_ite (finSeg_sends _ _))

theorem finSeg_in (S P i s : Nat) (B) : ∀ x ∈ inSeg S P i s B, PProc.FinSeg x := finSeg_ite (finSeg_rsegs _ _ _ _)

namespace Grid

/-- Communication of server `s` of level `i` until it waits for the next party to be
ready for queries. -/
def commPre (g : Grid box) (i s : Nat) : List (Seg Node Obs) :=
  downSeg g.servers g.parties i s g.countB g.countRs ++ (inSeg g.servers g.parties i s (g.simRs true) ++
    (upSeg g.servers g.parties i s readyB g.waitRs ++
    (downSeg g.servers g.parties i s g.cipherB g.cipherRs ++ inSeg g.servers g.parties i s g.castRs)))

theorem finSeg_commPre (g : Grid box) (i s : Nat) : ∀ x ∈ g.commPre i s, PProc.FinSeg x :=
  finSeg_append (finSeg_down _ _ _ _ _ _) (finSeg_append (finSeg_in _ _ _ _ _) (finSeg_append (finSeg_up _ _ _ _ _ _)
    (finSeg_append (finSeg_down _ _ _ _ _ _) (finSeg_in _ _ _ _ _))))

/-- The global script until then. -/
def preScript (g : Grid box) : List (GSeg Node) :=
  downWave g.servers g.parties g.countB g.countRs ++ (inWave g.servers g.parties (g.simRs true) ++
    (upWave g.servers g.parties readyB g.waitRs ++
    (downWave g.servers g.parties g.cipherB g.cipherRs ++ inWave g.servers g.parties g.castRs)))

theorem preScript_ok {g : Grid box} (h : g.Valid) {cap : Node × Node → Nat} (hc : g.Roomy cap) : ∀ x ∈ g.preScript, GSeg.Ok cap x := by
  intro x hx
  refine script_ok h hc true false x ?_
  unfold preScript at hx
  unfold script
  simp only [List.mem_append, if_true] at hx ⊢
  tauto

theorem proj_preScript (g : Grid box) (i s : Nat) (hs : s < g.servers) :
    (proj (i, s) g.preScript : List (Seg Node Obs)) = g.commPre i s := by
  unfold preScript commPre
  simp only [pproj_append, pproj_down _ _ _ _ hs, pproj_up _ _ _ _ hs, pproj_in _ _ _ _ hs]

theorem proj_preScript_out (g : Grid box) (i s : Nat) (hs : ¬ s < g.servers) : (proj (i, s) g.preScript : List (Seg Node Obs)) = [] := by
  unfold preScript
  have h1 := fun f B => (pproj_out g.servers g.parties i s hs f B).1
  have h2 := fun f B => (pproj_out g.servers g.parties i s hs f B).2.1
  have h3 := fun B => (pproj_out g.servers g.parties i s hs readyB B).2.2
  simp [pproj_append, h1, h2, h3]

/-- A process follows the prefix of the script, or stops, and then is as `Q` says. -/
structure May (g : Grid box) (online : Bool) (Q : PProg Node Unit → Prop) (i s : Nat) (pre : PProc Node Obs (PProg Node Unit))
    (L : List (Seg Node Obs)) : Prop where
  eq : g.prog true online (i, s) = pre.bind id
  may : PProc.MayDo Asserts Q pre L
  comm : segComm L = g.commPre i s

theorem client_may {g : Grid box} (h : g.Valid) (online : Bool) (s : Nat) (hs : s < g.servers) :
    ∃ pre L, g.May online Reads 0 s pre L ∧
      segObs L = [.sendCount (BitVec.ofNat 32 (g.load 0 s)), .recvReady] ++ (g.tickets 0 s).map (fun t => .sendCipher (t.cipher g.pkeys 0)) := by
  have hP := h.parties
  have hlen := h.keysLength
  have h32 : g.count s < 2 ^ 32 := h.load_lt (k := 0) (by omega) hs
  have hpos : 0 < g.pkeys.length := by omega
  have e : g.prog true online (0, s) = g.client s true online := by
    unfold prog
    rw [if_pos hs, if_pos rfl]
  let db : Database := { size := g.rows, rows := (List.range g.rows).map Database.row }
  let cl : Client box := { serverId := s, partyCount := g.parties, db := db, pkeys := g.pkeys }
  have hnew : Client.new s g.parties g.pkeys db = .ok cl := by
    simp [Client.new, assert, hP.1]
    rfl
  have e1 := downSeg_first g.servers g.parties s
  have e2 := upSeg_first g.servers g.parties s
  obtain ⟨st, sc, h1, h2, -⟩ := client_offline h.good (by omega) cl rfl hlen.symm hpos (g.clientRand s) (1, s) (g.count s) h32
  rw [hlen] at h2
  rw [show aSendCount ((1, s) : Node) (g.count s) ++ (aRecvReady (1, s) ++ (sc ++ aRecvReady (1, s))) =
    (aSendCount (1, s) (g.count s) ++ (aRecvReady (1, s) ++ sc)) ++ aRecvReady (1, s) by simp] at h1
  obtain ⟨p0, he, k, h3, h4⟩ := _root_.DPPIR.Runs.split h1
  have hk : Reads (PProc.ofProc k) := by
    cases h4 with
    | recv h => exact ⟨_, _, rfl⟩
  refine ⟨(PProc.ofProc p0).bind (fun k => .done ((PProc.ofProc k).bind (fun c => PProc.ofProc (if online then do
        let _ ← c.startOnline (g.clientRand s) (1, s) (g.count s)
        return ()
      else return ())))), (aSendCount (1, s) (g.count s) ++ (aRecvReady (1, s) ++ sc)).map Seg.act ++ [], ⟨?_, ?_, ?_⟩, ?_⟩
  · rw [e]
    unfold client
    rw [database_new]
    show PProc.ofProc ((Proc.lift (Client.new s g.parties g.pkeys db)).bind _) = _
    rw [hnew]
    show PProc.ofProc (Client.start cl (g.clientRand s) ((1, s) : Node) (g.count s) true online) = _
    unfold Client.start
    show PProc.ofProc ((cl.startOffline (g.clientRand s) (1, s) (g.count s)).bind _) = _
    rw [he, Proc.bind_assoc, PProc.ofProc_bind, PProc.bind_assoc]
    congr 1
    funext k
    exact PProc.ofProc_bind _ _
  · exact PProc.MayDo.runs h3 (.done (hk.bind _))
  · rw [List.append_nil, segComm_acts]
    unfold commPre
    rw [e1 _ _ (by omega), e2 _ _ (by omega), e1 _ _ (by omega), inSeg_in _ _ _ _ _ (by omega), inSeg_in _ _ _ _ _ (by omega)]
    unfold simRs waitRs
    rw [castRs_zero h]
    simp only [atParty_zero, rsegs, List.map_nil, List.append_nil, List.nil_append]
    simp only [comm_append, comm_aSendCount, comm_aRecvReady, h2.comm, List.map_append]
    simp only [cipherB, tickets, List.flatMap_map]
    rfl
  · rw [List.append_nil, segObs_acts]
    simp only [obsOf_append, h2.obs, tickets, List.map_map]
    rfl

theorem party_may {g : Grid box} (h : g.Valid) (online : Bool) (k s : Nat) (hk : k + 1 < g.parties) (hs : s < g.servers) :
    ∃ pre L, g.May online Reads (k + 1) s pre L := by
  have hP := h.parties
  have hS := h.servers
  have hlen := h.keysLength
  have e : g.prog true online (k + 1, s) = g.party k s true online := by
    unfold prog
    rw [if_pos hs, if_neg (by simp), if_pos hk]
    rfl
  have hok := h.slot hk hs
  have hgr := lvl_group g.servers (k + 1)
  have hq := qs_spec h true k (by omega)
  have hm1 : g.parties - k = g.parties - k - 1 + 1 := by omega
  let db : Database := { size := g.rows, rows := (List.range g.rows).map Database.row }
  let ciphers := CipherBatch.new (cipherSize (g.parties - k - 1)) (cipherSize (g.parties - k))
  let p : ParallelParty box := { partyId := k, serverId := s, partyCount := g.parties, serverCount := g.servers, db := db, shuffler := LocalShuffler.new (g.localSeed k s), pshuffler := ParallelShuffler.new s g.servers (g.sharedSeed k), ciphers := ciphers, outCiphers := ciphers, atSiblingCounts := List.replicate g.servers 0, noiseFrom := List.replicate g.servers 0, noisePrefix := List.replicate g.servers 0, pkeys := g.pkeys, pkey := g.pkey k, skey := g.skey k }
  have hnew : ParallelParty.new k s g.parties g.servers (g.sharedSeed k) (g.localSeed k s) g.pkeys (g.pkey k) (g.skey k) db = .ok p := by
    have h1 : k < g.parties - 1 := by omega
    have h2 : 1 < g.servers := by omega
    have h3 : serverTable g.servers = .ok (List.replicate g.servers 0) := by
      unfold serverTable wrap8
      rw [if_neg (by omega)]
    unfold ParallelParty.new
    rw [h3]
    simp [assert, hP.1, h1, h2, hs]
    rfl
  have hfr : (g.slot k s).Fresh p := by
    refine ⟨rfl, rfl, rfl, rfl, rfl, rfl, rfl, hlen.symm, rfl, rfl, ?_, ?_, rfl, rfl, ?_, rfl⟩
    · show g.pkeys[k]? = some (g.pkey k)
      rw [h.keys, List.getElem?_map, List.getElem?_range (by omega)]
      rfl
    · show ((List.range g.parties).map g.skey)[k]? = some (g.skey k)
      rw [List.getElem?_map, List.getElem?_range (by omega)]
      rfl
    · show cipherSize (g.parties - k) = cipherSize (g.parties - k - 1 + 1)
      rw [← hm1]
  have hslice := slice_eq h hk hs
  have hNQ : ∀ t, t < g.servers → (g.noiseQs true k t).length = g.noise k t := fun t _ => noiseQs_length g true k t
  have hQ : ∀ t, t < g.servers → (g.qs true k t).length = g.load k t := fun t ht => (hq t ht).1
  have e1 := fun f B => downSeg_mid g.servers g.parties (k + 1) s f B (by omega) hk
  have e2 := fun f B => upSeg_mid g.servers g.parties (k + 1) s f B (by omega) hk
  have e3 := fun B => inSeg_in g.servers g.parties (k + 1) s B (by omega)
  simp only [Nat.add_sub_cancel] at e1 e2
  obtain ⟨sc, h1, h2⟩ := Slot.pre_may hgr hok hfr (k, s) (k + 2, s) (load_ok h hk hs) (g.noiseQs true k) (g.qs true k)
    hNQ hQ (by
      show g.noiseQs true k s = _
      have : (g.slot k s).tag = g.noiseTag k s := funext (slot_tag g h.pos k s)
      rw [this]
      rfl) (g.tickets (k + 1) s) rfl
  refine ⟨(p.offlinePre (g.choices k s) (k, s) (k + 2, s) (sibs (k + 1))).bind (fun p => .done
    (((p.relayReady (k, s) (k + 2, s) (sibs (k + 1))).bind (fun _ => .done p)).bind (fun p => if online then do
        let _ ← p.startOnline (k, s) (k + 2, s) (sibs (k + 1))
        return ()
      else return ()))), _, ⟨?_, PProc.MayDo.bind' h1 (M := []) ?_ (List.append_nil _).symm, ?_⟩⟩
  · rw [e]
    unfold party
    simp only [PProc.bind_def]
    rw [database_new]
    show ((PProc.lift (ParallelParty.new k s g.parties g.servers (g.sharedSeed k) (g.localSeed k s) g.pkeys (g.pkey k) (g.skey k) db)).bind _) = _
    rw [hnew]
    show ParallelParty.start p (g.choices k s) (k, s) (k + 2, s) (sibs (k + 1)) true online = _
    unfold ParallelParty.start
    simp only [if_true, PProc.bind_def]
    rw [startOffline_eq, PProc.bind_assoc, PProc.bind_assoc]
    rfl
  · intro p' _
    refine .done (Reads.bind (Reads.bind ?_ _) _)
    exact ⟨_, _, rfl⟩
  · unfold Slot.preSegs commPre
    rw [e1, e1, e2, e3, e3]
    unfold countRs simRs waitRs cipherRs
    rw [castRs_mid g hk]
    simp only [atParty_mid g _ hk, rsegs, List.map_nil, List.map_cons, List.append_nil, List.nil_append, if_true, segComm_append,
      segComm_rseg, segComm_acts, comm_aSendCount, comm_aRecvCount, comm_aRecvReady, comm_aSendReady, h2.comm, comm_stores,
      List.append_assoc, List.cons_append]
    rw [comm_recvs (k, s) _ _ (fun t => t.cipher g.pkeys k) (by intro t; simp [aRecvCipher]; rfl), hslice]
    rfl

theorem backend_mayDo {g : Grid box} (h : g.Valid) (hnd : ¬ g.DistinctTags) (online : Bool) (s : Nat) (hs : s < g.servers) :
    ∃ pre L, g.May online (fun _ => False) g.parties s pre L := by
  have hP := h.parties
  have hS := h.servers
  have hlen := h.keysLength
  obtain ⟨k, hk⟩ : ∃ k, g.parties = k + 1 := ⟨g.parties - 1, by omega⟩
  have hk1 : g.parties - 1 = k := by omega
  have h32 := h.load_lt (k := k) (by omega) hs
  have e : g.prog true online (g.parties, s) = g.backend s true online := by
    unfold prog
    rw [if_pos hs, if_neg (show ¬ g.parties = 0 by omega), if_neg (show ¬ g.parties < g.parties by omega), if_pos rfl]
  have hgr := lvl_group g.servers g.parties
  have hT := (tickets_spec h k (by omega)).1
  have hm1 : g.parties - k = 1 := by omega
  let db : Database := { size := g.rows, rows := (List.range g.rows).map Database.row }
  let b : Backend box := { db := db, pkey := g.pkey k, skey := g.skey k }
  have hnew : Backend.new g.parties (g.pkey (g.parties - 1)) (g.skey (g.parties - 1)) db = .ok b := by
    simp [Backend.new, assert, hP.1, hk1]
    rfl
  have htab : serverTable g.servers = .ok (List.replicate g.servers 0) := by
    unfold serverTable wrap8
    rw [if_neg (by omega)]
  have e1 := fun f B => downSeg_last g.servers g.parties s f B (by omega)
  have e2 := fun f B => upSeg_last g.servers g.parties s f B (by omega)
  have e3 := fun B => inSeg_in g.servers g.parties g.parties s B (by omega)
  rw [hk1] at e1 e2
  have h1 := backend_may hgr (by omega) hs h.good (by omega) (by omega) b rfl (g.backendOrder s) (k, s) (g.tickets k)
    (by
      have := (hT s hs).2
      rwa [hm1] at this) (by
      rw [(tickets_spec h k (by omega)).2.nodup_iff, ← hk1]
      exact hnd) (by
      rw [hlen, hk1, h.keys, List.getElem?_map, List.getElem?_range (by omega)]
      rfl)
    (by
      rw [hlen, hk1, List.getElem?_map, List.getElem?_range (by omega)]
      rfl) (by
      have e4 := load_sum g h.pos k
      have e5 := preSum_congr (f := fun s => (g.tickets k s).length) (g := g.load k) (n := g.servers) (fun t ht => (hT t ht).1)
      rw [e5, e4]
      exact h.lt (by omega)) g.itemsB (by
      intro t ht
      have := itemsB_perm h t
      rwa [hk1] at this) (by
      unfold itemsB
      rw [hk1])
  refine ⟨(g.prog true online (g.parties, s)).bind (fun a => .done (.done a)), backPreSegs (lvl g.servers g.parties) (sibs g.parties) g.servers s (k, s) g.pkeys (g.tickets k) g.itemsB, ⟨?_, ?_, ?_⟩⟩
  · rw [PProc.bind_assoc]
    exact (bind_done _).symm
  · rw [e]
    unfold backend
    simp only [PProc.bind_def, PProc.bind_assoc]
    refine PProc.MayDo.lifts (database_new _) (PProc.MayDo.lifts htab (PProc.MayDo.lifts hnew ?_))
    unfold Backend.startParallel
    simp only [PProc.bind_def, if_true, PProc.bind_assoc]
    rw [hk1]
    exact PProc.MayDo.bind' h1 (M := []) (fun _ hf => False.elim hf) (List.append_nil _).symm
  · unfold backPreSegs commPre
    rw [e1, e1, e2, e3, e3]
    unfold countRs simRs cipherRs castRs
    simp only [atParty_last, rsegs, List.map_nil, List.map_cons, List.append_nil, List.nil_append, if_true, segComm_append,
      segComm_rseg, segComm_acts, comm_aSendCount, comm_aRecvCount, comm_aRecvReady, comm_aSendReady,
      List.append_assoc, List.cons_append]
    rw [comm_recvs (k, s) _ _ (fun t => t.cipher g.pkeys (g.pkeys.length - 1)) (by intro t; simp [aRecvCipher]),
      hlen, hk1, (hT s hs).1]
    rfl

/-- What process `(i, s)` comes to. -/
def comesTo (g : Grid box) (i : Node) (p : PProg Node Unit) : Prop :=
  if i.2 < g.servers then if i.1 < g.parties then Reads p else if i.1 = g.parties then False else p = .done () else p = .done ()

theorem proc_may {g : Grid box} (h : g.Valid) (hnd : ¬ g.DistinctTags) (online : Bool) (i s : Nat) (hs : s < g.servers) :
    ∃ pre L, g.May online (g.comesTo (i, s)) i s pre L ∧ (i = 0 → segObs L = [.sendCount (BitVec.ofNat 32 (g.load 0 s)), .recvReady] ++
      (g.tickets 0 s).map (fun t => .sendCipher (t.cipher g.pkeys 0))) := by
  have hP := h.parties
  rcases Nat.lt_trichotomy i g.parties with hi | hi | hi
  · have : g.comesTo (i, s) = Reads := by
      funext p
      unfold comesTo
      rw [if_pos hs, if_pos hi]
    rw [this]
    rcases Nat.eq_zero_or_pos i with h0 | h0
    · rw [h0]
      obtain ⟨pre, L, h1, h2⟩ := client_may h online s hs
      exact ⟨pre, L, h1, fun _ => h2⟩
    · obtain ⟨k, rfl⟩ : ∃ k, i = k + 1 := ⟨i - 1, by omega⟩
      obtain ⟨pre, L, h1⟩ := party_may h online k s hi hs
      exact ⟨pre, L, h1, fun h => absurd h (by omega)⟩
  · have : g.comesTo (i, s) = fun _ => False := by
      funext p
      unfold comesTo
      rw [if_pos hs, if_neg (by simp; omega), if_pos hi]
    rw [this, hi]
    obtain ⟨pre, L, h1⟩ := backend_mayDo h hnd online s hs
    exact ⟨pre, L, h1, fun h => absurd h (by omega)⟩
  · refine ⟨.done (.done ()), [], ⟨?_, .done ?_, ?_⟩, fun h => absurd h (by omega)⟩
    · unfold prog
      rw [if_pos hs, if_neg (by simp; omega), if_neg (by simp; omega), if_neg (by simp; omega)]
      rfl
    · unfold comesTo
      rw [if_pos hs, if_neg (by simp; omega), if_neg (by simp; omega)]
    · unfold commPre
      rw [downSeg_none _ _ _ _ _ _ hi, downSeg_none _ _ _ _ _ _ hi, upSeg_none _ _ _ _ _ _ hi, inSeg_none _ _ _ _ _ hi, inSeg_none _ _ _ _ _ hi]
      rfl

/-- With two equal tags: no process returns, no client asks for or gets anything, and
when nothing can move any more, some process has stopped at an assertion. -/
theorem stops {g : Grid box} (h : g.Valid) (hnd : ¬ g.DistinctTags) (online : Bool) (cap : Node × Node → Nat) :
    (∀ n, Reach cap (g.net true online) n →
      (∀ i s, i ≤ g.parties → s < g.servers → ¬ n.Returned (i, s) ()) ∧
      (∀ s < g.servers, wants (n.seen (0, s)) = [] ∧ results (n.seen (0, s)) = []) ∧
      (∀ i e, n.proc i = .fault e → e = .assertFail) ∧
      (g.Roomy cap → n.CanStep cap ∨ ∃ i, n.Faulted i)) ∧
    ∀ f : Nat → PNet Node Obs Unit, f 0 = g.net true online → ¬ ∀ k, ∃ i, PNet.Step cap i (f k) (f (k + 1)) := by
  have hP := h.parties
  have hS := h.servers
  have key : ∀ i : Node, ∃ pre L, g.prog true online i = pre.bind id ∧ PProc.MayDo Asserts (g.comesTo i) pre L ∧
      segComm L = proj i g.preScript ∧ (∀ x ∈ L, PProc.FinSeg x) ∧ (i.1 = 0 → i.2 < g.servers → segObs L = [.sendCount (BitVec.ofNat 32 (g.load 0 i.2)), .recvReady] ++
      (g.tickets 0 i.2).map (fun t => .sendCipher (t.cipher g.pkeys 0))) := by
    rintro ⟨i, s⟩
    by_cases hs : s < g.servers
    · obtain ⟨pre, L, h1, h2⟩ := proc_may h hnd online i s hs
      refine ⟨pre, L, h1.eq, h1.may, by rw [proj_preScript g i s hs, h1.comm], finSeg_of_comm ?_, fun h _ => h2 h⟩
      rw [h1.comm]
      exact finSeg_commPre g i s
    · refine ⟨.done (.done ()), [], ?_, .done ?_, ?_, by simp, fun _ h => absurd h hs⟩
      · unfold prog
        rw [if_neg hs]
        rfl
      · unfold comesTo
        rw [if_neg hs]
      · rw [proj_preScript_out g i s hs]
        rfl
  choose pre L h1 h2 h3 h4 h5 using key
  obtain ⟨cap', hcap'⟩ := exists_roomy g
  have hnet : g.net true online = PNet.start (fun i => (pre i).bind id) := by
    unfold net
    congr 1
    funext i
    exact h1 i
  have hQ : ∀ i p, g.comesTo i p → Waits p := by
    intro i p hp
    unfold comesTo at hp
    split at hp
    · split at hp
      · exact hp.waits
      · split at hp
        · exact hp.elim
        · rw [hp]; trivial
    · rw [hp]; trivial
  refine ⟨fun n hn => ?_, fun f hf => ?_⟩
  · rw [hnet] at hn
    obtain ⟨n0, -, -, a1, a2, a3, a4⟩ := may_wait (cap' := cap') (preScript_ok h hcap') h2 h4 h3 hQ hn
    refine ⟨fun i s hi hs hr => ?_, fun s hs => ?_, a2, fun hc => ?_⟩
    · have := a3 _ _ hr
      unfold comesTo at this
      rw [if_pos hs] at this
      split at this
      · exact Reads.not_done this
      · rename_i hi'
        rw [if_pos (show i = g.parties by simp at hi'; omega)] at this
        exact this
    · have hp := a1 (0, s)
      rw [h5 (0, s) rfl hs] at hp
      have e1 := Chain.wants_prefix hp
      have e2 := Chain.results_prefix hp
      have e3 : wants ([.sendCount (BitVec.ofNat 32 (g.load 0 s)), .recvReady] ++
          (g.tickets 0 s).map (fun t => Obs.sendCipher (t.cipher g.pkeys 0))) = [] := by
        unfold wants; simp [List.filterMap_map]
      have e4 : results ([.sendCount (BitVec.ofNat 32 (g.load 0 s)), .recvReady] ++
          (g.tickets 0 s).map (fun t => Obs.sendCipher (t.cipher g.pkeys 0))) = [] := by
        unfold results; simp [List.filterMap_map]
      rw [e3] at e1
      rw [e4] at e2
      exact ⟨List.prefix_nil.1 e1, List.prefix_nil.1 e2⟩
    · rcases a4 (preScript_ok h hc) with h6 | h6 | h6
      · exact .inl h6
      · exact .inr h6
      · obtain ⟨p, hp⟩ := h6 (g.parties, 0)
        unfold comesTo at hp
        rw [if_pos (show (g.parties, 0).2 < g.servers by simp; omega), if_neg (Nat.lt_irrefl _), if_pos rfl] at hp
        exact hp.elim
  · refine no_infinite_run ((Finset.range (g.parties + 1)) ×ˢ (Finset.range g.servers)) f ?_
    rintro ⟨i, s⟩ hi
    refine ⟨(), ?_⟩
    rw [hf]
    simp only [Finset.mem_product, Finset.mem_range, not_and_or] at hi
    show g.prog true online (i, s) = .done ()
    unfold prog
    by_cases hs : s < g.servers
    · have : ¬ i < g.parties + 1 := by tauto
      rw [if_pos hs, if_neg (by simp; omega), if_neg (by simp; omega), if_neg (by simp; omega)]
    · rw [if_neg hs]

end Grid

end DPPIR.Protocol
