import Verif.Proofs.Ticket
import Verif.Model.Client

/-!
# What the client does
-/

namespace DPPIR.Protocol
open DPPIR Proc Onion Incremental Additive Spec Props

variable {box : SealedBox} {ι : Type}

/-- The client state serves tags and shares, then masks, in order. -/
structure ClientReady (s : ClientState) (count : Nat) (tag : Nat → BitVec 64) (shares : Nat → List Share)
    (own : Nat → Preshare) : Prop where
  read : s.readIdx = 0
  tags : ∀ j, j < count → ({ s with readIdx := j + 1 } : ClientState).getTag = .ok (tag j)
  shares : ∀ j, j < count → ({ s with readIdx := j + 1 } : ClientState).getIncrementalShares = .ok (shares j)
  own : ∀ j, j < count → ({ s.finishSharing with readIdx := j + 1 } : ClientState).getPreshare = .ok (own j)

/-- The state after storing `j` of `count` secrets. -/
def clientState (count j : Nat) (tag : Nat → BitVec 64) (shares : Nat → List Share) (own : Nat → Preshare) :
    ClientState :=
  { simulated := false
    writeIdx := j
    readIdx := 0
    size := count
    tags := (List.range j).map tag ++ List.replicate (count - j) 0
    incrementals := (List.range j).map shares ++ List.replicate (count - j) []
    preshares := (List.range j).map own ++ List.replicate (count - j) (fun _ => 0) }

theorem wr_next {α : Type} (f : Nat → α) (d : α) {j n : Nat} (hj : j < n) :
    wr ((List.range j).map f ++ List.replicate (n - j) d) j (f j) =
      .ok ((List.range (j + 1)).map f ++ List.replicate (n - (j + 1)) d) := by
  rw [wr_ok (by simp; omega), show n - j = n - (j + 1) + 1 by omega]
  have := set_at_done ((List.range j).map f) (f j) d (n - (j + 1))
  rw [List.length_map, List.length_range] at this
  rw [this, List.range_succ, List.map_append]
  rfl

theorem clientState_add {count j : Nat} (tag : Nat → BitVec 64) (shares : Nat → List Share) (own : Nat → Preshare)
    (hj : j < count) (h32 : count < 2 ^ 32) :
    (clientState count j tag shares own).addSecret (tag j) (shares j) (own j) =
      .ok (clientState count (j + 1) tag shares own) := by
  unfold ClientState.addSecret
  simp only [clientState]
  rw [wr_next tag 0 hj, bind_ok, wr_next shares [] hj, bind_ok, wr_next own (fun _ => 0) hj, bind_ok,
    wrap32_of_lt (by omega)]

theorem clientState_ready (count : Nat) (tag : Nat → BitVec 64) (shares : Nat → List Share) (own : Nat → Preshare)
    (h32 : count < 2 ^ 32) : ClientReady (clientState count count tag shares own) count tag shares own := by
  have hcur : ∀ j, j < count → ∀ s : ClientState, s.simulated = false → s.readIdx = j + 1 → s.cur = j :=
    fun j hj s h1 h2 => cur_eq s j h1 h2 (by omega)
  refine ⟨rfl, ?_, ?_, ?_⟩
  · intro j hj
    unfold ClientState.getTag
    rw [hcur j hj _ rfl rfl, rd_eq_ok]
    simp [clientState, hj]
  · intro j hj
    unfold ClientState.getIncrementalShares
    rw [hcur j hj _ rfl rfl, rd_eq_ok]
    simp [clientState, hj]
  · intro j hj
    unfold ClientState.getPreshare
    rw [hcur j hj _ rfl rfl, rd_eq_ok]
    simp [clientState, ClientState.finishSharing, hj]

/-- Tag of the client's `i`-th secret. -/
def clientTag (serverId count i : Nat) : BitVec 64 := BitVec.ofNat 64 (wrap32 (serverId * count + i))

theorem makeSecret_ok (c : Client box) (r : SecretRand box) (id count : Nat)
    (tag : Nat → BitVec 64) (shares : Nat → List Share) (own : Nat → Preshare)
    (hst : c.state = clientState count id tag shares own) (hid : id < count) (h32 : count < 2 ^ 32)
    (hp : c.partyCount ≤ 255) (htag : tag id = c.sampleTag id)
    (hsh : shares id = preIncrementalSecretShares r.shares c.partyCount) (hown : own id = r.own c.partyCount) :
    c.makeSecret r id = .ok ({ c with state := clientState count (id + 1) tag shares own },
      (r.ticket c.partyCount (c.sampleTag id)).secrets) := by
  unfold Client.makeSecret
  simp only
  rw [generate_ok _ _ (by omega) (by omega), bind_ok, Nat.add_sub_cancel,
    show bxAll ((List.range c.partyCount).map r.preshares) (fun _ => 0) = r.own c.partyCount from rfl,
    buildSecrets_ticket, bind_ok]
  simp only
  rw [vecAt_ok (by simp), bind_ok]
  have e : ((List.range c.partyCount).map r.preshares ++ [r.own c.partyCount])[c.partyCount]'(by simp) =
      r.own c.partyCount := by
    rw [List.getElem_append_right (by simp)]
    simp
  rw [e, hst, ← htag, ← hsh, ← hown, clientState_add tag shares own hid h32, bind_ok]

section
variable {pkeys : List box.PKey} {skeys : List box.SKey}

theorem client_offline (hgood : GoodKeys box pkeys skeys) (hp : pkeys.length ≤ 255) (c : Client box)
    (hpk : c.pkeys = pkeys) (hpc : c.partyCount = pkeys.length) (hpos : 0 < pkeys.length) (rand : ClientRand box) (next : ι) (count : Nat)
    (h32 : count < 2 ^ 32) :
    ∃ st sc, Runs (c.startOffline rand next count)
        (aSendCount next count ++ (aRecvReady next ++ (sc ++ aRecvReady next)))
        { c with queriesCount := count, state := st } ∧
      Sends next sc ((List.range count).flatMap (fun i =>
          ((rand.secret i).ticket pkeys.length (clientTag c.serverId count i)).cipher pkeys 0))
        ((List.range count).map (fun i =>
          .sendCipher (((rand.secret i).ticket pkeys.length (clientTag c.serverId count i)).cipher pkeys 0))) ∧
      ClientReady st count (clientTag c.serverId count)
        (fun i => preIncrementalSecretShares (rand.secret i).shares pkeys.length)
        (fun i => (rand.secret i).own pkeys.length) := by
  let tag := clientTag c.serverId count
  let shares := fun i => preIncrementalSecretShares (rand.secret i).shares pkeys.length
  let own := fun i => (rand.secret i).own pkeys.length
  have hps : 0 < pkeys.length → 0 < cipherSize pkeys.length ∧ cipherSize pkeys.length ≤ Sockets.bufferSize := by
    intro h
    simp only [cipherSize, secretSize, sealBytes, Sockets.bufferSize]
    omega
  have e0 : clientState count 0 tag shares own = c.state.initialize c.partyCount count false false := by
    simp [clientState, ClientState.initialize]
  obtain ⟨as, s', h1, ⟨h2, -⟩, h3, h4⟩ := loop_buffered next Prod.snd (fun j (s : Client box × WBuf) => s.1 = { c with
      queriesCount := count
      state := clientState count j tag shares own } ∧ s.2.Room (cipherSize pkeys.length)) (Client.offlineStep rand next)
    (fun i => ((rand.secret i).ticket pkeys.length (tag i)).cipher pkeys 0)
    (fun i => [.sendCipher (((rand.secret i).ticket pkeys.length (tag i)).cipher pkeys 0)]) (List.range count) 0
    ({ c with
      queriesCount := count
      state := c.state.initialize c.partyCount count false false }, {}) ⟨by rw [e0], WBuf.room_empty (hps hpos).1 (hps hpos).2⟩ (by
      rintro j ⟨c', w⟩ hj ⟨hc, hw⟩
      simp only at hc hw
      subst hc
      rw [List.length_range] at hj
      simp only [List.getElem_range, Nat.zero_add]
      obtain ⟨e1, -⟩ := Ticket.encrypt_eq hgood hp (k := 0) ((rand.secret j).ticket_good pkeys.length (tag j)) (by omega)
        (rand.secret j).junk (rand.secret j).junk'
      have hlen := Ticket.cipher_length hgood hp (k := 0) ((rand.secret j).ticket_good pkeys.length (tag j)) (by omega)
      have hsl := slice_zero (b := []) hlen
      rw [List.append_nil] at hsl
      obtain ⟨as, w', h1, h2, h3, h4⟩ := sendCipher_ok next _ _ _ hsl (hps hpos).1 (hps hpos).2 w hw
      refine ⟨as, (_, w'), Runs.bind' (Runs.lift (makeSecret_ok _ (rand.secret j) j count tag shares own rfl hj h32
        (by simp only; omega) rfl (by simp only; rw [hpc]) (by simp only; rw [hpc]))) ?_ (List.nil_append _).symm, ⟨rfl, h2⟩, h3, h4⟩
      simp only
      rw [hpk, hpc]
      exact Runs.bind' (Runs.lift e1) (Runs.bind' h1 (Runs.done _) (List.append_nil _).symm) (List.nil_append _).symm)
  rw [List.length_range] at h1 h2
  obtain ⟨h5, h6⟩ := h3.flush h4
  refine ⟨clientState count count tag shares own, as ++ s'.2.pending.map (Act.send next), ?_, ?_, clientState_ready count tag shares own h32⟩
  · refine Runs.bind (runs_sendCount _ _) (Runs.bind (runs_waitForReady _) (Runs.bind' (a := s') h1 ?_
      (List.append_assoc _ _ _)))
    obtain ⟨s1, s2⟩ := s'
    simp only at h2
    rw [h2]
    exact Runs.bind h5 (Runs.bind' (runs_waitForReady _) (Runs.done _) (List.append_nil _).symm)
  · exact h6.singles

theorem client_simulated (c : Client box) (next : ι) (count : Nat) :
    ∃ st, Runs (c.simulateOffline next count) (aSendCount next count ++ aRecvReady next) { c with state := st } ∧
      ClientReady st count (fun _ => 0) (fun _ => List.replicate c.partyCount ⟨0, 1⟩) (fun _ => fun _ => 0) := by
  refine ⟨c.state.initialize c.partyCount count false true,
    Runs.bind (runs_sendCount _ _) (Runs.bind' (runs_waitForReady _) (Runs.done _) (by simp)), rfl, ?_, ?_, ?_⟩ <;>
  · intro j _
    rfl

end

/-- The client's queries. -/
def clientQ (rows : Nat) (raw : Nat → Nat) (tag : Nat → BitVec 64) (shares : Nat → List Share)
    (pres : Nat → List Preshare) (j : Nat) : QTicket :=
  QTicket.fresh (tag j) (({ size := rows, rows := [] } : Database).randomRow (raw j)) (shares j) (pres j)

theorem clientQ_good (rows count m : Nat) (raw : Nat → Nat) (hrows : 0 < rows) (hrows2 : rows ≤ p)
    (tag : Nat → BitVec 64) (shares : Nat → List Share) (pres : Nat → List Preshare)
    (hm : 0 < m) (hsl : ∀ j < count, (shares j).length = m) (hpl : ∀ j < count, (pres j).length = m)
    (hsh : ∀ j < count, ∀ s ∈ shares j, IsShare s) :
    ∀ j < count, generateIncrementalTally (BitVec.ofNat 32 (clientQ rows raw tag shares pres j).key) (shares j) =
        .ok (clientQ rows raw tag shares pres j).tally ∧
      (clientQ rows raw tag shares pres j).Good rows m := by
  intro j hj
  have := QTicket.fresh_ok (tag j) (({ size := rows, rows := [] } : Database).randomRow (raw j)) (shares j) (pres j)
    (hsh j hj) (by intro h; have := hsl j hj; rw [h] at this; simp at this; omega) rows (by
      unfold Database.randomRow
      simp only
      split
      · exact hrows
      · exact Nat.mod_lt _ hrows) hrows2 (by rw [hsl j hj, hpl j hj])
  rw [hsl j hj] at this
  exact this

/-- The client with its read counter moved. -/
def Client.at (c : Client box) (count : Nat) (s : ClientState) (j : Nat) : Client box :=
  { c with
    queriesCount := count
    state := { s with readIdx := j } }

theorem queryStep_ok (c : Client box) (rand : ClientRand box) (next : ι) (count : Nat) (s : ClientState) (j : Nat)
    (keys : List Nat) (w : WBuf) (hw : w.Room querySize) (q : QTicket) (shares : List Share) (hj : j + 1 < 2 ^ 32)
    (hkey : c.db.randomRow (rand.row j) = q.key)
    (htag : ({ s with readIdx := j + 1 } : ClientState).getTag = .ok q.tag)
    (hshares : ({ s with readIdx := j + 1 } : ClientState).getIncrementalShares = .ok shares)
    (htally : generateIncrementalTally (BitVec.ofNat 32 q.key) shares = .ok q.tally) :
    ∃ as w', Runs (Client.queryStep rand next j (c.at count s j, keys, w)) as (c.at count s (j + 1), keys ++ [q.key], w') ∧
      w'.Room querySize ∧ Writes next as w q.query.encode w' ∧ obsOf as = [.want q.key, .sendQuery q.query] := by
  have hmk : (c.at count s j).makeQuery q.key = .ok (c.at count s (j + 1), q.query) := by
    unfold Client.makeQuery ClientState.loadNext Client.at
    simp only
    rw [wrap32_of_lt hj, htag, bind_ok, hshares, bind_ok, htally, bind_ok]
    rfl
  have hk : (c.at count s j).db.randomRow (rand.row j) = q.key := hkey
  have hk' : (c.at count s (j + 1)).db.randomRow (rand.row j) = q.key := hkey
  obtain ⟨as, w', h1, h2, h3, h4⟩ := sendQuery_ok next q.query w hw
  refine ⟨.obs (.want q.key) :: as, w', ?_, h2, h3.silent rfl, by rw [obsOf_obs, h4]⟩
  unfold Client.queryStep
  simp only
  rw [hk, hmk]
  exact Runs.bind' (Runs.observe _) (Runs.bind' (Runs.lift rfl) (Runs.bind' h1 (Runs.done _)
      (List.append_nil _).symm) (List.nil_append _).symm) rfl

theorem responseStep_ok (c : Client box) (next : ι) (count : Nat) (s : ClientState) (j : Nat)
    (keys : List Nat) (q : QTicket) (own : Preshare) (hj : j + 1 < 2 ^ 32)
    (hk : keys[j]? = some q.key)
    (hpre : ({ s with readIdx := j + 1 } : ClientState).getPreshare = .ok own)
    (hown : own = bxAll q.pres (fun _ => 0))
    (hlk : c.db.lookup q.key = .ok (Database.row q.key)) :
    Runs (Client.responseStep next keys j (c.at count s j))
      (aRecvResponse next q.resp ++ [.obs (.result (Database.row q.key))]) (c.at count s (j + 1)) := by
  have hrec : (c.at count s j).reconstructResponse q.resp = .ok (c.at count s (j + 1), Database.row q.key) := by
    unfold Client.reconstructResponse ClientState.loadNext Client.at
    simp only
    rw [wrap32_of_lt hj, hpre, bind_ok, additiveReconstruct_ok, bind_ok]
    congr 2
    rw [hown, QTicket.resp, mem_ofMem, bxAll_zero q.pres (Response.mem _), bx_cancel, ofMem_mem]
  have heq : (Database.row q.key).eq (Database.row q.key) = true := by simp [Response.eq, eqSigFrom_iff]
  have hl : (c.at count s (j + 1)).db.lookup q.key = .ok (Database.row q.key) := hlk
  unfold Client.responseStep
  refine Runs.bind (runs_recvResponse _ q.resp) (Runs.bind' (Runs.lift hrec) ?_ (List.nil_append _).symm)
  simp only
  rw [rd_eq_ok.2 hk]
  refine Runs.bind' (Runs.observe _) (Runs.bind' (Runs.lift rfl) (Runs.bind' (Runs.lift hl)
    (Runs.bind' (Runs.lift (a := ()) ?_) (Runs.done _) rfl) rfl) rfl) rfl
  simp [heq, assert]

theorem client_online (c : Client box) (rand : ClientRand box) (next : ι) (count rows m : Nat)
    (h32 : count < 2 ^ 32) (hdb : c.db = { size := rows, rows := (List.range rows).map Database.row })
    (hrows : 0 < rows) (hrows2 : rows ≤ p)
    (tag : Nat → BitVec 64) (shares : Nat → List Share) (own : Nat → Preshare)
    (hready : ClientReady c.state count tag shares own) (pres : Nat → List Preshare)
    (hm : 0 < m) (hsl : ∀ j < count, (shares j).length = m) (hpl : ∀ j < count, (pres j).length = m)
    (hsh : ∀ j < count, ∀ s ∈ shares j, IsShare s)
    (hown : ∀ j < count, own j = bxAll (pres j) (fun _ => 0)) :
    ∃ c' sq, Runs (c.startOnline rand next count)
      (sq ++ (List.range count).flatMap (fun j => aRecvResponse next (clientQ rows rand.row tag shares pres j).resp ++
          [.obs (.result (Database.row (clientQ rows rand.row tag shares pres j).key))]))
      c' ∧
      Sends next sq ((List.range count).flatMap (fun j => (clientQ rows rand.row tag shares pres j).query.encode))
        ((List.range count).flatMap (fun j => [.want (clientQ rows rand.row tag shares pres j).key,
          .sendQuery (clientQ rows rand.row tag shares pres j).query])) := by
  have hfresh := clientQ_good rows count m rand.row hrows hrows2 tag shares pres hm hsl hpl hsh
  have hqs : ∀ j, (clientQ rows rand.row tag shares pres j).shares = shares j := fun _ => rfl
  have hqt : ∀ j, (clientQ rows rand.row tag shares pres j).tag = tag j := fun _ => rfl
  have hqp : ∀ j, (clientQ rows rand.row tag shares pres j).pres = pres j := fun _ => rfl
  have hqk : ∀ j, c.db.randomRow (rand.row j) = (clientQ rows rand.row tag shares pres j).key := by
    intro j; rw [hdb]; rfl
  generalize clientQ rows rand.row tag shares pres = q at *
  have e : c.at count c.state 0 = { c with queriesCount := count } := by
    unfold Client.at
    rw [← hready.read]
  obtain ⟨as, ⟨c1, keys1, w1⟩, h1, ⟨h3, h4, -⟩, h5, h6⟩ := loop_buffered next (fun s => s.2.2)
    (fun j (s : Client box × List Nat × WBuf) => s.1 = c.at count c.state j ∧ s.2.1 = (List.range j).map (fun j => (q j).key) ∧
      s.2.2.Room querySize) (Client.queryStep rand next)
    (fun j => (q j).query.encode) (fun j => [.want (q j).key, .sendQuery (q j).query]) (List.range count) 0
    ({ c with queriesCount := count }, [], {}) ⟨e.symm, rfl, WBuf.room_empty (by decide) (by decide)⟩ (by
    rintro j ⟨c', keys, w⟩ hj ⟨hc, hk, hw⟩
    simp only at hc hk hw
    subst hc hk
    rw [List.length_range] at hj
    simp only [List.getElem_range, Nat.zero_add]
    obtain ⟨as, w', h1, h2, h3, h4⟩ := queryStep_ok c rand next count c.state j ((List.range j).map (fun j => (q j).key)) w hw
      (q j) (shares j) (by omega)
      (hqk j) (by rw [hqt]; exact hready.tags j hj) (hready.shares j hj) (hfresh j hj).1
    have e : (List.range j).map (fun j => (q j).key) ++ [(q j).key] = (List.range (j + 1)).map (fun j => (q j).key) := by
      rw [List.range_succ, List.map_append]; rfl
    rw [e] at h1
    exact ⟨as, _, h1, ⟨rfl, rfl, h2⟩, h3, h4⟩)
  simp only at h3 h4
  rw [List.length_range] at h1 h3 h4
  subst h3 h4
  obtain ⟨h7, h8⟩ := h5.flush h6
  have h2 := Runs.loop (Client.responseStep next ((List.range count).map (fun j => (q j).key)))
    (fun j => aRecvResponse next (q j).resp ++ [.obs (.result (Database.row (q j).key))])
    (fun j => c.at count c.state.finishSharing j) count 0 (by
    intro j _ hj
    have hj : j < count := by omega
    refine responseStep_ok c next count c.state.finishSharing j _ (q j) (own j) (by omega) (by simp [hj])
      (hready.own j hj) (by rw [hqp]; exact hown j hj) ?_
    rw [hdb]
    unfold Database.lookup
    rw [rd_eq_ok]
    simp [(hfresh j hj).2.key])
  rw [Nat.zero_add, ← List.range_eq_range'] at h2
  exact ⟨c.at count c.state.finishSharing count, as ++ w1.pending.map (Act.send next), Runs.bind' h1 (Runs.bind h7 h2) (List.append_assoc _ _ _), h8⟩

end DPPIR.Protocol
