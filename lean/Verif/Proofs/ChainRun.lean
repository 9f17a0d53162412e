import Verif.Proofs.Chain

/-!
# What every process of a deployment does
-/

namespace DPPIR.Protocol
open DPPIR Proc Onion Incremental Additive Spec Props Shuffle

variable {box : SealedBox}

/-! ### Communication waves -/

/-- Every process `k` sends `f k` to process `k + 1`, from the client on. -/
def down (P : Nat) (f : Nat → List Byte) : List (Nat × Nat × Byte) :=
  (List.range P).flatMap (fun k => (f k).map (fun b => (k, k + 1, b)))

/-- Every process `k + 1` sends `f k` to process `k`, from the backend on. -/
def up (P : Nat) (f : Nat → List Byte) : List (Nat × Nat × Byte) :=
  (List.range P).reverse.flatMap (fun k => (f k).map (fun b => (k + 1, k, b)))

/-- Part of process `i` in `down P f`. -/
def downAct (P i : Nat) (f : Nat → List Byte) : List (PAct Nat) :=
  (if 1 ≤ i ∧ i ≤ P then (f (i - 1)).map (Act.recv (i - 1)) else []) ++ if i < P then (f i).map (Act.send (i + 1)) else []

/-- Part of process `i` in `up P f`. -/
def upAct (P i : Nat) (f : Nat → List Byte) : List (PAct Nat) :=
  (if i < P then (f i).map (Act.recv (i + 1)) else []) ++ if 1 ≤ i ∧ i ≤ P then (f (i - 1)).map (Act.send (i - 1)) else []

theorem proj_append (i : Nat) (G H : List (Nat × Nat × Byte)) :
    (Net.proj i (G ++ H) : List (PAct Nat)) = Net.proj i G ++ Net.proj i H := by
  simp [Net.proj]

theorem proj_segment (i s d : Nat) (hsd : s ≠ d) (l : List Byte) :
    (Net.proj i (l.map (fun b => (s, d, b))) : List (PAct Nat)) =
      if i = s then l.map (Act.send d) else if i = d then l.map (Act.recv s) else [] := by
  induction l with
  | nil => simp [Net.proj]
  | cons b l ih =>
    have : (Net.proj i ((b :: l).map (fun b => (s, d, b))) : List (PAct Nat)) =
      ((if s = i then [Act.send d b] else []) ++ if d = i then [Act.recv s b] else []) ++
        Net.proj i (l.map (fun b => (s, d, b))) := rfl
    rw [this, ih]
    rcases Nat.decEq s i with h1 | h1 <;> rcases Nat.decEq d i with h2 | h2
    · simp [h1, h2, Ne.symm h1, Ne.symm h2]
    · simp [h1, h2, Ne.symm h1]
    · simp [h1, h2]
    · omega

theorem proj_down (P i : Nat) (f : Nat → List Byte) : Net.proj i (down P f) = downAct P i f := by
  induction P with
  | zero =>
    rw [downAct, if_neg (by omega), if_neg (by omega)]
    rfl
  | succ P ih =>
    have e : down (P + 1) f = down P f ++ (f P).map (fun b => (P, P + 1, b)) := by
      simp [down, List.range_succ]
    rw [e, proj_append, ih, proj_segment _ _ _ (by omega)]
    unfold downAct
    rcases Nat.lt_trichotomy i P with h | h | h
    · have h1 : (1 ≤ i ∧ i ≤ P) ↔ 1 ≤ i := by omega
      have h2 : (1 ≤ i ∧ i ≤ P + 1) ↔ 1 ≤ i := by omega
      simp only [h1, h2, if_pos h, if_pos (show i < P + 1 by omega), if_neg (show ¬ i = P by omega),
        if_neg (show ¬ i = P + 1 by omega), List.append_nil]
    · subst h
      have h2 : (1 ≤ i ∧ i ≤ i + 1) ↔ 1 ≤ i := by omega
      have h3 : (1 ≤ i ∧ i ≤ i) ↔ 1 ≤ i := by omega
      simp only [h2, h3, if_pos (show i < i + 1 by omega), if_neg (Nat.lt_irrefl i), if_true, List.append_nil]
    · rw [if_neg (by omega), if_neg (by omega), if_neg (show ¬ i = P by omega), if_neg (show ¬ i < P + 1 by omega)]
      rcases Nat.decEq i (P + 1) with h1 | h1
      · rw [if_neg h1, if_neg (by omega)]
        rfl
      · rw [if_pos h1, if_pos (by omega), h1]
        simp

theorem proj_up (P i : Nat) (f : Nat → List Byte) : Net.proj i (up P f) = upAct P i f := by
  induction P with
  | zero =>
    rw [upAct, if_neg (by omega), if_neg (by omega)]
    rfl
  | succ P ih =>
    have e : up (P + 1) f = (f P).map (fun b => (P + 1, P, b)) ++ up P f := by
      simp [up, List.range_succ]
    rw [e, proj_append, ih, proj_segment _ _ _ (by omega)]
    unfold upAct
    rcases Nat.lt_trichotomy i P with h | h | h
    · have h1 : (1 ≤ i ∧ i ≤ P) ↔ 1 ≤ i := by omega
      have h2 : (1 ≤ i ∧ i ≤ P + 1) ↔ 1 ≤ i := by omega
      simp only [h1, h2, if_pos h, if_pos (show i < P + 1 by omega), if_neg (show ¬ i = P by omega),
        if_neg (show ¬ i = P + 1 by omega), List.nil_append]
    · subst h
      have h2 : (1 ≤ i ∧ i ≤ i + 1) ↔ 1 ≤ i := by omega
      have h3 : (1 ≤ i ∧ i ≤ i) ↔ 1 ≤ i := by omega
      simp only [h2, h3, if_pos (show i < i + 1 by omega), if_neg (Nat.lt_irrefl i), if_true, List.nil_append,
        if_neg (show ¬ i = i + 1 by omega)]
    · rw [if_neg (by omega : ¬ i < P), if_neg (by omega : ¬ (1 ≤ i ∧ i ≤ P)), if_neg (show ¬ i = P by omega),
        if_neg (show ¬ i < P + 1 by omega)]
      rcases Nat.decEq i (P + 1) with h1 | h1
      · rw [if_neg h1, if_neg (by omega)]
        rfl
      · rw [if_pos h1, if_pos (by omega), h1]
        simp

theorem mem_down {P : Nat} {f : Nat → List Byte} {g : Nat × Nat × Byte} (h : g ∈ down P f) : g.2.1 = g.1 + 1 ∧ g.1 < P := by
  simp only [down, List.mem_flatMap, List.mem_map, List.mem_range] at h
  obtain ⟨k, hk, b, -, rfl⟩ := h
  exact ⟨rfl, hk⟩

theorem mem_up {P : Nat} {f : Nat → List Byte} {g : Nat × Nat × Byte} (h : g ∈ up P f) : g.1 = g.2.1 + 1 ∧ g.2.1 < P := by
  simp only [up, List.mem_flatMap, List.mem_map, List.mem_reverse, List.mem_range] at h
  obtain ⟨k, hk, b, -, rfl⟩ := h
  exact ⟨rfl, hk⟩

/-! ### Bytes and calls of the single messages -/

section
variable {ι : Type}

theorem comm_aSendCount (d : ι) (n : Nat) : comm (aSendCount d n) = (natLE 4 (BitVec.ofNat 32 n).toNat).map (Act.send d) := by
  simp [aSendCount]
theorem comm_aRecvCount (d : ι) (n : Nat) : comm (aRecvCount d n) = (natLE 4 (BitVec.ofNat 32 n).toNat).map (Act.recv d) := by
  simp [aRecvCount]
theorem comm_aSendReady (d : ι) : comm (aSendReady d) = [(1 : Byte)].map (Act.send d) := rfl
theorem comm_aRecvReady (d : ι) : comm (aRecvReady d) = [(1 : Byte)].map (Act.recv d) := rfl
theorem comm_recvs {γ : Type} (d : ι) (l : List γ) (acts : γ → List (PAct ι)) (bytes : γ → List Byte)
    (h : ∀ x, comm (acts x) = (bytes x).map (Act.recv d)) : comm (l.flatMap acts) = (l.flatMap bytes).map (Act.recv d) := by
  rw [comm_flatMap, List.map_flatMap]
  exact congrArg (fun f => List.flatMap f l) (funext h)
theorem obsOf_recvs {γ : Type} (l : List γ) (acts : γ → List (PAct ι)) (os : γ → List Obs)
    (h : ∀ x, obsOf (acts x) = os x) : obsOf (l.flatMap acts) = l.flatMap os := by
  rw [obsOf_flatMap]
  exact congrArg (fun f => List.flatMap f l) (funext h)
theorem comm_stores {γ : Type} (l : List γ) (o : γ → Obs) : comm (l.map (fun t => (.obs (o t) : PAct ι))) = [] := by
  induction l with
  | nil => rfl
  | cons b l ih => simp [ih]
theorem obsOf_stores {γ : Type} (l : List γ) (o : γ → Obs) : obsOf (l.map (fun t => (.obs (o t) : PAct ι))) = l.map o := by
  induction l with
  | nil => rfl
  | cons b l ih => simp [ih]

end

namespace Chain

/-! ### Bytes of the waves -/

def countB (c : Chain box) (k : Nat) : List Byte := natLE 4 (BitVec.ofNat 32 (c.queries k)).toNat
def readyB (_ : Nat) : List Byte := [1]
def cipherB (c : Chain box) (k : Nat) : List Byte := (c.tickets k).flatMap (fun t => t.cipher c.pkeys k)
def queryB (c : Chain box) (offline : Bool) (k : Nat) : List Byte := (c.qs offline k).flatMap (fun q => q.query.encode)
def respB (c : Chain box) (offline : Bool) (k : Nat) : List Byte := (c.qs offline k).flatMap (fun q => q.resp.encode)

/-- Communication of process `i` in the offline stage. -/
def commOff (c : Chain box) (offline : Bool) (i : Nat) : List (PAct Nat) :=
  downAct c.parties i c.countB ++ (upAct c.parties i readyB ++
    if offline then downAct c.parties i c.cipherB ++ upAct c.parties i readyB else [])

/-- Communication of process `i` in the online stage. -/
def commOn (c : Chain box) (offline online : Bool) (i : Nat) : List (PAct Nat) :=
  if online then downAct c.parties i (c.queryB offline) ++ upAct c.parties i (c.respB offline) else []

/-- Calls of process `i` in the offline stage. -/
def obsOff (c : Chain box) (offline : Bool) (i : Nat) : List Obs :=
  if i = 0 then [.sendCount (BitVec.ofNat 32 (c.queries 0)), .recvReady] ++
    if offline then (c.tickets 0).map (fun t => .sendCipher (t.cipher c.pkeys 0)) ++ [.recvReady] else []
  else if i < c.parties then
    [.recvCount (BitVec.ofNat 32 (c.queries (i - 1))), .sendCount (BitVec.ofNat 32 (c.queries i)), .recvReady, .sendReady] ++
    if offline then (c.tickets (i - 1)).map (fun t => .recvCipher (t.cipher c.pkeys (i - 1))) ++
      ((c.tickets (i - 1)).map (fun t => .store t.head) ++
      ((c.tickets i).map (fun t => .sendCipher (t.cipher c.pkeys i)) ++ [.recvReady, .sendReady])) else []
  else if i = c.parties then
    [.recvCount (BitVec.ofNat 32 (c.queries (i - 1))), .sendReady] ++
    if offline then (c.tickets (i - 1)).flatMap (fun t => [.recvCipher (t.cipher c.pkeys (i - 1)), .store t.head]) ++ [.sendReady]
      else []
  else []

/-- Calls of process `i` in the online stage. -/
def obsOn (c : Chain box) (offline : Bool) (i : Nat) : List Obs :=
  if i = 0 then (c.qs offline 0).flatMap (fun q => [.want q.key, .sendQuery q.query]) ++
    (c.qs offline 0).flatMap (fun q => [.recvResponse q.resp, .result (Database.row q.key)])
  else if i < c.parties then
    (c.qs offline (i - 1)).map (fun q => .recvQuery q.query) ++ ((c.qs offline i).map (fun q => .sendQuery q.query) ++
      ((c.qs offline i).map (fun q => .recvResponse q.resp) ++ (c.qs offline (i - 1)).map (fun q => .sendResponse q.resp)))
  else if i = c.parties then
    (c.qs offline (i - 1)).map (fun q => .recvQuery q.query) ++
      (c.qs offline (i - 1)).flatMap (fun q => [.lookup q.key, .sendResponse q.resp])
  else []

/-! ### The single processes -/

/-- The online part of a process, piece by piece: what it reads and what it sends. -/
structure Cuts (c : Chain box) (offline : Bool) (i : Nat) (post : List (PAct Nat)) : Prop where
  client : i = 0 → ∃ sq, post = sq ++ (List.range c.count).flatMap (fun j => aRecvResponse 1 (c.clientQs offline j).resp ++
      [.obs (.result (Database.row (c.clientQs offline j).key))]) ∧
    Sends 1 sq (c.queryB offline 0) ((c.qs offline 0).flatMap (fun q => [.want q.key, .sendQuery q.query]))
  party : 0 < i → i < c.parties → ∃ sq sr, post = (c.qs offline (i - 1)).flatMap (fun q => aRecvQuery (i - 1) q.query) ++
      (sq ++ ((c.qs offline i).flatMap (fun q => aRecvResponse (i + 1) q.resp) ++ sr)) ∧
    Sends (i + 1) sq (c.queryB offline i) ((c.qs offline i).map (fun q => .sendQuery q.query)) ∧
    Sends (i - 1) sr (c.respB offline (i - 1)) ((c.qs offline (i - 1)).map (fun q => .sendResponse q.resp))
  backend : i = c.parties → ∃ sr, post = (c.qs offline (i - 1)).flatMap (fun q => aRecvQuery (i - 1) q.query) ++ sr ∧
    Sends (i - 1) sr (c.respB offline (i - 1)) ((c.qs offline (i - 1)).flatMap (fun q => [.lookup q.key, .sendResponse q.resp]))

/-- A process performs the offline part, then the online part. -/
structure Does (c : Chain box) (offline online : Bool) (i : Nat) (pre post : List (PAct Nat)) : Prop where
  runs : Runs (c.prog offline online i) (pre ++ post) ()
  commPre : comm pre = c.commOff offline i
  commPost : comm post = c.commOn offline online i
  obsPre : obsOf pre = c.obsOff offline i
  obsPost : obsOf post = if online then c.obsOn offline i else []
  last : 1 ≤ i → i ≤ c.parties → ∃ a, pre = a ++ aSendReady (i - 1)
  cuts : online = true → c.Cuts offline i post

theorem downAct_first (P : Nat) (hP : 0 < P) (f : Nat → List Byte) : downAct P 0 f = (f 0).map (Act.send 1) := by
  simp [downAct, hP]
theorem downAct_mid (P i : Nat) (hi : 1 ≤ i) (hP : i < P) (f : Nat → List Byte) :
    downAct P i f = (f (i - 1)).map (Act.recv (i - 1)) ++ (f i).map (Act.send (i + 1)) := by
  simp [downAct, hi, hP, hP.le]
theorem downAct_last (P : Nat) (hP : 0 < P) (f : Nat → List Byte) : downAct P P f = (f (P - 1)).map (Act.recv (P - 1)) := by
  have : 1 ≤ P := hP
  simp [downAct, this]
theorem upAct_first (P : Nat) (hP : 0 < P) (f : Nat → List Byte) : upAct P 0 f = (f 0).map (Act.recv 1) := by
  simp [upAct, hP]
theorem upAct_mid (P i : Nat) (hi : 1 ≤ i) (hP : i < P) (f : Nat → List Byte) :
    upAct P i f = (f i).map (Act.recv (i + 1)) ++ (f (i - 1)).map (Act.send (i - 1)) := by
  simp [upAct, hi, hP, hP.le]
theorem upAct_last (P : Nat) (hP : 0 < P) (f : Nat → List Byte) : upAct P P f = (f (P - 1)).map (Act.send (P - 1)) := by
  have : 1 ≤ P := hP
  simp [upAct, this]

theorem Valid.good {c : Chain box} (h : c.Valid) : GoodKeys box c.pkeys ((List.range c.parties).map c.skey) := by
  have e := h.keys
  refine ⟨by rw [e]; simp, ?_⟩
  generalize c.pkeys = pk at e
  subst e
  intro k h1 h2
  simp only [List.getElem_map, List.getElem_range]
  exact h.pairs k (by simpa using h1)

theorem client_does {c : Chain box} (h : c.Valid) (offline online : Bool) : ∃ pre post, c.Does offline online 0 pre post := by
  have hP := h.parties
  have hlen : c.pkeys.length = c.parties := by rw [h.keys]; simp
  have h32 : c.count < 2 ^ 32 := h.lt (k := 0) (by omega)
  have hpos : 0 < c.pkeys.length := by omega
  have e : c.prog offline online 0 = c.client offline online := rfl
  let db : Database := { size := c.rows, rows := (List.range c.rows).map Database.row }
  let cl : Client box := { serverId := 0, partyCount := c.parties, db := db, pkeys := c.pkeys }
  have hnew : Client.new 0 c.parties c.pkeys db = .ok cl := by
    simp [Client.new, assert, hP.1]
    rfl
  have hoff : ∃ cl' pre, Runs (if offline then cl.startOffline c.clientRand 1 c.count else cl.simulateOffline 1 c.count) pre cl' ∧
      cl'.db = db ∧ ClientReady cl'.state c.count (c.tag offline) (c.shares offline) (c.own offline) ∧
      comm pre = c.commOff offline 0 ∧ obsOf pre = c.obsOff offline 0 := by
    have e1 := downAct_first c.parties (by omega) c.countB
    have e2 := upAct_first c.parties (by omega) readyB
    have e3 := downAct_first c.parties (by omega) c.cipherB
    cases offline with
    | true =>
      obtain ⟨st, sc, h1, h2, h3⟩ := client_offline h.good (by omega) cl rfl hlen.symm hpos c.clientRand 1 c.count h32
      rw [hlen] at h2 h3
      refine ⟨_, _, h1, rfl, h3, ?_, ?_⟩
      · simp only [comm_append, comm_aSendCount, comm_aRecvReady, h2.comm, commOff, e1, e2, e3, if_true]
        simp only [cipherB, tickets, List.flatMap_map]
        rfl
      · simp only [obsOf_append, h2.obs, obsOff, if_true, tickets, List.map_map]
        rfl
    | false =>
      obtain ⟨st, h1, h3⟩ := client_simulated cl 1 c.count
      refine ⟨_, _, h1, rfl, h3, ?_, ?_⟩
      · simp only [comm_append, comm_aSendCount, comm_aRecvReady, commOff, e1, e2]
        simp
        rfl
      · simp only [obsOf_append, obsOff]
        rfl
  obtain ⟨cl', pre, h1, h2, h3, h4, h5⟩ := hoff
  have hstart : ∀ post, Runs (if online then do
        let _ ← cl'.startOnline c.clientRand 1 c.count
        return ()
      else return ()) post () → Runs (c.prog offline online 0) (pre ++ post) () := by
    intro post hp
    rw [e]
    refine Runs.bind' (Runs.lift (database_new _)) (Runs.bind' (bs := pre ++ post) (Runs.lift hnew) ?_ rfl) rfl
    cases offline <;> exact Runs.bind h1 hp
  cases online with
  | true =>
    have hq := clientQs_good h offline
    obtain ⟨c', sq, h6, h7⟩ := client_online cl' c.clientRand 1 c.count c.rows c.parties h32 h2 h.rowsp.1 h.rowsp.2
      (c.tag offline) (c.shares offline) (c.own offline) h3 (c.pres offline) (by omega) (fun j _ => (hq j).2.1)
      (fun j _ => (hq j).2.2.1) (fun j _ => (hq j).2.2.2.1) (fun j _ => (hq j).2.2.2.2)
    refine ⟨pre, _, hstart _ (Runs.bind' h6 (Runs.done _) (List.append_nil _).symm), h4, ?_, h5, ?_, by omega, fun _ => ⟨fun _ => ⟨sq, rfl, ?_⟩, by omega, by omega⟩⟩
    · rw [comm_append, h7.comm, comm_recvs 1 _ _ (fun j => (c.clientQs offline j).resp.encode) (by intro j; simp [aRecvResponse]; rfl),
        commOn, if_pos rfl, downAct_first _ (by omega), upAct_first _ (by omega)]
      simp only [queryB, respB, qs, List.flatMap_map]
      rfl
    · rw [obsOf_append, h7.obs, obsOf_recvs _ _ (fun j => [.recvResponse (c.clientQs offline j).resp,
        .result (Database.row (c.clientQs offline j).key)]) (by intro j; simp only [aRecvResponse, obsOf_append, obsOf_map_recv]; rfl), if_pos rfl]
      simp only [obsOn, if_true, qs, List.flatMap_map]
      rfl
    · unfold queryB qs
      rw [List.flatMap_map, List.flatMap_map]
      exact h7
  | false => exact ⟨pre, [], hstart [] (Runs.done _), h4, rfl, h5, rfl, by omega, fun h0 => by cases h0⟩

theorem party_does {c : Chain box} (h : c.Valid) (offline online : Bool) (k : Nat) (hk : k + 1 < c.parties) :
    ∃ pre post, c.Does offline online (k + 1) pre post := by
  have hP := h.parties
  have hlen : c.pkeys.length = c.parties := by rw [h.keys]; simp
  have h32 := h.lt hk
  have e : c.prog offline online (k + 1) = c.party k offline online := by
    unfold prog
    rw [if_neg (by omega), if_pos hk]
    rfl
  have hq32 : c.queries k + sampleSum (c.partyRand k).sample c.rows < 2 ^ 32 := h32
  obtain ⟨t1, t2, -⟩ := tickets_spec h k (by omega)
  obtain ⟨q1, q2, q3, q4⟩ := qs_spec h offline k (by omega)
  obtain ⟨-, q5⟩ := qs_perm h offline k hk q1
  let db : Database := { size := c.rows, rows := (List.range c.rows).map Database.row }
  let p : Party box := { partyId := k, serverId := 0, partyCount := c.parties, serverCount := 1, db := db, shuffler := LocalShuffler.new (c.seed k), ciphers := CipherBatch.new (cipherSize (c.parties - k - 1)) (cipherSize (c.parties - k)), pkeys := c.pkeys, pkey := c.pkey k, skey := c.skey k }
  have hnew : Party.new k 0 c.parties 1 (c.seed k) c.pkeys (c.pkey k) (c.skey k) db = .ok p := by
    have : k < c.parties - 1 := by omega
    simp [Party.new, assert, hP.1, this]
    rfl
  have hfr : PartyFresh p k c.rows (c.seed k) c.pkeys ((List.range c.parties).map c.skey) := by
    refine ⟨rfl, rfl, rfl, hlen.symm, rfl, rfl, rfl, ?_, ?_, rfl, ?_, ?_⟩
    · rw [h.keys, List.getElem?_map, List.getElem?_range (by omega)]
      rfl
    · rw [List.getElem?_map, List.getElem?_range (by omega)]
      rfl
    · rw [hlen]; rfl
    · rw [hlen]; rfl
  have hm1 : c.parties - k = c.parties - k - 1 + 1 := by omega
  have hoff : ∃ p' pre, Runs (if offline then p.startOffline (c.partyRand k) k (k + 2) else p.simulateOffline (c.partyRand k) k (k + 2))
        pre p' ∧
      PartyReady p' (c.qs offline k).length (c.queries (k + 1)) (c.noiseQs offline k) ((c.qs offline k).map QTicket.next)
        (c.shuf k).forward (c.shuf k).backward ∧
      (∀ q ∈ c.qs offline k, PartyServes p'.queriesState q) ∧
      comm pre = c.commOff offline (k + 1) ∧ obsOf pre = c.obsOff offline (k + 1) ∧ ∃ a, pre = a ++ aSendReady k := by
    have e1 := downAct_mid c.parties (k + 1) (by omega) hk c.countB
    have e2 := upAct_mid c.parties (k + 1) (by omega) hk readyB
    have e3 := downAct_mid c.parties (k + 1) (by omega) hk c.cipherB
    rw [Nat.add_sub_cancel] at e1 e2 e3
    cases offline with
    | true =>
      obtain ⟨p', sc, h1, h2, h3, h4⟩ := party_offline h.good (by omega) p (c.partyRand k) k (k + 2) k (c.parties - k - 1) c.rows
        (c.seed k) (by omega) (by omega) hfr (h.division k) h.rowsp.1 h.rowsp.2 (c.tickets k)
        (by rw [← hm1]; exact t2) (tickets_nodup h (by omega)) (by rw [t1]; exact hq32)
        ((c.qs true k).map QTicket.next) (by rw [List.length_map, q1, t1]) (c.tickets (k + 1)) (by
          rw [tickets, t1]; rfl)
      rw [t1] at h1 h3
      refine ⟨p', _, h1, by rw [q1]; exact h3, fun q hq => h4 q (q3 rfl q hq), ?_, ?_, ?_⟩
      · simp only [comm_append, comm_aSendCount, comm_aRecvCount, comm_aRecvReady, comm_aSendReady, h2.comm, commOff, e1, e2, e3,
          if_true, comm_stores, List.nil_append, List.append_assoc]
        rw [comm_recvs k _ _ (fun t => t.cipher c.pkeys k) (by intro t; simp [aRecvCipher])]
        rfl
      · simp only [obsOf_append, h2.obs, obsOff, obsOf_stores]
        rw [obsOf_recvs _ _ (fun t => [.recvCipher (t.cipher c.pkeys k)]) (by intro t; simp [aRecvCipher]),
          ← List.map_eq_flatMap, if_neg (by omega), if_pos hk, if_true]
        simp [aRecvCount, aSendCount, aRecvReady, aSendReady, queries, noise_eq]
      · simp only [← List.append_assoc]
        exact ⟨_, rfl⟩
    | false =>
      obtain ⟨p', h1, h3, h4⟩ := party_simulated p (c.partyRand k) k (k + 2) k (c.parties - k - 1) c.rows (c.queries k) (c.parties - k)
        (c.seed k) (by omega) (by omega) hfr (h.division k) h.rowsp.1 h.rowsp.2 hq32
        ((c.qs false k).map QTicket.next) (by rw [List.length_map, q1])
      refine ⟨p', _, h1, by rw [q1]; exact h3, fun q hq => ?_, ?_, ?_, ?_⟩
      · obtain ⟨a1, a2, a3⟩ := q4 rfl q hq
        exact h4 q a1 a2 a3
      · simp only [comm_append, comm_aSendCount, comm_aRecvCount, comm_aRecvReady, comm_aSendReady, commOff, e1, e2,
          List.append_assoc]
        simp
        rfl
      · simp only [obsOf_append, obsOff]
        rw [if_neg (by omega), if_pos hk]
        simp [aRecvCount, aSendCount, aRecvReady, aSendReady, queries, noise_eq]
      · simp only [← List.append_assoc]
        exact ⟨_, rfl⟩
  obtain ⟨p', pre, h1, h2, h3, h4, h5, h6⟩ := hoff
  have hstart : ∀ post, Runs (if online then do
        let _ ← p'.startOnline k (k + 2)
        return ()
      else return ()) post () → Runs (c.prog offline online (k + 1)) (pre ++ post) () := by
    intro post hp
    rw [e]
    refine Runs.bind' (Runs.lift (database_new _)) (Runs.bind' (bs := pre ++ post) (Runs.lift hnew) ?_ rfl) rfl
    cases offline <;> exact Runs.bind h1 hp
  cases online with
  | true =>
    obtain ⟨p'', sq, sr, h7, h8, h9⟩ := party_online' p' k (k + 2) c.rows (c.parties - k - 1) (c.noiseQs offline k) (c.qs offline k)
      (c.queries (k + 1)) (c.shuf k).forward (c.shuf k).backward q5 h32 (isShuffler h hk) h2 h3 (by rw [← hm1]; exact q2)
      (c.qs offline (k + 1)) rfl
    refine ⟨pre, _, hstart _ (Runs.bind' h7 (Runs.done _) (List.append_nil _).symm), h4, ?_, h5, ?_, fun _ _ => h6, fun _ => ⟨by omega, fun _ _ => ⟨sq, sr, rfl, h8, h9⟩, by omega⟩⟩
    · simp only [comm_append, h8.comm, h9.comm]
      rw [comm_recvs k _ _ (fun q => q.query.encode) (by intro j; simp [aRecvQuery]),
        comm_recvs (k + 2) _ _ (fun q => q.resp.encode) (by intro j; simp [aRecvResponse]),
        commOn, if_pos rfl, downAct_mid _ _ (by omega) hk, upAct_mid _ _ (by omega) hk, List.append_assoc]
      rfl
    · simp only [obsOf_append, h8.obs, h9.obs]
      rw [obsOf_recvs _ _ (fun q => [.recvQuery q.query]) (by intro j; simp [aRecvQuery]),
        obsOf_recvs _ _ (fun q => [.recvResponse q.resp]) (by intro j; simp [aRecvResponse]), if_true, obsOn,
        if_neg (by omega), if_pos hk, ← List.map_eq_flatMap, ← List.map_eq_flatMap]
      rfl
  | false => exact ⟨pre, [], hstart [] (Runs.done _), h4, rfl, h5, rfl, fun _ _ => h6, fun h0 => by cases h0⟩

theorem backend_does {c : Chain box} (h : c.Valid) (offline online : Bool) :
    ∃ pre post, c.Does offline online c.parties pre post := by
  have hP := h.parties
  have hlen : c.pkeys.length = c.parties := by rw [h.keys]; simp
  have h32 := h.fits
  obtain ⟨k, hk⟩ : ∃ k, c.parties = k + 1 := ⟨c.parties - 1, by omega⟩
  have e : c.prog offline online c.parties = c.backend offline online := by
    unfold prog
    rw [if_neg (by omega), if_neg (by omega), if_pos rfl]
  have hk1 : c.parties - 1 = k := by omega
  rw [hk1] at h32
  obtain ⟨t1, t2, -⟩ := tickets_spec h k (by omega)
  obtain ⟨q1, q2, q3, q4⟩ := qs_spec h offline k (by omega)
  have hm1 : c.parties - k = 1 := by omega
  rw [hm1] at t2 q2 q4
  let db : Database := { size := c.rows, rows := (List.range c.rows).map Database.row }
  let b : Backend box := { db := db, pkey := c.pkey k, skey := c.skey k }
  have hnew : Backend.new c.parties (c.pkey (c.parties - 1)) (c.skey (c.parties - 1)) db = .ok b := by
    simp [Backend.new, assert, hP.1, hk1]
    rfl
  have hoff : ∃ b' pre, Runs (if offline then b.startOffline k else b.simulateOffline k) pre b' ∧
      b'.db = db ∧ b'.queries = Batch.initialize (c.qs offline k).length ⟨0, 0⟩ ∧
      (∀ q ∈ c.qs offline k, BackendServes b'.state q) ∧
      comm pre = c.commOff offline c.parties ∧ obsOf pre = c.obsOff offline c.parties ∧ ∃ a, pre = a ++ aSendReady k := by
    have e1 := downAct_last c.parties (by omega) c.countB
    have e2 := upAct_last c.parties (by omega) readyB
    have e3 := downAct_last c.parties (by omega) c.cipherB
    rw [hk1] at e1 e2 e3
    cases offline with
    | true =>
      obtain ⟨st, h1, h4⟩ := backend_offline h.good (by omega) (by omega) b rfl k (c.tickets k) t2 (tickets_nodup h (by omega))
        (by
          rw [hlen, hk1, h.keys, List.getElem?_map, List.getElem?_range (by omega)]
          rfl)
        (by
          rw [hlen, hk1, List.getElem?_map, List.getElem?_range (by omega)]
          rfl) (by rw [t1]; exact h32)
      rw [hlen, hk1] at h1
      refine ⟨_, _, h1, rfl, by rw [q1, ← t1], fun q hq => h4 q (q3 rfl q hq), ?_, ?_, ?_⟩
      · simp only [comm_append, comm_aRecvCount, comm_aSendReady, commOff, e1, e2, e3, if_true]
        rw [comm_recvs k _ _ (fun t => t.cipher c.pkeys k) (by intro t; simp [aRecvCipher]), t1]
        rfl
      · simp only [obsOf_append, obsOff]
        rw [obsOf_recvs _ _ (fun t => [.recvCipher (t.cipher c.pkeys k), .store t.head]) (by intro t; simp [aRecvCipher]),
          if_neg (by omega), if_neg (by omega), if_true, if_true, hk1, t1]
        simp [aRecvCount, aSendReady]
      · simp only [← List.append_assoc]
        exact ⟨_, rfl⟩
    | false =>
      obtain ⟨st, h1, h4⟩ := backend_simulated b rfl k (c.queries k) 1 h32
      refine ⟨_, _, h1, rfl, by rw [q1], fun q hq => ?_, ?_, ?_, ⟨_, rfl⟩⟩
      · obtain ⟨a1, a2, a3⟩ := q4 rfl q hq
        exact h4 q a2 a3
      · simp only [comm_append, comm_aRecvCount, comm_aSendReady, commOff, e1, e2]
        simp
        rfl
      · simp only [obsOf_append, obsOff]
        rw [if_neg (by omega), if_neg (by omega), if_true, hk1]
        simp [aRecvCount, aSendReady]
  obtain ⟨b', pre, h1, h2, h2', h3, h4, h5, h6⟩ := hoff
  have hstart : ∀ post, Runs (if online then do
        let _ ← b'.startOnline k c.junk
        return ()
      else return ()) post () → Runs (c.prog offline online c.parties) (pre ++ post) () := by
    intro post hp
    rw [e]
    refine Runs.bind' (Runs.lift (database_new _)) (Runs.bind' (bs := pre ++ post) (Runs.lift hnew) ?_ rfl) rfl
    rw [hk1]
    cases offline <;> exact Runs.bind h1 hp
  have h6' : 1 ≤ c.parties → c.parties ≤ c.parties → ∃ a, pre = a ++ aSendReady (c.parties - 1) := by
    rw [hk1]
    exact fun _ _ => h6
  cases online with
  | true =>
    obtain ⟨b'', sr, h7, h8⟩ := backend_online b' k c.junk (c.qs offline k) c.rows h2 h2' (by rw [q1]; exact h32) q2 h3
    refine ⟨pre, _, hstart _ (Runs.bind' h7 (Runs.done _) (List.append_nil _).symm), h4, ?_, h5, ?_, h6', fun _ => ⟨by omega, by omega, fun _ => ⟨sr, by rw [hk1], by rw [hk1]; exact h8⟩⟩⟩
    · simp only [comm_append, h8.comm]
      rw [comm_recvs k _ _ (fun q => q.query.encode) (by intro j; simp [aRecvQuery]),
        commOn, if_pos rfl, downAct_last _ (by omega), upAct_last _ (by omega), hk1]
      rfl
    · simp only [obsOf_append, h8.obs]
      rw [obsOf_recvs _ _ (fun q => [.recvQuery q.query]) (by intro j; simp [aRecvQuery]), if_true, obsOn,
        if_neg (by omega), if_neg (by omega), if_pos rfl, ← List.map_eq_flatMap, hk1]
  | false => exact ⟨pre, [], hstart [] (Runs.done _), h4, rfl, h5, rfl, h6', fun h0 => by cases h0⟩

theorem proc_does {c : Chain box} (h : c.Valid) (offline online : Bool) (i : Nat) :
    ∃ pre post, c.Does offline online i pre post ∧ (c.parties < i → pre ++ post = []) := by
  have hP := h.parties
  rcases Nat.lt_trichotomy i c.parties with hi | hi | hi
  · rcases Nat.eq_zero_or_pos i with h0 | h0
    · rw [h0]
      obtain ⟨a, b, h⟩ := client_does h offline online
      exact ⟨a, b, h, by omega⟩
    · obtain ⟨k, rfl⟩ : ∃ k, i = k + 1 := ⟨i - 1, by omega⟩
      obtain ⟨a, b, h⟩ := party_does h offline online k hi
      exact ⟨a, b, h, by omega⟩
  · rw [hi]
    obtain ⟨a, b, h⟩ := backend_does h offline online
    exact ⟨a, b, h, by omega⟩
  · refine ⟨[], [], ⟨?_, ?_, ?_, ?_, ?_, by omega, fun _ => ⟨by omega, by omega, by omega⟩⟩, fun _ => rfl⟩
    · unfold prog
      rw [if_neg (by omega), if_neg (by omega), if_neg (by omega)]
      exact Runs.done _
    · unfold commOff downAct upAct
      repeat rw [if_neg (show ¬ (1 ≤ i ∧ i ≤ c.parties) by omega), if_neg (show ¬ i < c.parties by omega)]
      simp
    · unfold commOn downAct upAct
      repeat rw [if_neg (show ¬ (1 ≤ i ∧ i ≤ c.parties) by omega), if_neg (show ¬ i < c.parties by omega)]
      simp
    · unfold obsOff
      rw [if_neg (by omega), if_neg (by omega), if_neg (by omega)]
      rfl
    · unfold obsOn
      rw [if_neg (show ¬ i = 0 by omega), if_neg (show ¬ i < c.parties by omega), if_neg (show ¬ i = c.parties by omega)]
      simp

/-- The global script. -/
def script (c : Chain box) (offline online : Bool) : List (Nat × Nat × Byte) :=
  (down c.parties c.countB ++ (up c.parties readyB ++
    if offline then down c.parties c.cipherB ++ up c.parties readyB else [])) ++
  if online then down c.parties (c.queryB offline) ++ up c.parties (c.respB offline) else []

theorem proj_script (c : Chain box) (offline online : Bool) (i : Nat) :
    Net.proj i (c.script offline online) = c.commOff offline i ++ c.commOn offline online i := by
  unfold script commOff commOn
  cases offline <;> cases online <;> simp [proj_append, proj_down, proj_up]

theorem script_adjacent (c : Chain box) (offline online : Bool) (g : Nat × Nat × Byte) (h : g ∈ c.script offline online) :
    (g.2.1 = g.1 + 1 ∧ g.1 < c.parties) ∨ (g.1 = g.2.1 + 1 ∧ g.2.1 < c.parties) := by
  unfold script at h
  simp only [List.mem_append] at h
  rcases h with (h | h | h) | h
  · exact .inl (mem_down h)
  · exact .inr (mem_up h)
  · split at h
    · rcases List.mem_append.1 h with h | h
      · exact .inl (mem_down h)
      · exact .inr (mem_up h)
    · simp at h
  · split at h
    · rcases List.mem_append.1 h with h | h
      · exact .inl (mem_down h)
      · exact .inr (mem_up h)
    · simp at h

/-- What every process observes in a complete run. -/
def obsAll (c : Chain box) (offline online : Bool) (i : Nat) : List Obs :=
  c.obsOff offline i ++ if online then c.obsOn offline i else []

/-- There is a complete run. -/
theorem complete_run {c : Chain box} (h : c.Valid) (offline online : Bool) (cap : Nat × Nat → Nat) (hcap : ∀ x, 0 < cap x) :
    ∃ s t, (c.net offline online).run cap s = some t ∧ (∀ i, t.Finished i) ∧ (∀ x, t.chan x = []) ∧
      ∀ i, t.seen i = c.obsAll offline online i := by
  choose pre post hd hout using proc_does h offline online
  obtain ⟨s, t, h1, h2, h3, h4⟩ := Net.script_run (cap := cap) (List.range (c.parties + 1)) (c.script offline online)
    (by
      intro g hg
      refine ⟨?_, hcap _⟩
      rcases c.script_adjacent offline online g hg with h | h <;> omega)
    (c.net offline online) (fun _ => rfl) (fun i => pre i ++ post i)
    (by
      intro i hi
      simp only [List.mem_range] at hi
      exact hout i (by omega)) (fun i => (hd i).runs) (by
      intro i
      rw [proj_script, ← (hd i).commPre, ← (hd i).commPost, ← comm_append])
  refine ⟨s, t, h1, h2, h3, ?_⟩
  intro i
  rw [h4]
  show [] ++ _ = _
  rw [List.nil_append, obsOf_append, (hd i).obsPre, (hd i).obsPost]
  rfl

end Chain

end DPPIR.Protocol
