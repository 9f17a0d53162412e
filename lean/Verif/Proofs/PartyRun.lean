import Verif.Proofs.PartyOnline

/-!
# A party's two stages
-/

namespace DPPIR.Protocol
open DPPIR Proc Onion Incremental Additive Spec Props Shuffle CipherBatch

variable {box : SealedBox} {ι : Type}

/-- The elements of `l` at the places `is`. -/
def pick {α : Type} (is : List Nat) (l : List α) : List α := is.filterMap (fun i => l[i]?)

theorem pick_map {α β : Type} (is : List Nat) (l : List α) (f : α → β) : pick is (l.map f) = (pick is l).map f := by
  induction is with
  | nil => rfl
  | cons i is ih =>
    unfold pick at *
    rw [List.filterMap_cons, List.filterMap_cons, List.getElem?_map]
    rw [ih]
    cases l[i]? <;> rfl

theorem pick_eq_getD {α : Type} (is : List Nat) (l : List α) (d : α) (h : ∀ i ∈ is, i < l.length) :
    pick is l = is.map (fun i => l.getD i d) := by
  induction is with
  | nil => rfl
  | cons i is ih =>
    have hi := h i List.mem_cons_self
    unfold pick at *
    rw [List.filterMap_cons, List.getElem?_eq_getElem hi, ih (fun j hj => h j (List.mem_cons_of_mem _ hj)), List.map_cons,
      List.getD_eq_getElem _ _ hi]

theorem pick_range {α : Type} (l : List α) : pick (List.range l.length) l = l := by
  induction l with
  | nil => rfl
  | cons a l ih =>
    rw [List.length_cons, List.range_succ_eq_map]
    unfold pick at *
    rw [List.filterMap_cons, List.getElem?_cons_zero, List.filterMap_map]
    simp only
    congr 1

theorem pick_perm {α : Type} {is : List Nat} {l : List α} (h : is.Perm (List.range l.length)) : (pick is l).Perm l := by
  have := h.filterMap (fun i => l[i]?)
  exact this.trans (by rw [show List.filterMap (fun i => l[i]?) (List.range l.length) = l from pick_range l])

/-- The shuffler of a party over `n` elements. -/
def shufOf (rand : RandGen) (seed : Int) (n : Nat) : LocalShuffler :=
  match (LocalShuffler.new seed).initialize rand n with
  | .ok s => s
  | .error _ => LocalShuffler.new seed

theorem initialize_seed (rand : RandGen) (s : LocalShuffler) (n : Nat) :
    s.initialize rand n = (LocalShuffler.new s.seed).initialize rand n := rfl

theorem shufOf_ok (rand : RandGen) (s : LocalShuffler) (seed : Int) (hs : s.seed = seed) (n : Nat) (hn : n < 2 ^ 32) :
    s.initialize rand n = .ok (shufOf rand seed n) ∧ (shufOf rand seed n).seed = seed ∧
      IsShuffler (shufOf rand seed n).forward (shufOf rand seed n).backward n := by
  obtain ⟨s', h1, h2, h3, -, h4, h5⟩ := initialize_spec rand (LocalShuffler.new seed) n hn
  have e : shufOf rand seed n = s' := by unfold shufOf; rw [h1]
  rw [e, initialize_seed, hs]
  exact ⟨h1, h2, h3, h4, h5⟩

/-- A party ready for the online stage. -/
structure PartyReady (p : Party box) (N M : Nat) (NQ rest : List QTicket) (F B : List Nat) : Prop where
  forward : p.shuffler.forward = F
  backward : p.shuffler.backward = B
  tags : p.tags = Batch.initialize N 0
  input : p.inputCount = N
  shuffled : p.shuffledCount = M
  noise : p.noiseCount = NQ.length
  queries : ∃ ptr, p.queries = { ptr := ptr, capacity := M, right := 0 } ∧ Placed F (NQ ++ rest) ptr NQ.length

theorem party_online' (p : Party box) (back next : ι) (rows m : Nat) (NQ Q : List QTicket) (M : Nat) (F B : List Nat)
    (hM : (NQ ++ Q.map QTicket.next).length = M) (h32 : M < 2 ^ 32) (hF : IsShuffler F B M)
    (hp : PartyReady p Q.length M NQ (Q.map QTicket.next) F B)
    (hs : ∀ q ∈ Q, PartyServes p.queriesState q) (hQ : ∀ q ∈ Q, q.Good rows (m + 1)) (Q' : List QTicket)
    (hQ' : Q' = pick B (NQ ++ Q.map QTicket.next)) :
    ∃ p' sq sr, Runs (p.startOnline back next)
      (Q.flatMap (fun q => aRecvQuery back q.query) ++ (sq ++ (Q'.flatMap (fun q => aRecvResponse next q.resp) ++ sr))) p' ∧
      Sends next sq (Q'.flatMap (fun q => q.query.encode)) (Q'.map (fun q => .sendQuery q.query)) ∧
      Sends back sr (Q.flatMap (fun q => q.resp.encode)) (Q.map (fun q => .sendResponse q.resp)) := by
  obtain ⟨ptr, h1, h2⟩ := hp.queries
  refine party_online p back next rows m NQ Q M F B hM h32 hF hp.forward hp.backward hs hQ hp.tags hp.input hp.shuffled
    hp.noise ptr h1 h2 Q' ?_
  rw [hQ']
  apply pick_eq_getD
  intro i hi
  have := hF.permB.mem_iff.1 hi
  rw [List.mem_range] at this
  omega

/-- A party before it starts. -/
structure PartyFresh (p : Party box) (k rows : Nat) (seed : Int) (pkeys : List box.PKey) (skeys : List box.SKey) : Prop where
  id : p.partyId = k
  server : p.serverId = 0
  servers : p.serverCount = 1
  count : p.partyCount = pkeys.length
  db : p.db.size = rows
  seed : p.shuffler.seed = seed
  keys : p.pkeys = pkeys
  pkey : pkeys[k]? = some p.pkey
  skey : skeys[k]? = some p.skey
  state : p.queriesState = {}
  short : p.ciphers.shortSize = cipherSize (pkeys.length - k - 1)
  long : p.ciphers.longSize = cipherSize (pkeys.length - k)

/-- The noise queries of a party, given their secrets. -/
def noiseQ (keys : List Nat) (tag : Nat → BitVec 64) (shares : Nat → List Share) (pres : Nat → List Preshare) : List QTicket :=
  keys.mapIdx (fun i key => QTicket.fresh (tag i) key (shares i) (pres i))

theorem noiseQ_length (keys : List Nat) (tag shares pres) : (noiseQ keys tag shares pres).length = keys.length := by
  simp [noiseQ]

theorem noiseQ_get (keys : List Nat) (tag shares pres) (i : Nat) (hi : i < keys.length) :
    (noiseQ keys tag shares pres)[i]? = some (QTicket.fresh (tag i) keys[i] (shares i) (pres i)) := by
  simp [noiseQ, hi]

theorem noiseReady_noiseQ {ns : ClientState} (keys : List Nat) (tag shares pres)
    (h : NoiseReady ns keys.length tag shares) :
    NoiseReady ns (noiseQ keys tag shares pres).length
      (fun i => ((noiseQ keys tag shares pres).getD i QTicket.zero).tag)
      (fun i => ((noiseQ keys tag shares pres).getD i QTicket.zero).shares) := by
  rw [noiseQ_length]
  have e : ∀ j, j < keys.length → (noiseQ keys tag shares pres).getD j QTicket.zero =
      QTicket.fresh (tag j) (keys.getD j 0) (shares j) (pres j) := by
    intro j hj
    rw [List.getD_eq_getElem?_getD, noiseQ_get _ _ _ _ _ hj, List.getD_eq_getElem _ _ hj]
    rfl
  refine ⟨h.read, ?_, ?_⟩
  · intro j hj
    rw [h.tags j hj, e j hj]
    rfl
  · intro j hj
    rw [h.shares j hj, e j hj]
    rfl

section
variable (sample : Nat → BitVec 32) (rows m : Nat) (tag : Nat → BitVec 64) (shares : Nat → List Share) (pres : Nat → List Preshare)

theorem noiseQ_good (hrows : rows ≤ Spec.p) (hm : 0 < m) (hs : ∀ i, ∀ s ∈ shares i, IsShare s)
    (hsl : ∀ i, (shares i).length = m) (hpl : ∀ i, (pres i).length = m) :
    (∀ (i : Nat) key q, (noiseQ (noiseKeys sample rows) tag shares pres)[i]? = some q → (noiseKeys sample rows)[i]? = some key →
      generateIncrementalTally (BitVec.ofNat 32 key) q.shares = .ok q.tally) ∧
    ∀ q ∈ noiseQ (noiseKeys sample rows) tag shares pres, q.Good rows m := by
  have key : ∀ (i key : Nat), (noiseKeys sample rows)[i]? = some key →
      generateIncrementalTally (BitVec.ofNat 32 key) (shares i) = .ok (QTicket.fresh (tag i) key (shares i) (pres i)).tally ∧
      (QTicket.fresh (tag i) key (shares i) (pres i)).Good rows m := by
    intro i key hk
    have hlt := noiseKeys_lt sample rows key (List.mem_of_getElem? hk)
    have := QTicket.fresh_ok (tag i) key (shares i) (pres i) (hs i) (by
      intro e
      have := hsl i
      rw [e] at this
      simp at this
      omega) rows hlt hrows (by rw [hpl, hsl])
    rw [hsl] at this
    exact this
  constructor
  · intro i k q hq hk
    have hi := (List.getElem?_eq_some_iff.1 hk)
    obtain ⟨hi, rfl⟩ := hi
    rw [noiseQ_get _ _ _ _ _ hi] at hq
    obtain rfl := Option.some.inj hq
    exact (key i _ hk).1
  · intro q hq
    obtain ⟨i, hi⟩ := List.mem_iff_getElem?.1 hq
    have hil : i < (noiseKeys sample rows).length := by
      have := (List.getElem?_eq_some_iff.1 hi).1
      rwa [noiseQ_length] at this
    rw [noiseQ_get _ _ _ _ _ hil] at hi
    obtain rfl := Option.some.inj hi
    exact (key i _ (List.getElem?_eq_getElem hil)).2

end

section
variable {pkeys : List box.PKey} {skeys : List box.SKey}

/-- The noise queries of a party in a run with the offline stage. -/
def realNQ (rand : PartyRand box) (rows m N : Nat) : List QTicket :=
  noiseQ (noiseKeys rand.sample rows) (noiseTag N) (fun i => preIncrementalSecretShares (rand.secret i).shares m)
    (fun i => (List.range m).map (rand.secret i).preshares)

/-- The noise tickets of a party. -/
def realNT (rand : PartyRand box) (rows m N : Nat) : List (Ticket box) :=
  (List.range (sampleSum rand.sample rows)).map (noiseT rand m N)

/-- The fields of a party that stay the same after the counts are known. -/
structure PartyCore (p : Party box) (k rows n N : Nat) (seed : Int) (sample : Nat → BitVec 32) (pkeys : List box.PKey)
    (skeys : List box.SKey) : Prop where
  id : p.partyId = k
  count : p.partyCount = pkeys.length
  seed : p.shuffler.seed = seed
  keys : p.pkeys = pkeys
  pkey : pkeys[k]? = some p.pkey
  skey : skeys[k]? = some p.skey
  input : p.inputCount = N
  shuffled : p.shuffledCount = N + n
  noise : p.noiseCount = n
  samples : p.noise.ptr = (List.range rows).map (fun i => (sample i).toNat)
  start : p.noiseStart = 0
  stop : p.noiseEnd = rows

/-- The first steps of both offline stages. -/
theorem party_begin (p : Party box) (rand : PartyRand box) (back next : ι) (k rows n N : Nat) (seed : Int)
    (hfr : PartyFresh p k rows seed pkeys skeys) (hrnd : Noise.IsDivRounding rand.rnd)
    (hr0 : 0 < rows) (hr : rows < 2 ^ 32) (hn : sampleSum rand.sample rows = n) (h32 : N + n < 2 ^ 32) :
    ∃ p1 p2, p.initializeNoiseSamples rand = .ok p1 ∧
      Runs (p1.initializeCounts back next) (aRecvCount back N ++ aSendCount next (N + n)) p2 ∧
      PartyCore p2 k rows n N seed rand.sample pkeys skeys ∧ p2.queriesState = {} ∧
      p2.ciphers.shortSize = cipherSize (pkeys.length - k - 1) ∧ p2.ciphers.longSize = cipherSize (pkeys.length - k) := by
  subst hn
  have s1 := noiseSamples_ok p rand rows hrnd hfr.server hfr.servers hfr.db hr0 hr (by omega)
  refine ⟨_, _, s1, counts_ok _ back next N h32, ?_, hfr.state, hfr.short, hfr.long⟩
  exact ⟨hfr.id, hfr.count, hfr.seed, hfr.keys, hfr.pkey, hfr.skey, rfl, rfl, rfl, rfl, rfl, rfl⟩

/-- Initialising the shuffler. -/
theorem core_shuffler {p : Party box} {rand : PartyRand box} {k rows n N : Nat} {seed : Int}
    (c : PartyCore p k rows n N seed rand.sample pkeys skeys) (h32 : N + n < 2 ^ 32) :
    ∃ p', p.initializeShuffler rand = .ok p' ∧ PartyCore p' k rows n N seed rand.sample pkeys skeys ∧
      p'.queriesState = p.queriesState ∧ p'.noiseState = p.noiseState ∧ p'.ciphers = p.ciphers ∧
      p'.shuffler = shufOf rand.rand seed (N + n) := by
  obtain ⟨h1, h2, -⟩ := shufOf_ok rand.rand p.shuffler seed c.seed (N + n) h32
  refine ⟨{ p with shuffler := shufOf rand.rand seed (N + n) }, ?_, ?_, rfl, rfl, rfl, rfl⟩
  · unfold Party.initializeShuffler
    rw [c.shuffled, h1, bind_ok]
  · exact ⟨c.id, c.count, h2, c.keys, c.pkey, c.skey, c.input, c.shuffled, c.noise, c.samples, c.start, c.stop⟩

/-- Preparing the online stage. -/
theorem core_prepare {p : Party box} {rand : PartyRand box} {k rows n N : Nat} {seed : Int}
    (c : PartyCore p k rows n N seed rand.sample pkeys skeys) (hn : sampleSum rand.sample rows = n) (h32 : N + n < 2 ^ 32)
    (hsh : p.shuffler = shufOf rand.rand seed (N + n)) (m : Nat) (hm : 0 < m)
    (hr : rows ≤ Spec.p) (tag : Nat → BitVec 64) (shares : Nat → List Share) (pres : Nat → List Preshare)
    (hs : ∀ i, ∀ s ∈ shares i, IsShare s) (hsl : ∀ i, (shares i).length = m) (hpl : ∀ i, (pres i).length = m)
    (hready : NoiseReady p.noiseState n tag shares) (rest : List QTicket) (hrest : rest.length = N) :
    ∃ p', p.prepareOnline = .ok p' ∧ p'.queriesState = p.queriesState ∧
      PartyReady p' N (N + n) (noiseQ (noiseKeys rand.sample rows) tag shares pres) rest
        (shufOf rand.rand seed (N + n)).forward (shufOf rand.rand seed (N + n)).backward := by
  have hperm := (shufOf_ok rand.rand p.shuffler seed c.seed (N + n) h32).2.2
  have hNQl : (noiseQ (noiseKeys rand.sample rows) tag shares pres).length = n := by
    rw [noiseQ_length, noiseKeys_length, hn]
  have hng := noiseQ_good rand.sample rows m tag shares pres hr hm hs hsl hpl
  have hnr := noiseReady_noiseQ (ns := p.noiseState) (noiseKeys rand.sample rows) tag shares pres
    (by rw [noiseKeys_length, hn]; exact hready)
  obtain ⟨ptr, ns', s10, hpl⟩ := prepareOnline_ok p p.noiseState rand.sample rows
    (noiseQ (noiseKeys rand.sample rows) tag shares pres) rest (N + n)
    (shufOf rand.rand seed (N + n)).backward hnr rfl (by rw [hNQl, hn]) (by omega)
    (by rw [List.length_append, hNQl, hrest, Nat.add_comm]) c.shuffled (by rw [hsh]; exact hperm) hng.1 c.samples c.start c.stop
  refine ⟨_, s10, rfl, ⟨?_, ?_, ?_, c.input, c.shuffled, c.noise.trans hNQl.symm, ptr, rfl, ?_⟩⟩
  · simp only; rw [hsh]
  · simp only; rw [hsh]
  · simp only; rw [c.input]
  · rw [hsh] at hpl; exact hpl

theorem core_states {p : Party box} {k rows n N m : Nat} {seed : Int} {sample : Nat → BitVec 32}
    (c : PartyCore p k rows n N seed sample pkeys skeys) (hkm : k + m + 1 = pkeys.length)
    (q : p.queriesState = {}) (hS : p.ciphers.shortSize = cipherSize (pkeys.length - k - 1))
    (hL : p.ciphers.longSize = cipherSize (pkeys.length - k)) :
    ∃ p', { p with
        queriesState := p.queriesState.initialize false
        noiseState := p.noiseState.initialize (p.partyCount - p.partyId - 1) p.noiseCount true false } = p' ∧
      PartyCore p' k rows n N seed sample pkeys skeys ∧ p'.queriesState = {} ∧
      p'.noiseState = p.noiseState.initialize m n true false ∧ p'.ciphers.shortSize = cipherSize m ∧
      p'.ciphers.longSize = cipherSize (m + 1) := by
  refine ⟨_, rfl, ⟨c.id, c.count, c.seed, c.keys, c.pkey, c.skey, c.input, c.shuffled, c.noise, c.samples, c.start, c.stop⟩,
    ?_, ?_, ?_, ?_⟩
  · simp only
    rw [q]
    rfl
  · simp only
    rw [c.count, c.id, c.noise, show pkeys.length - k - 1 = m by omega]
  · simp only
    rw [hS, show pkeys.length - k - 1 = m by omega]
  · simp only
    rw [hL, show pkeys.length - k = m + 1 by omega]

theorem core_create (hgood : GoodKeys box pkeys skeys) (hp : pkeys.length ≤ 255) {p : Party box} {rand : PartyRand box}
    {k rows n N m : Nat} {seed : Int} (c : PartyCore p k rows n N seed rand.sample pkeys skeys) (s0 : ClientState)
    (hkm : k + m + 1 = pkeys.length) (hn32 : n < 2 ^ 32) (q : p.queriesState = {})
    (hns : p.noiseState = s0.initialize m n true false)
    (hS : p.ciphers.shortSize = cipherSize m) (hL : p.ciphers.longSize = cipherSize (m + 1)) :
    ∃ p', p.createNoiseCiphers rand = .ok p' ∧ PartyCore p' k rows n N seed rand.sample pkeys skeys ∧ p'.queriesState = {} ∧
      NoiseReady p'.noiseState n (noiseTag N) (fun i => preIncrementalSecretShares (rand.secret i).shares m) ∧
      p'.ciphers.Holds ((List.range n).map (fun i => (noiseT rand m N i).cipher pkeys (k + 1))) [] ∧
      p'.ciphers.shortSize = cipherSize m ∧ p'.ciphers.longSize = cipherSize (m + 1) ∧
      p'.ciphers.mem.length = p'.ciphers.firstLong + N * cipherSize (m + 1) := by
  obtain ⟨b, h1, h2, h3, h4, h5, h6⟩ := createNoiseCiphers_ok hgood hp p rand s0 n N k m
    c.keys c.count c.id hkm c.noise c.input hn32 hns hS hL
  refine ⟨_, h1, ⟨c.id, c.count, c.seed, c.keys, c.pkey, c.skey, c.input, c.shuffled, c.noise, c.samples, c.start, c.stop⟩,
    q, noiseState_ready _ _ _ _ hn32, h2, h3, h4, ?_⟩
  simp only
  rw [h5, h6]

theorem core_collect (hgood : GoodKeys box pkeys skeys) (hp : pkeys.length ≤ 255) {p : Party box}
    {k rows n N m : Nat} {seed : Int} {sample : Nat → BitVec 32} (c : PartyCore p k rows n N seed sample pkeys skeys) (back : ι)
    (hkm : k + m + 1 = pkeys.length) (T : List (Ticket box)) (hT : ∀ t ∈ T, t.Good (m + 1)) (hN : T.length = N)
    (shorts : List (List Byte)) (hb : p.ciphers.Holds shorts [])
    (hS : p.ciphers.shortSize = cipherSize m) (hL : p.ciphers.longSize = cipherSize (m + 1))
    (hmem : p.ciphers.mem.length = p.ciphers.firstLong + N * cipherSize (m + 1)) :
    ∃ p', Runs (p.collectCiphers back) (T.flatMap (fun t => aRecvCipher back (t.cipher pkeys k))) p' ∧
      PartyCore p' k rows n N seed sample pkeys skeys ∧ p'.queriesState = p.queriesState ∧ p'.noiseState = p.noiseState ∧
      p'.ciphers.Holds shorts (T.map (fun t => t.cipher pkeys k)) ∧
      p'.ciphers.shortSize = cipherSize m ∧ p'.ciphers.longSize = cipherSize (m + 1) := by
  subst hN
  obtain ⟨b, h1, h2, h3, h4, h5⟩ := collectCiphers_ok hgood hp p back k m hkm T hT shorts hb hL hmem c.input
  exact ⟨_, h1, ⟨c.id, c.count, c.seed, c.keys, c.pkey, c.skey, c.input, c.shuffled, c.noise, c.samples, c.start, c.stop⟩,
    rfl, rfl, h2, h3.trans hS, h4.trans hL⟩

theorem core_install (hgood : GoodKeys box pkeys skeys) (hp : pkeys.length ≤ 255) {p : Party box}
    {k rows n N m : Nat} {seed : Int} {sample : Nat → BitVec 32} (c : PartyCore p k rows n N seed sample pkeys skeys)
    (hkm : k + m + 1 = pkeys.length) (T : List (Ticket box)) (hT : ∀ t ∈ T, t.Good (m + 1)) (hnd : (T.map Ticket.tag).Nodup)
    (shorts : List (List Byte)) (hb : p.ciphers.Holds shorts (T.map (fun t => t.cipher pkeys k)))
    (hS : p.ciphers.shortSize = cipherSize m) (hL : p.ciphers.longSize = cipherSize (m + 1)) (q : p.queriesState = {}) :
    ∃ p' it, Runs (p.installSecrets : Prog ι _) (T.map (fun t => Act.obs (Obs.store t.head))) p' ∧
      PartyCore p' k rows n N seed sample pkeys skeys ∧
      p'.queriesState = { simulated := false, secrets := T.map (fun t => OfflineSecret.entry t.head), it := it } ∧
      p'.noiseState = p.noiseState ∧ p'.shuffler = p.shuffler ∧
      p'.ciphers.Holds (shorts ++ T.map (fun t => t.next.cipher pkeys (k + 1))) [] ∧ p'.ciphers.shortSize = cipherSize m := by
  have hLpos : 0 < cipherSize (m + 1) := Nat.mul_pos (by decide) (by omega)
  obtain ⟨b, it, h1, h2, h2S, -⟩ := installLoop_ok (ι := ι) hgood hp k m hkm T p (p.ciphers.lastLong - p.ciphers.firstLong)
    shorts hT c.id c.count c.pkey c.skey hb hS hL
    (by
      rw [hb.lastLong, hL, List.length_map, Nat.add_sub_cancel_left]
      exact Nat.le_mul_of_pos_right _ hLpos)
    (by intro t _; rw [q]; rfl) hnd
  refine ⟨_, it, h1, ⟨c.id, c.count, c.seed, c.keys, c.pkey, c.skey, c.input, c.shuffled, c.noise, c.samples, c.start, c.stop⟩,
    ?_, rfl, rfl, h2, h2S⟩
  simp only
  rw [q]
  rfl

theorem core_send {p : Party box} {k rows n N m : Nat} {seed : Int} {sample : Nat → BitVec 32}
    (c : PartyCore p k rows n N seed sample pkeys skeys) (next : ι) (all T' : List (Ticket box))
    (hb : p.ciphers.Holds (all.map (fun t => t.cipher pkeys (k + 1))) []) (hlen : all.length = N + n)
    (hperm : p.shuffler.forward.Perm (List.range (N + n)))
    (hT' : T' = pick p.shuffler.forward all) (hz : 0 < p.ciphers.shortSize) (hz2 : p.ciphers.shortSize ≤ Sockets.bufferSize) :
    ∃ p' sc, Runs (p.sendCiphers next) sc p' ∧
      Sends next sc (T'.flatMap (fun t => t.cipher pkeys (k + 1))) (T'.map (fun t => .sendCipher (t.cipher pkeys (k + 1)))) ∧
      PartyCore p' k rows n N seed sample pkeys skeys ∧ p'.queriesState = p.queriesState ∧ p'.noiseState = p.noiseState := by
  have hl : (all.map (fun t => t.cipher pkeys (k + 1))).length = N + n := by rw [List.length_map, hlen]
  obtain ⟨sc, h1, h2⟩ := sendCiphers_ok p next _ hb (c.shuffled.trans hl.symm) (by rw [hl]; exact hperm) hz hz2
  have hacts : p.shuffler.forward.map (fun i => (all.map (fun t => t.cipher pkeys (k + 1))).getD i []) =
      T'.map (fun t => t.cipher pkeys (k + 1)) := by
    rw [hT']
    have e2 := pick_map p.shuffler.forward all (fun t => t.cipher pkeys (k + 1))
    rw [pick_eq_getD _ _ [] (by
      intro i hi
      rw [hl]
      exact List.mem_range.1 (hperm.mem_iff.1 hi))] at e2
    exact e2
  refine ⟨_, sc, h1, ⟨?_, ?_, h2.ordered⟩, ⟨c.id, c.count, c.seed, c.keys, c.pkey, c.skey, c.input, c.shuffled, c.noise, c.samples, c.start, c.stop⟩,
    rfl, rfl⟩
  · rw [h2.comm, List.flatMap_def, List.flatMap_def, hacts]
  · rw [h2.obs]
    have := congrArg (List.map Obs.sendCipher) hacts
    rwa [List.map_map, List.map_map] at this

/-- Offline stage of a party. -/
theorem party_offline (hgood : GoodKeys box pkeys skeys) (hp : pkeys.length ≤ 255) (p : Party box) (rand : PartyRand box)
    (back next : ι) (k m rows : Nat) (seed : Int) (hkm : k + m + 1 = pkeys.length) (hm : 0 < m)
    (hfr : PartyFresh p k rows seed pkeys skeys) (hrnd : Noise.IsDivRounding rand.rnd)
    (hr0 : 0 < rows) (hr : rows ≤ Spec.p)
    (T : List (Ticket box)) (hT : ∀ t ∈ T, t.Good (m + 1)) (hnd : (T.map Ticket.tag).Nodup)
    (h32 : T.length + sampleSum rand.sample rows < 2 ^ 32) (rest : List QTicket) (hrest : rest.length = T.length)
    (T' : List (Ticket box))
    (hT' : T' = pick (shufOf rand.rand seed (T.length + sampleSum rand.sample rows)).forward
      (realNT rand rows m T.length ++ T.map Ticket.next)) :
    ∃ p' sc, Runs (p.startOffline rand back next)
        (aRecvCount back T.length ++ aSendCount next (T.length + sampleSum rand.sample rows) ++ (aRecvReady next ++ (aSendReady back ++
          (T.flatMap (fun t => aRecvCipher back (t.cipher pkeys k)) ++ (T.map (fun t => .obs (.store t.head)) ++
            (sc ++ (aRecvReady next ++ aSendReady back))))))) p' ∧
      Sends next sc (T'.flatMap (fun t => t.cipher pkeys (k + 1))) (T'.map (fun t => .sendCipher (t.cipher pkeys (k + 1)))) ∧
      PartyReady p' T.length (T.length + sampleSum rand.sample rows) (realNQ rand rows m T.length) rest
        (shufOf rand.rand seed (T.length + sampleSum rand.sample rows)).forward
        (shufOf rand.rand seed (T.length + sampleSum rand.sample rows)).backward ∧
      ∀ q : QTicket, (∃ t ∈ T, t.tag = q.tag ∧ t.shares = q.shares ∧ t.pres = q.pres) → PartyServes p'.queriesState q := by
  have hp32 : Spec.p < 2 ^ 32 := by decide
  generalize hn : sampleSum rand.sample rows = n at *
  generalize hN : T.length = N at *
  obtain ⟨p1, p2, s1, s2, c2, q2, hS2, hL2⟩ := party_begin p rand back next k rows n N seed hfr hrnd hr0 (by omega) hn h32
  have hperm := (shufOf_ok rand.rand p2.shuffler seed c2.seed (N + n) h32).2.2
  obtain ⟨p3, e3, c3, q3, n3, hS3, hL3⟩ := core_states c2 hkm q2 hS2 hL2
  obtain ⟨p4, s4, c4, q4, n4, b4, hS4, hL4, hm4⟩ := core_create hgood hp c3 p2.noiseState hkm (by omega) q3 n3 hS3 hL3
  obtain ⟨p5, s5, c5, q5, n5, b5, hS5, hL5⟩ := core_collect hgood hp c4 back hkm T hT hN _ b4 hS4 hL4 hm4
  obtain ⟨p6, s6, c6, q6, n6, b6, f6⟩ := core_shuffler c5 h32
  obtain ⟨p7, it, s7, c7, q7, n7, f7, b7, hS7⟩ := core_install (ι := ι) hgood hp c6 hkm T hT hnd _ (by rw [b6]; exact b5)
    (by rw [b6]; exact hS5) (by rw [b6]; exact hL5) (by rw [q6, q5, q4])
  obtain ⟨p8, sc, s8, sd, c8, q8, n8⟩ := core_send (m := m) c7 next (realNT rand rows m N ++ T.map Ticket.next) T' (by
      rw [List.map_append, List.map_map]
      unfold realNT
      rw [List.map_map, hn]
      exact b7) (by
      rw [List.length_append, realNT, List.length_map, List.length_map, List.length_range, hn, hN, Nat.add_comm])
    (by rw [f7, f6]; exact hperm.perm) (by rw [f7, f6]; exact hT') (by rw [hS7]; exact Nat.mul_pos (by decide) hm)
    (by rw [hS7]; simp only [cipherSize, secretSize, sealBytes, Sockets.bufferSize]; omega)
  obtain ⟨p9, s9, c9, q9, n9, -, f9⟩ := core_shuffler c8 h32
  obtain ⟨p10, s10, q10, r10⟩ := core_prepare c9 hn h32 f9 m hm hr (noiseTag N)
    (fun i => preIncrementalSecretShares (rand.secret i).shares m) (fun i => (List.range m).map (rand.secret i).preshares)
    (fun i => preShares_valid _ _) (fun i => preShares_length _ _) (fun i => by simp)
    (by rw [n9, n8, n7, n6, n5]; exact n4) rest hrest
  refine ⟨p10, sc, ?_, sd, r10, ?_⟩
  · refine Runs.bind' (Runs.lift s1) (Runs.bind s2 ?_) (List.nil_append _).symm
    simp only
    rw [e3]
    refine Runs.bind' (Runs.lift s4) (Runs.bind (runs_waitForReady next) (Runs.bind (runs_sendReady back) (Runs.bind s5
      (Runs.bind' (Runs.lift s6) (Runs.bind (a := p7) s7 (Runs.bind s8 (Runs.bind' (Runs.lift s9) (Runs.bind' (Runs.lift s10) (Runs.bind
        (runs_waitForReady next) (Runs.bind' (runs_sendReady back) (Runs.done _) (List.append_nil _).symm))
        (List.nil_append _).symm) (List.nil_append _).symm))) (List.nil_append _).symm)))) (List.nil_append _).symm
  · intro q hq
    rw [q10, q9, q8, q7]
    exact serves_of_secrets T hnd it q hq

/-- The noise queries of a party in a run without the offline stage. -/
def simNQ (rand : PartyRand box) (rows m : Nat) : List QTicket :=
  noiseQ (noiseKeys rand.sample rows) (fun _ => 0) (fun _ => List.replicate m ⟨0, 1⟩) (fun _ => List.replicate m (fun _ => 0))

/-- Simulated offline stage of a party. -/
theorem party_simulated (p : Party box) (rand : PartyRand box)
    (back next : ι) (k m rows N M' : Nat) (seed : Int) (hkm : k + m + 1 = pkeys.length) (hm : 0 < m)
    (hfr : PartyFresh p k rows seed pkeys skeys) (hrnd : Noise.IsDivRounding rand.rnd)
    (hr0 : 0 < rows) (hr : rows ≤ Spec.p)
    (h32 : N + sampleSum rand.sample rows < 2 ^ 32) (rest : List QTicket) (hrest : rest.length = N) :
    ∃ p', Runs (p.simulateOffline rand back next)
        (aRecvCount back N ++ aSendCount next (N + sampleSum rand.sample rows) ++ (aRecvReady next ++ aSendReady back)) p' ∧
      PartyReady p' N (N + sampleSum rand.sample rows) (simNQ rand rows m) rest
        (shufOf rand.rand seed (N + sampleSum rand.sample rows)).forward
        (shufOf rand.rand seed (N + sampleSum rand.sample rows)).backward ∧
      ∀ q : QTicket, q.tag = 0 → q.shares = List.replicate M' ⟨0, 1⟩ → q.pres = List.replicate M' (fun _ => 0) →
        PartyServes p'.queriesState q := by
  have hp32 : Spec.p < 2 ^ 32 := by decide
  generalize hn : sampleSum rand.sample rows = n at *
  have hms : pkeys.length - k - 1 = m := by omega
  obtain ⟨p1, p2, s1, s2, c2, q2, -, -⟩ := party_begin p rand back next k rows n N seed hfr hrnd hr0 (by omega) hn h32
  obtain ⟨p3, s3, c3, q3, -, -, f3⟩ := core_shuffler c2 h32
  rw [q2] at q3
  have c4 : PartyCore { p3 with
      queriesState := p3.queriesState.initialize true
      noiseState := p3.noiseState.initialize (p3.partyCount - p3.partyId - 1) p3.noiseCount true true }
      k rows n N seed rand.sample pkeys skeys :=
    ⟨c3.id, c3.count, c3.seed, c3.keys, c3.pkey, c3.skey, c3.input, c3.shuffled, c3.noise, c3.samples, c3.start, c3.stop⟩
  obtain ⟨p5, s5, q5, r5⟩ := core_prepare c4 hn h32 f3 m hm hr (fun _ => 0) (fun _ => List.replicate m ⟨0, 1⟩)
    (fun _ => List.replicate m (fun _ => 0)) (by
      intro i s hs
      rw [List.eq_of_mem_replicate hs]
      exact isShare_id) (by simp) (by simp) (by
      simp only
      rw [c3.count, c3.id, hms, c3.noise]
      exact ⟨rfl, fun j hj => rfl, fun j hj => rfl⟩) rest hrest
  refine ⟨p5, ?_, r5, ?_⟩
  · exact Runs.bind' (Runs.lift s1) (Runs.bind s2 (Runs.bind' (Runs.lift s3) (Runs.bind' (Runs.lift s5) (Runs.bind
        (runs_waitForReady next) (Runs.bind' (runs_sendReady back) (Runs.done _) (List.append_nil _).symm))
        (List.nil_append _).symm) (List.nil_append _).symm)) (List.nil_append _).symm
  · intro q h1 h2 h3
    rw [q5]
    simp only
    rw [q3]
    constructor
    · rw [h1]; rfl
    · rw [h2, headD_replicate]; rfl
    · rw [h3, headD_replicate]; rfl

end

end DPPIR.Protocol
