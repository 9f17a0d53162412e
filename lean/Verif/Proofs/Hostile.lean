import Verif.Proofs.Install
import Verif.Proofs.ChainRun
import Verif.Spec.Hostile

/-!
# How processes stop among arbitrary peers
-/

namespace DPPIR.Protocol
open DPPIR Proc Onion Incremental Additive Shuffle

variable {box : SealedBox} {ι α β : Type}

/-- Stops by a failed assertion, an exception, or when `B` holds of the record. -/
def Stop (B : List Obs → Prop) (h : List Obs) (e : Fault) : Prop := e = .assertFail ∨ e = .exception ∨ B h

/-- Any call is allowed. -/
def Any (_ : List Obs) (_ : Obs) : Prop := True

theorem any_blamed {B : List Obs → Prop} (p : Prog ι α) (h : List Obs) (hB : ∀ t, B (h ++ t)) :
    Safe Any (Stop B) p (fun _ _ => True) h := by
  induction p generalizing h with
  | done a => trivial
  | fault e => exact Or.inr (Or.inr (by simpa using hB []))
  | send d b k ih => exact ih h hB
  | recv s k ih => exact fun b => ih b h hB
  | obs o k ih => exact ⟨trivial, ih _ (fun t => by simpa using hB (o :: t))⟩

theorem safe_ok {I : List Obs → Obs → Prop} {F : List Obs → Fault → Prop} {r : Res α} {a : α} (hr : r = .ok a) {f : α → Prog ι β}
    {Q : β → List Obs → Prop} {h : List Obs} (hs : Safe I F (f a) Q h) : Safe I F ((lift r).bind f) Q h := by
  rw [hr]
  exact hs

/-- The second record has the same stores and no fewer queries. -/
structure Keeps (h h' : List Obs) : Prop where
  stores : stores h' = stores h
  reads : ∀ q ∈ queriesRead h, q ∈ queriesRead h'

theorem Keeps.refl (h : List Obs) : Keeps h h := ⟨rfl, fun _ h => h⟩
theorem Keeps.trans {a b c : List Obs} (h : Keeps a b) (h' : Keeps b c) : Keeps a c :=
  ⟨h'.stores.trans h.stores, fun q hq => h'.reads q (h.reads q hq)⟩

theorem queriesRead_append (a b : List Obs) : queriesRead (a ++ b) = queriesRead a ++ queriesRead b := List.filterMap_append ..

theorem Keeps.obs (h : List Obs) {o : Obs} (ho : ∀ s, o ≠ .store s) : Keeps h (h ++ [o]) := by
  refine ⟨?_, fun q hq => ?_⟩
  · rw [stores_append]
    cases o <;> first | exact List.append_nil _ | exact absurd rfl (ho _)
  · rw [queriesRead_append]
    exact List.mem_append_left _ hq

section ops
variable {B : List Obs → Prop} {h : List Obs}

theorem readCount_safe (src : ι) :
    Safe Any (Stop B) (readCount src) (fun n h' => n < 2 ^ 32 ∧ Keeps h h' ∧ countsRead h' = countsRead h ++ [BitVec.ofNat 32 n]) h := by
  refine Safe.bind (Safe.recvBytes _ (fun l _ => ⟨trivial, ?_⟩))
  refine ⟨BitVec.isLt _, Keeps.obs h (by simp), ?_⟩
  rw [BitVec.ofNat_toNat, BitVec.setWidth_eq]
  exact List.filterMap_append ..

theorem sendCount_safe (dst : ι) (n : Nat) : Safe Any (Stop B) (sendCount dst n) (fun _ h' => h' = h ++ [.sendCount (BitVec.ofNat 32 n)]) h :=
  ⟨trivial, Safe.sendBytes rfl⟩

theorem sendReady_safe (dst : ι) : Safe Any (Stop B) (sendReady dst) (fun _ h' => h' = h ++ [.sendReady]) h :=
  ⟨trivial, Safe.sendBytes rfl⟩

theorem waitForReady_safe (src : ι) : Safe Any (Stop B) (waitForReady src) (fun _ h' => h' = h ++ [.recvReady]) h := by
  refine Safe.bind (Safe.recvBytes _ (fun l _ => ?_))
  refine Safe.bind (Safe.lift (fun _ _ => ⟨trivial, rfl⟩) (fun e he => Or.inl ?_))
  unfold assert at he
  split at he
  · cases he
  · exact (Except.error.inj he).symm

theorem push_safe (d : ι) (unit : Nat) (h0 : 0 < unit) (hu : unit ≤ Sockets.bufferSize) (w : WBuf) (hw : w.Room unit) (c : List Byte) :
    Safe Any (Stop B) (pushBuffered d unit w c) (fun w' h' => w'.Room unit ∧ h' = h) h := by
  unfold pushBuffered
  unfold WBuf.Room at hw
  rw [if_pos hw]
  split
  · exact Safe.bind (Safe.sendBytes ⟨WBuf.room_empty h0 hu, rfl⟩)
  · refine ⟨?_, rfl⟩
    show _ < _
    simp only
    omega

theorem sendQuery_safe (d : ι) (q : Query) (w : WBuf) (hw : w.Room querySize) :
    Safe Any (Stop B) (sendQuery d q w) (fun w' h' => w'.Room querySize ∧ h' = h ++ [.sendQuery q]) h :=
  ⟨trivial, push_safe d _ (by decide) (by decide) w hw _⟩

theorem sendResponse_safe (d : ι) (r : Response) (w : WBuf) (hw : w.Room responseSize) :
    Safe Any (Stop B) (sendResponse d r w) (fun w' h' => w'.Room responseSize ∧ h' = h ++ [.sendResponse r]) h :=
  ⟨trivial, push_safe d _ (by decide) (by decide) w hw _⟩

theorem recvQuery_safe (s : ι) : Safe Any (Stop B) (recvQuery s) (fun q h' => h' = h ++ [.recvQuery q]) h :=
  Safe.bind (Safe.recvBytes _ (fun _ _ => ⟨trivial, rfl⟩))

theorem recvResponse_safe (s : ι) : Safe Any (Stop B) (recvResponse s) (fun r h' => h' = h ++ [.recvResponse r]) h :=
  Safe.bind (Safe.recvBytes _ (fun _ _ => ⟨trivial, rfl⟩))

theorem recvCipher_safe (s : ι) (n : Nat) :
    Safe Any (Stop B) (recvCipher s n) (fun c h' => c.length = n ∧ h' = h ++ [.recvCipher c]) h :=
  Safe.bind (Safe.recvBytes _ (fun _ hl => ⟨trivial, hl, rfl⟩))

/-- A run without reads does not depend on the others. -/
theorem runs_safe {p : Prog ι α} {as : List (PAct ι)} {a : α} (hr : Runs p as a) (d : ι) (bytes : List Byte)
    (hc : comm as = bytes.map (Act.send d)) : Safe Any (Stop B) p (fun a' h' => a' = a ∧ h' = h ++ obsOf as) h := by
  induction hr generalizing h bytes with
  | done a => exact ⟨rfl, (List.append_nil _).symm⟩
  | @send d' b k as a hk ih =>
    cases bytes with
    | nil => cases hc
    | cons x bytes => exact ih bytes (List.cons.inj hc).2
  | @recv s k b as a hk ih =>
    cases bytes with
    | nil => cases hc
    | cons x bytes => exact absurd (List.cons.inj hc).1 (by simp)
  | @obs o k as a hk ih =>
    refine ⟨trivial, (ih (h := h ++ [o]) bytes hc).mono ?_⟩
    rintro a' h' ⟨rfl, rfl⟩
    exact ⟨rfl, by rw [obsOf_obs]; simp⟩

end ops

/-! ### The party -/

/-- What stops a party other than a failed assertion or an exception. -/
def PartyBlame (noise : Nat) (offline : Bool) (h : List Obs) : Prop := TooMany noise h ∨ (offline = true ∧ UnknownTag h)

/-- A tag the state has no secret for is one the record has no store of. -/
def Knows (st : PartyState) (offline : Bool) (h : List Obs) : Prop :=
  ∀ tag, st.secrets.lookup (if st.simulated then 0 else tag) = none → offline = true ∧ tag ∉ (stores h).map OfflineSecret.tag

theorem Knows.keeps {st : PartyState} {offline : Bool} {h h' : List Obs} (hk : Knows st offline h) (hh : Keeps h h') : Knows st offline h' := by
  intro tag ht
  rw [hh.stores]
  exact hk tag ht

section party
variable {noise : Nat} {offline : Bool}

theorem collectCiphers_safe {B : List Obs → Prop} (p : Party box) (back : ι) (h : List Obs) (shorts : List (List Byte))
    (hb : p.ciphers.Holds shorts []) (hroom : p.ciphers.mem.length = p.ciphers.firstLong + p.inputCount * p.ciphers.longSize) :
    Safe Any (Stop B) (p.collectCiphers back) (fun p' h' => Keeps h h' ∧ ∃ b rest, p' = { p with ciphers := b } ∧
      b.Holds shorts rest ∧ rest.length = p.inputCount ∧ b.shortSize = p.ciphers.shortSize ∧ b.longSize = p.ciphers.longSize ∧
      b.firstLong = p.ciphers.firstLong) h := by
  have := Safe.loop (I := Any) (F := Stop B) (f := Party.collectCipher (box := box) back)
    (fun j q h' => Keeps h h' ∧ ∃ b rest, q = { p with ciphers := b } ∧ b.Holds shorts rest ∧ rest.length = j ∧
      b.shortSize = p.ciphers.shortSize ∧ b.longSize = p.ciphers.longSize ∧
      b.firstLong = p.ciphers.firstLong ∧ b.mem.length = b.firstLong + p.inputCount * b.longSize) p.inputCount 0 p h
    ⟨Keeps.refl h, p.ciphers, [], rfl, hb, rfl, rfl, rfl, rfl, hroom⟩ (by
      rintro j q h' - hj ⟨a1, b, rest, rfl, a3, a4, a5, a6, a8, a7⟩
      refine Safe.bind' (recvCipher_safe back _) ?_
      rintro c h'' ⟨c1, rfl⟩
      obtain ⟨mem, g1, g2, g3⟩ := a3.pushLong c c1 (by
          rw [a3.lastLong, a4, a7]
          have : (j + 1) * b.longSize ≤ p.inputCount * b.longSize := Nat.mul_le_mul_right _ (by omega)
          have e : (j + 1) * b.longSize = j * b.longSize + b.longSize := by ring
          omega)
      show Safe _ _ ((lift (b.pushLong c)).bind _) _ _
      rw [g1]
      refine ⟨a1.trans (Keeps.obs _ (by simp)), _, rest ++ [c], rfl, g3, by simp [a4], a5, a6, a8, ?_⟩
      show mem.length = _
      rw [g2, a7])
  rw [Nat.zero_add] at this
  exact this.mono (fun p' h' ⟨h1, b, rest, h2, h3, h4, h5, h6, h7, _⟩ => ⟨h1, b, rest, h2, h3, h4, h5, h6, h7⟩)

theorem installLoop_safe {B : List Obs → Prop} (m fuel : Nat) : ∀ (p : Party box) (h : List Obs) (shorts rest : List (List Byte)),
    p.ciphers.Holds shorts rest → rest.length ≤ fuel → p.partyCount - p.partyId = m + 1 →
    p.ciphers.shortSize = cipherSize m → p.ciphers.longSize = cipherSize (m + 1) →
    p.queriesState.simulated = false → p.queriesState.secrets.map Prod.fst = (stores h).map OfflineSecret.tag →
    Safe Any (Stop B) (Party.installLoop fuel p : Prog ι _) (fun p' h' => ∃ b st shorts', p' = { p with
        ciphers := b
        queriesState := st } ∧ b.Holds shorts' [] ∧ shorts'.length = shorts.length + rest.length ∧ b.shortSize = cipherSize m ∧
        st.simulated = false ∧ st.secrets.map Prod.fst = (stores h').map OfflineSecret.tag ∧ countsRead h' = countsRead h ∧
        (rest = [] → b = p.ciphers)) h := by
  induction fuel with
  | zero =>
    intro p h shorts rest hb hf hid hS hL hsim hkeys
    obtain rfl : rest = [] := List.length_eq_zero_iff.1 (by omega)
    unfold Party.installLoop
    rw [hb.empty]
    exact ⟨p.ciphers, p.queriesState, shorts, rfl, hb, rfl, hS, hsim, hkeys, rfl, fun _ => rfl⟩
  | succ fuel ih =>
    intro p h shorts rest hb hf hid hS hL hsim hkeys
    unfold Party.installLoop
    cases rest with
    | nil =>
      rw [hb.empty]
      exact ⟨p.ciphers, p.queriesState, shorts, rfl, hb, rfl, hS, hsim, hkeys, rfl, fun _ => rfl⟩
    | cons v rest =>
      obtain ⟨g1, ⟨tail, g2⟩, g3⟩ := hb.popLong
      have hlong : p.ciphers.longSize = (secretSize + sealBytes) * m + (secretSize + sealBytes) := by
        rw [hL]; rfl
      have hshort : p.ciphers.shortSize = (secretSize + sealBytes) * m := by
        rw [hS]; rfl
      have hv := hb.longLen v List.mem_cons_self
      rw [g1, if_pos (decide_eq_true (by rw [hlong]; simp [secretSize, sealBytes]))]
      simp only
      have hdec : onionDecrypt box p.ciphers.popLong.1 (p.partyCount - p.partyId) p.pkey p.skey =
          match box.openMsg p.pkey p.skey v with | none => .error .assertFail | some plain => .ok ⟨plain⟩ := by
        unfold onionDecrypt
        have hsz : v.length = cipherSize (p.partyCount - p.partyId) := by rw [hv, hL, hid]
        simp only
        rw [if_neg (by rw [← hsz, hv]; omega), g2, slice_zero hsz, bind_ok]
        rfl
      rw [hdec]
      cases hopen : box.openMsg p.pkey p.skey v with
      | none => exact Or.inl rfl
      | some plain =>
        have hplain := box.open_length _ _ _ _ hopen
        have hmsg : (OnionLayer.mk plain).msg = .ok (OfflineSecret.decode (plain.take secretSize)) := by
          unfold OnionLayer.msg
          rw [slice_ok (by simp only; omega)]
          rfl
        show Safe _ _ ((lift (OnionLayer.mk plain).msg).bind _) _ _
        rw [hmsg]
        generalize OfflineSecret.decode (plain.take secretSize) = msg
        refine ⟨trivial, ?_⟩
        show Safe _ _ ((lift (p.queriesState.store _)).bind _) _ _
        unfold PartyState.store
        cases hlk : p.queriesState.secrets.lookup msg.tag with
        | some _ => exact Or.inl rfl
        | none =>
          obtain ⟨mem, c1, -, c3⟩ := g3.pushShort (plain.drop secretSize) [] (by
              show _ = p.ciphers.shortSize
              rw [List.length_drop]
              omega) (by
            have := hb.room
            show p.ciphers.lastShort + p.ciphers.shortSize ≤ p.ciphers.firstLong + p.ciphers.longSize
            omega)
          rw [List.append_nil] at c1
          show Safe _ _ ((lift (CipherBatch.pushShort _ (plain.drop secretSize))).bind _) _ _
          rw [c1]
          refine (ih { p with
              ciphers := { p.ciphers.popLong.2 with
                mem := mem
                lastShort := p.ciphers.popLong.2.lastShort + p.ciphers.popLong.2.shortSize }
              queriesState := { p.queriesState with
                secrets := p.queriesState.secrets ++ [(msg.tag, ⟨msg.nextTag, msg.share, msg.preshare⟩)]
                it := none } } (h ++ [.store msg]) (shorts ++ [plain.drop secretSize]) rest c3 (by simp at hf; omega) hid hS hL hsim ?_).mono ?_
          · rw [stores_append, List.map_append, List.map_append, hkeys]
            rfl
          · rintro p' h' ⟨b, st, shorts', h1, h2, h3, h4, h5, h6, h7, -⟩
            refine ⟨b, st, shorts', h1, h2, ?_, h4, h5, h6, ?_, by simp⟩
            · rw [h3]; simp; omega
            · rw [h7]
              exact (List.filterMap_append ..).trans (List.append_nil _)

theorem sendCiphers_safe {B : List Obs → Prop} (p : Party box) (next : ι) (h : List Obs) (shorts : List (List Byte)) (hb : p.ciphers.Holds shorts [])
    (hs : p.shuffledCount = shorts.length) (hf : p.shuffler.forward.Perm (List.range shorts.length))
    (hz : 0 < p.ciphers.shortSize) (hz2 : p.ciphers.shortSize ≤ Sockets.bufferSize) :
    Safe Any (Stop B) (p.sendCiphers next) (fun p' h' => Keeps h h' ∧ p' = { p with
        shuffler := p.shuffler.finishForward
        ciphers := p.ciphers.free }) h := by
  obtain ⟨sc, h1, h2⟩ := sendCiphers_ok p next shorts hb hs hf hz hz2
  refine (runs_safe h1 next _ h2.comm).mono ?_
  rintro p' h' ⟨rfl, rfl⟩
  refine ⟨?_, rfl⟩
  rw [h2.obs]
  generalize p.shuffler.forward = l
  refine ⟨?_, fun q hq => by rw [queriesRead_append]; exact List.mem_append_left _ hq⟩
  rw [stores_append]
  refine (congrArg _ ?_).trans (List.append_nil _)
  unfold stores
  rw [List.filterMap_eq_nil_iff]
  intro o ho
  obtain ⟨i, -, rfl⟩ := List.mem_map.1 ho
  rfl

/-! ### Online -/

/-- The fields of a party in the online stage. -/
structure Mid (p : Party box) (N n : Nat) (F B : List Nat) : Prop where
  forward : p.shuffler.forward = F
  backward : p.shuffler.backward = B
  input : p.inputCount = N
  shuffled : p.shuffledCount = N + n
  noise : p.noiseCount = n
  tags : p.tags.ptr.length = N

theorem handleQuery_known {p : Party box} {q : Query} {target : Nat} {e : PartySecret}
    (hl : p.queriesState.secrets.lookup (if p.queriesState.simulated then 0 else q.tag) = some e) (ht : target < p.queries.ptr.length) :
    p.handleQuery q target = .ok { p with
      queriesState := p.queriesState.loadSecret q.tag
      queries := { p.queries with ptr := p.queries.ptr.set target ⟨e.nextTag, incrementalReconstruct q.tally e.incremental⟩ } } := by
  unfold Party.handleQuery PartyState.getNextTag PartyState.getIncremental
  have : (p.queriesState.loadSecret q.tag).it = some e := hl
  simp only [this, deref, bind_ok, Batch.set, wr_ok ht]

theorem collectQueries_safe {B : List Obs → Prop} (p : Party box) (back : ι) (h : List Obs) (N n : Nat) (F Bw : List Nat)
    (hp : Mid p N n F Bw) (hF : IsShuffler F Bw (N + n)) (h32 : N + n < 2 ^ 32)
    (hr : p.tags.right = 0) (hq : p.queries.ptr.length = N + n) (hqc : p.queries.capacity = N + n)
    (hk : Knows p.queriesState offline h) (hB : ∀ h', offline = true → UnknownTag h' → B h') :
    Safe Any (Stop B) (p.collectQueries back) (fun p' h' => Mid p' N n F Bw ∧ p'.queries.ptr.length = N + n ∧ p'.queries.capacity = N + n) h := by
  have := Safe.loop (I := Any) (F := Stop B) (f := Party.collectQuery (box := box) back)
    (fun j (q : Party box) h' => Mid q N n F Bw ∧ q.tags.right = j - n ∧ q.queries.ptr.length = N + n ∧ q.queries.capacity = N + n ∧
      Knows q.queriesState offline h') (p.shuffledCount - p.noiseCount) p.noiseCount p h
    ⟨hp, by rw [hr, hp.noise, Nat.sub_self], hq, hqc, hk⟩ (by
      rintro j q h' hj hj' ⟨a1, a2, a3, a4, a5⟩
      rw [hp.noise] at hj hj'
      rw [hp.shuffled] at hj'
      refine Safe.bind' (recvQuery_safe back) ?_
      rintro x h'' rfl
      obtain ⟨tags', htag, ht1, ht2⟩ : ∃ tags', q.tags.pushBack x.tag = .ok tags' ∧ tags'.ptr.length = N ∧ tags'.right = j - n + 1 := by
        unfold Batch.pushBack
        rw [wr_ok (by rw [a1.tags]; omega), bind_ok, wrap32_of_lt (by omega), a2]
        exact ⟨_, rfl, by simp [a1.tags], rfl⟩
      have htgt : ∃ t, q.shuffler.shuffle j = .ok t ∧ t < N + n := by
        obtain ⟨t, h1, h2⟩ := hF.get (i := j) (by omega)
        exact ⟨t, by unfold LocalShuffler.shuffle; rw [a1.forward, rd_eq_ok, h1], h2⟩
      obtain ⟨t, ht, htl⟩ := htgt
      show Safe _ _ ((lift (q.tags.pushBack x.tag)).bind _) _ _
      rw [htag]
      show Safe _ _ ((lift (q.shuffler.shuffle j)).bind _) _ _
      rw [ht]
      show Safe _ _ (lift (Party.handleQuery _ x t)) _ _
      have hk' := a5.keeps (Keeps.obs h' (o := .recvQuery x) (by simp))
      cases hl : q.queriesState.secrets.lookup (if q.queriesState.simulated then 0 else x.tag) with
      | none =>
        obtain ⟨h1, h2⟩ := hk' _ hl
        refine Safe.lift (fun a ha => ?_) (fun e _ => Or.inr (Or.inr (hB _ h1 ⟨x, ?_, h2⟩)))
        · exfalso
          unfold Party.handleQuery PartyState.getNextTag at ha
          have : (q.queriesState.loadSecret x.tag).it = none := hl
          simp only [this] at ha
          cases ha
        · rw [queriesRead_append]
          exact List.mem_append_right _ (List.mem_singleton.2 rfl)
      | some e =>
        rw [handleQuery_known (p := { q with tags := tags' }) hl (by rw [a3]; exact htl)]
        refine ⟨⟨a1.forward, a1.backward, a1.input, a1.shuffled, a1.noise, ht1⟩, ?_, ?_, a4, hk'⟩
        · show tags'.right = _
          omega
        · simp [a3])
  exact this.mono (fun p' h' hh => ⟨hh.1, hh.2.2.1, hh.2.2.2.1⟩)

theorem sendQueries_safe {B : List Obs → Prop} (p : Party box) (next : ι) (h : List Obs) (N n : Nat) (F Bw : List Nat)
    (hp : Mid p N n F Bw) (hq : p.queries.ptr.length = N + n) (hqc : p.queries.capacity = N + n) :
    Safe Any (Stop B) (p.sendQueries next) (fun p' _ => ∃ F', Mid p' N n F' Bw) h := by
  unfold Party.sendQueries Batch.elements
  rw [slice_ok (by omega)]
  refine Safe.bind (Safe.lift (fun l _ => ?_) (fun e he => by cases he))
  refine Safe.bind' (Safe.each (fun w _ => WBuf.Room w querySize) _ _ _ (WBuf.room_empty (by decide) (by decide)) ?_) ?_
  · intro q w h hw
    exact (sendQuery_safe next q w hw).mono (fun _ _ h => h.1)
  · intro w h' _
    exact Safe.bind (Safe.sendBytes ⟨_, rfl, hp.backward, hp.input, hp.shuffled, hp.noise, hp.tags⟩)

theorem collectResponses_safe {B : List Obs → Prop} (p : Party box) (next : ι) (h : List Obs) (N n : Nat) (F F' Bw : List Nat)
    (hp : Mid p N n F' Bw) (hF : IsShuffler F Bw (N + n)) :
    Safe Any (Stop B) (p.collectResponses next) (fun p' _ => p'.responses.ptr.length = N ∧ p'.responses.capacity = N) h := by
  refine Safe.bind' (Safe.loop (I := Any) (F := Stop B) (f := Party.collectResponse (box := box) next)
    (fun _ (q : Party box) _ => Mid q N n F' Bw ∧ q.responses.ptr.length = N ∧ q.responses.capacity = N) _ 0 _ h ?_ ?_) ?_
  · exact ⟨⟨hp.forward, hp.backward, hp.input, hp.shuffled, hp.noise, hp.tags⟩, by simp [Batch.initialize, hp.input], hp.input⟩
  · rintro j q h' - hj ⟨a1, a2, a3⟩
    rw [Nat.zero_add, show ({ p with responses := Batch.initialize p.inputCount ⟨0, fun _ => 0⟩ } : Party box).shuffledCount = _ from hp.shuffled] at hj
    refine Safe.bind' (recvResponse_safe next) ?_
    rintro r h'' rfl
    obtain ⟨i, -, h2, h3⟩ := hF.getB hj
    have hd : q.shuffler.deshuffle j = .ok i := by unfold LocalShuffler.deshuffle; rw [a1.backward, rd_eq_ok, h2]
    show Safe _ _ ((lift (q.shuffler.deshuffle j)).bind _) _ _
    rw [hd]
    show Safe _ _ (if i ≥ q.noiseCount then _ else _) _ _
    rw [a1.noise]
    split
    · rename_i hi
      have hin : i - n < N := by omega
      have ht : q.tags.get (i - n) = .ok (q.tags.ptr[i - n]'(by rw [a1.tags]; exact hin)) := rd_ok _
      show Safe _ _ ((lift (q.tags.get (i - n))).bind _) _ _
      rw [ht]
      generalize q.tags.ptr[i - n]'(by rw [a1.tags]; exact hin) = tag
      show Safe _ _ (lift (q.handleResponse tag r (i - n))) _ _
      unfold Party.handleResponse PartyState.getPreshare
      cases hl : q.queriesState.secrets.lookup (if q.queriesState.simulated then 0 else tag) with
      | none => exact Or.inr (Or.inl rfl)
      | some e =>
        simp only [bind_ok]
        have hg : q.responses.get (i - n) = .ok (q.responses.ptr[i - n]'(by rw [a2]; exact hin)) := rd_ok _
        rw [hg, bind_ok, additiveReconstructInto_ok, bind_ok]
        unfold Batch.set
        rw [wr_ok (by rw [a2]; exact hin), bind_ok, bind_ok]
        exact ⟨⟨a1.forward, a1.backward, a1.input, a1.shuffled, a1.noise, a1.tags⟩, by simp [a2], a3⟩
    · exact ⟨a1, a2, a3⟩
  · rintro q h' ⟨-, h1, h2⟩
    exact ⟨h1, h2⟩

theorem sendResponses_safe {B : List Obs → Prop} (p : Party box) (back : ι) (h : List Obs) (N : Nat)
    (hr : p.responses.ptr.length = N) (hc : p.responses.capacity = N) :
    Safe Any (Stop B) (p.sendResponses back) (fun _ _ => True) h := by
  unfold Party.sendResponses Batch.elements
  rw [slice_ok (by omega)]
  refine Safe.bind (Safe.lift (fun l _ => ?_) (fun e he => by cases he))
  refine Safe.bind' (Safe.each (fun w _ => WBuf.Room w responseSize) _ _ _ (WBuf.room_empty (by decide) (by decide)) ?_) ?_
  · intro q w h hw
    exact (sendResponse_safe back q w hw).mono (fun _ _ h => h.1)
  · intro w h' _
    exact Safe.bind (Safe.sendBytes trivial)

theorem party_online_safe {B : List Obs → Prop} (p : Party box) (back next : ι) (h : List Obs) (N n : Nat) (NQ rest : List QTicket) (F Bw : List Nat)
    (hp : PartyReady p N (N + n) NQ rest F Bw) (hn : NQ.length = n) (hrest : rest.length = N) (hF : IsShuffler F Bw (N + n)) (h32 : N + n < 2 ^ 32)
    (hk : Knows p.queriesState offline h) (hB : ∀ h', offline = true → UnknownTag h' → B h') :
    Safe Any (Stop B) (p.startOnline back next) (fun _ _ => True) h := by
  obtain ⟨ptr, hq, hpl⟩ := hp.queries
  have hlen : ptr.length = N + n := by rw [hpl.length, List.length_append, hn, hrest, Nat.add_comm]
  have hmid : Mid p N n F Bw := ⟨hp.forward, hp.backward, hp.input, hp.shuffled, hp.noise.trans hn, by rw [hp.tags]; simp [Batch.initialize]⟩
  refine Safe.bind' (collectQueries_safe p back h N n F Bw hmid hF h32 (by rw [hp.tags]; rfl) (by rw [hq]; exact hlen) (by rw [hq]) hk hB) ?_
  rintro p1 h1 ⟨m1, m2, m3⟩
  refine Safe.bind' (sendQueries_safe p1 next h1 N n F Bw m1 m2 m3) ?_
  rintro p2 h2 ⟨F', m4⟩
  refine Safe.bind' (collectResponses_safe p2 next h2 N n F F' Bw m4 hF) ?_
  rintro p3 h3 ⟨m5, m6⟩
  exact sendResponses_safe p3 back h3 N m5 m6

end party

end DPPIR.Protocol
