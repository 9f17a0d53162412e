import Verif.Proofs.ParallelOffline

/-!
# The two stages of the servers of parallel parties
-/

namespace DPPIR.Protocol
open DPPIR Proc PNet Onion Incremental Additive Spec Props Shuffle CipherBatch

variable {box : SealedBox} {ι : Type}

theorem cipherSize_pos {m : Nat} (hm : 0 < m) : 0 < cipherSize m := Nat.mul_pos (by decide) hm

theorem cipherSize_le {m : Nat} (hm : m ≤ 255) : cipherSize m ≤ Sockets.bufferSize := by
  simp only [cipherSize, secretSize, sealBytes, Sockets.bufferSize]
  omega

/-- The secret that a party broadcasts for an entry of its map. -/
def secretOf (s : BitVec 64 × PartySecret) : OfflineSecret := ⟨s.1, s.2.nextTag, s.2.incremental, s.2.preshare⟩
/-- The same at the backend. -/
def secretOfB (s : BitVec 64 × BackendSecret) : OfflineSecret := ⟨s.1, 0, s.2.incremental, s.2.preshare⟩

theorem serves_of_mem (s : PartyState) (hsim : s.simulated = false) (hnd : (s.secrets.map Prod.fst).Nodup) (t : Ticket box)
    (ht : OfflineSecret.entry t.head ∈ s.secrets) (q : QTicket) (e1 : t.tag = q.tag) (e2 : t.shares = q.shares) (e3 : t.pres = q.pres) :
    PartyServes s q := by
  have hl := lookup_of_nodup hnd (k := t.tag) (v := (⟨t.tag, t.shares.headD ⟨0, 1⟩, t.pres.headD (fun _ => 0)⟩ : PartySecret)) ht
  rw [e1, e2, e3] at hl
  constructor <;> simp [PartyState.loadSecret, PartyState.getNextTag, PartyState.getIncremental, PartyState.getPreshare, hl, deref, hsim]

theorem backendServes_of_mem (s : BackendState) (hsim : s.simulated = false) (hnd : (s.secrets.map Prod.fst).Nodup) (t : Ticket box)
    (ht : OfflineSecret.entryB t.head ∈ s.secrets) (q : QTicket) (e1 : t.tag = q.tag) (e2 : t.shares = q.shares) (e3 : t.pres = q.pres) :
    BackendServes s q := by
  have hl := lookup_of_nodup hnd (k := t.tag) (v := (⟨t.shares.headD ⟨0, 1⟩, t.pres.headD (fun _ => 0)⟩ : BackendSecret)) ht
  rw [e1, e2, e3] at hl
  constructor <;> simp [BackendState.loadSecret, BackendState.getIncremental, BackendState.getPreshare, hl, deref, hsim]

/-! ### The shuffle as a function -/

theorem pick_subset {α : Type} {is : List Nat} {l : List α} {x : α} (h : x ∈ pick is l) : x ∈ l := by
  unfold pick at h
  rw [List.mem_filterMap] at h
  obtain ⟨i, -, hi⟩ := h
  exact List.mem_of_getElem? hi

theorem mem_shuffled {α : Type} {S : Nat} {dests : Nat → List Nat} {batch : Nat → List α} {B : List Nat} {t : Nat} {x : α}
    (h : x ∈ shuffled S dests batch B t) : ∃ s, s < S ∧ x ∈ batch s := by
  have := pick_subset h
  rw [List.mem_flatMap] at this
  obtain ⟨s, hs, hx⟩ := this
  exact ⟨s, List.mem_range.1 hs, mem_selTo hx⟩

theorem slice_selTo {α : Type} (S : Nat) (dests : Nat → List Nat) (batch : Nat → List α) (t : Nat)
    (hlen : ∀ s, s < S → (batch s).length = (dests s).length) :
    ((List.range S).flatMap (fun s => selTo (dests s) (batch s) t)).length = sliceOf S dests t := by
  unfold sliceOf preSum tab
  rw [List.length_flatMap]
  congr 1
  apply List.map_congr_left
  intro s hs
  exact selTo_length _ _ _ (hlen s (List.mem_range.1 hs)).symm

theorem shuffled_length {α : Type} (S : Nat) (dests : Nat → List Nat) (batch : Nat → List α) (B : List Nat) (t : Nat)
    (hlen : ∀ s, s < S → (batch s).length = (dests s).length) (hB : B.Perm (List.range (sliceOf S dests t))) :
    (shuffled S dests batch B t).length = sliceOf S dests t := by
  rw [shuffled, (pick_perm (by rw [slice_selTo S dests batch t hlen]; exact hB)).length_eq, slice_selTo S dests batch t hlen]

theorem flatMap_swap {α : Type} (A C : List Nat) (f : Nat → Nat → List α) :
    (A.flatMap (fun a => C.flatMap (fun c => f a c))).Perm (C.flatMap (fun c => A.flatMap (fun a => f a c))) := by
  induction A with
  | nil => simp
  | cons x A ih =>
    rw [List.flatMap_cons]
    refine (List.Perm.append_left _ ih).trans ?_
    have : C.flatMap (fun c => (x :: A).flatMap (fun a => f a c)) = C.flatMap (fun c => f x c ++ A.flatMap (fun a => f a c)) := by
      refine List.flatMap_congr ?_
      intro c _
      rw [List.flatMap_cons]
    rw [this]
    exact (List.flatMap_append_perm _ _ _)

/-- The servers together end up with what they had. -/
theorem shuffled_perm {α : Type} (S : Nat) (dests : Nat → List Nat) (batch : Nat → List α) (B : Nat → List Nat)
    (hlen : ∀ s, s < S → (batch s).length = (dests s).length) (hd : ∀ s, s < S → ∀ d ∈ dests s, d < S)
    (hB : ∀ t, t < S → (B t).Perm (List.range (sliceOf S dests t))) :
    ((List.range S).flatMap (fun t => shuffled S dests batch (B t) t)).Perm ((List.range S).flatMap batch) := by
  have h1 : ((List.range S).flatMap (fun t => shuffled S dests batch (B t) t)).Perm
      ((List.range S).flatMap (fun t => (List.range S).flatMap (fun s => selTo (dests s) (batch s) t))) := by
    refine List.Perm.flatMap_left _ ?_
    intro t ht
    exact pick_perm (by rw [slice_selTo S dests batch t hlen]; exact hB t (List.mem_range.1 ht))
  refine (h1.trans (flatMap_swap _ _ _)).trans ?_
  refine List.Perm.flatMap_left _ ?_
  intro s hs
  have hs := List.mem_range.1 hs
  exact selTo_perm S (dests s) (batch s) (hlen s hs).symm (hd s hs)

namespace Slot
variable {a : Slot box}

/-- What the servers of a party get (`T`), add (`NT`) and broadcast (`I`). -/
structure Load (a : Slot box) (T NT : Nat → List (Ticket box)) (I : Nat → List OfflineSecret) : Prop where
  input : ∀ s, s < a.S → (T s).length = a.input s
  noise : ∀ s, s < a.S → (NT s).length = a.noise s
  good : ∀ s, s < a.S → ∀ t ∈ T s, t.Good (a.m + 1)
  ngood : ∀ s, s < a.S → ∀ t ∈ NT s, t.Good a.m
  own : NT a.me = (List.range (a.noise a.me)).map (fun i => (a.rand.secret i).ticket a.m (a.tag i))
  items : ∀ s, s < a.S → (I s).Perm ((T s).map Ticket.head)
  order : I a.me = (a.rand.order ((T a.me).map (fun t => OfflineSecret.entry t.head))).map secretOf

/-- The shares of the noise secrets of this server. -/
def shares (a : Slot box) (i : Nat) : List Share := preIncrementalSecretShares (a.rand.secret i).shares a.m
/-- The masks of the noise secrets of this server. -/
def pres (a : Slot box) (i : Nat) : List Preshare := (List.range a.m).map (a.rand.secret i).preshares

/-- The tickets of a server before shuffling. -/
def mixed (T NT : Nat → List (Ticket box)) (s : Nat) : List (Ticket box) := NT s ++ (T s).map Ticket.next

/-- The ciphers of a server before shuffling. -/
def batch (a : Slot box) (T NT : Nat → List (Ticket box)) (s : Nat) : List (List Byte) :=
  (mixed T NT s).map (fun t => t.cipher a.pkeys (a.k + 1))

theorem states_ok (h : a.Ok) {p : ParallelParty box} (c : a.Core p) (q : p.queriesState = {}) :
    a.Core { p with
        queriesState := p.queriesState.initialize false
        noiseState := p.noiseState.initialize (p.partyCount - p.partyId - 1) p.noiseCount true false } ∧
      p.queriesState.initialize false = {} ∧
      p.noiseState.initialize (p.partyCount - p.partyId - 1) p.noiseCount true false =
        p.noiseState.initialize a.m (a.noise a.me) true false := by
  refine ⟨c.upd _ _ _, by rw [q]; rfl, ?_⟩
  have := h.km
  rw [c.parties, c.party, c.counted.noise, show a.pkeys.length - a.k - 1 = a.m by omega]

theorem create_ok (h : a.Ok) {p : ParallelParty box} (c : a.Core p) (s0 : ClientState)
    (hns : p.noiseState = s0.initialize a.m (a.noise a.me) true false)
    (hS : p.ciphers.shortSize = cipherSize a.m) (hL : p.ciphers.longSize = cipherSize (a.m + 1)) :
    ∃ q, p.toParty.createNoiseCiphersTagged p.sampleTag a.rand.toPartyRand = .ok q ∧ a.Core (p.withParty q) ∧
      q.queriesState = p.queriesState ∧ NoiseReady q.noiseState (a.noise a.me) a.tag a.shares ∧
      q.ciphers.Holds ((List.range (a.noise a.me)).map (fun i => ((a.rand.secret i).ticket a.m (a.tag i)).cipher a.pkeys (a.k + 1))) [] ∧
      q.ciphers.shortSize = cipherSize a.m ∧ q.ciphers.longSize = cipherSize (a.m + 1) ∧
      q.ciphers.mem.length = q.ciphers.firstLong + a.input a.me * cipherSize (a.m + 1) ∧
      q.ciphers.firstLong = a.noise a.me * cipherSize a.m := by
  have hown := h.own_le h.me
  have hown' : a.own a.me = a.noise a.me + a.input a.me := rfl
  obtain ⟨b, h1, h2, h3, h4, h5, h6⟩ := createTagged_ok h.keys h.parties p.toParty a.rand.toPartyRand p.sampleTag a.tag s0
    (a.noise a.me) (a.input a.me) a.k a.m c.keys c.parties c.party h.km c.counted.noise c.input (by omega)
    (fun i hi => sampleTag_ok h c i hi) hns hS hL
  refine ⟨_, h1, c.upd _ _ _, rfl, noiseState_ready _ _ _ _ (by omega), h2, h3, h4, ?_, h6⟩
  simp only
  rw [h5, h6]

theorem collect_ok (h : a.Ok) {p : ParallelParty box} (c : a.Core p) (back : ι) (T : List (Ticket box))
    (hT : ∀ t ∈ T, t.Good (a.m + 1)) (hN : T.length = a.input a.me)
    (shorts : List (List Byte)) (hb : p.ciphers.Holds shorts [])
    (hS : p.ciphers.shortSize = cipherSize a.m) (hL : p.ciphers.longSize = cipherSize (a.m + 1))
    (hmem : p.ciphers.mem.length = p.ciphers.firstLong + a.input a.me * cipherSize (a.m + 1)) :
    ∃ q, Runs (p.toParty.collectCiphers back) (T.flatMap (fun t => aRecvCipher back (t.cipher a.pkeys a.k))) q ∧
      a.Core (p.withParty q) ∧ q.queriesState = p.queriesState ∧ q.noiseState = p.noiseState ∧
      q.ciphers.Holds shorts (T.map (fun t => t.cipher a.pkeys a.k)) ∧
      q.ciphers.shortSize = cipherSize a.m ∧ q.ciphers.longSize = cipherSize (a.m + 1) ∧ q.ciphers.firstLong = p.ciphers.firstLong := by
  rw [← hN] at hmem
  obtain ⟨b, h1, h2, h3, h4, h5⟩ := collectCiphers_ok h.keys h.parties p.toParty back a.k a.m h.km T hT shorts hb hL hmem
    (c.input.trans hN.symm)
  exact ⟨_, h1, c.upd _ _ _, rfl, rfl, h2, h3.trans hS, h4.trans hL, h5⟩

theorem install_ok (h : a.Ok) {p : ParallelParty box} (c : a.Core p) (T : List (Ticket box))
    (hT : ∀ t ∈ T, t.Good (a.m + 1)) (hnd : (T.map Ticket.tag).Nodup)
    (shorts : List (List Byte)) (hb : p.ciphers.Holds shorts (T.map (fun t => t.cipher a.pkeys a.k)))
    (hS : p.ciphers.shortSize = cipherSize a.m) (hL : p.ciphers.longSize = cipherSize (a.m + 1)) (q : p.queriesState = {})
    (hfl : shorts = [] → p.ciphers.firstLong = 0) :
    ∃ (b : CipherBatch) (it : Option PartySecret),
      Runs (p.toParty.installSecrets : Prog ι _) (T.map (fun t => Act.obs (Obs.store t.head))) { p.toParty with
        ciphers := b
        queriesState := { simulated := false, secrets := T.map (fun t => OfflineSecret.entry t.head), it := it } } ∧
      b.elements = .ok (shorts ++ T.map (fun t => t.next.cipher a.pkeys (a.k + 1))) ∧ b.shortSize = cipherSize a.m := by
  have hLpos : 0 < cipherSize (a.m + 1) := cipherSize_pos (by omega)
  obtain ⟨b, it, h1, h2, h2S, h3⟩ := installLoop_ok (ι := ι) h.keys h.parties a.k a.m h.km T p.toParty
    (p.ciphers.lastLong - p.ciphers.firstLong)
    shorts hT c.party c.parties c.pkey c.skey hb hS hL
    (by
      rw [hb.lastLong, hL, List.length_map, Nat.add_sub_cancel_left]
      exact Nat.le_mul_of_pos_right _ hLpos)
    (by intro t _; rw [q]; rfl) hnd
  refine ⟨b, it, ?_, ?_, h2S⟩
  · rw [q] at h1
    exact h1
  · refine Holds_elements h2 (by rw [h2S]; exact cipherSize_pos h.m) ?_
    intro e
    rw [List.append_eq_nil_iff, List.map_eq_nil_iff] at e
    rw [h3, hfl e.1, e.2]
    simp

theorem perm_entries (T : Nat → List (Ticket box)) (I : Nat → List OfflineSecret) {S me : Nat} (hme : me < S)
    {V : Type} (ent : OfflineSecret → BitVec 64 × V)
    (h : ∀ s, s < S → ((I s).map ent).Perm ((T s).map (fun t => ent t.head))) :
    ((T me).map (fun t => ent t.head) ++ others S me (fun i => (I i).map ent)).Perm
      ((List.range S).flatMap (fun s => (T s).map (fun t => ent t.head))) := by
  refine List.Perm.trans ?_ (own_others_perm S me hme (fun s => (T s).map (fun t => ent t.head)))
  exact List.Perm.append_left _ (others_perm S me _ _ h)

theorem fst_entries (T : Nat → List (Ticket box)) (S : Nat) {V : Type} (ent : OfflineSecret → BitVec 64 × V) (hent : ∀ x, (ent x).1 = x.tag) :
    ((List.range S).flatMap (fun s => (T s).map (fun t => ent t.head))).map Prod.fst =
      (List.range S).flatMap (fun s => (T s).map Ticket.tag) := by
  rw [List.map_flatMap]
  refine List.flatMap_congr ?_
  intro s _
  rw [List.map_map]
  refine List.map_congr_left ?_
  intro t _
  exact hent t.head

section
variable [DecidableEq ι] {idx : ι → Option Nat} {sib : Nat → ι}

theorem broadcast_does (hg : Group idx sib a.S) (h : a.Ok) {p : ParallelParty box} (c : a.Core p)
    {T NT : Nat → List (Ticket box)} {I : Nat → List OfflineSecret} (hl : a.Load T NT I)
    (hnod : ((List.range a.S).flatMap (fun s => (T s).map Ticket.tag)).Nodup) (it : Option PartySecret)
    (hq : p.queriesState = { simulated := false, secrets := (T a.me).map (fun t => OfflineSecret.entry t.head), it := it }) :
    PProc.Does (fun p' => ∃ st, p' = { p with queriesState := st } ∧ ∀ q : QTicket,
        (∃ s, s < a.S ∧ ∃ t ∈ T s, t.tag = q.tag ∧ t.shares = q.shares ∧ t.pres = q.pres) → PartyServes st q)
      (p.broadcast a.rand sib) [rseg idx sib (bcastCounts a.S I) a.me, rseg idx sib (bcastRound a.S I) a.me] := by
  have hperm := perm_entries T I h.me OfflineSecret.entry (fun s hs => by
    have := (hl.items s hs).map OfflineSecret.entry
    rwa [List.map_map] at this)
  have hfst := fst_entries T a.S OfflineSecret.entry (fun _ => rfl)
  have hnd : (((T a.me).map (fun t => OfflineSecret.entry t.head) ++
      others a.S a.me (fun i => (I i).map OfflineSecret.entry)).map Prod.fst).Nodup := by
    rw [(hperm.map Prod.fst).nodup_iff, hfst]
    exact hnod
  have hlen : preSum (fun s => (I s).length) a.S < 2 ^ 32 := by
    refine Nat.lt_of_le_of_lt ?_ h.total
    rw [preSum_congr (g := a.input) (fun s hs => by rw [(hl.items s hs).length_eq, List.length_map, hl.input s hs])]
    unfold total
    have : preSum a.own a.S = preSum a.noise a.S + preSum a.input a.S := preSum_add _ _ _
    omega
  unfold ParallelParty.broadcast
  simp only [PProc.bind_def, hq, c.counted.id, c.counted.count]
  have e : List.map (fun s => (⟨s.1, s.2.nextTag, s.2.incremental, s.2.preshare⟩ : OfflineSecret))
      (a.rand.order ((T a.me).map (fun t => OfflineSecret.entry t.head))) = I a.me := hl.order.symm
  rw [e]
  refine PProc.Does.bind' (broadcast_union hg (by have := h.max; omega) a.me h.me I (fun s st => PartyState.store st s)
    (fun s : PartyState => s.secrets) OfflineSecret.entry (fun s => s.simulated = false) (fun _ => rfl) ?_ hlen
    { simulated := false, secrets := (T a.me).map (fun t => OfflineSecret.entry t.head), it := it } rfl hnd) (M := []) ?_ rfl
  · intro x s hs hlk
    refine ⟨{ s with secrets := s.secrets ++ [OfflineSecret.entry x], it := none }, ?_, hs, rfl⟩
    unfold PartyState.store
    rw [hlk]
    rfl
  · rintro st ⟨h1, h2⟩
    have h2' := h2.trans hperm
    refine .done ⟨st, rfl, ?_⟩
    rintro q ⟨s, hs, t, ht, e1, e2, e3⟩
    refine serves_of_mem st h1 ?_ t ?_ q e1 e2 e3
    · rw [(h2.map Prod.fst).nodup_iff]
      exact hnd
    · rw [h2'.mem_iff, List.mem_flatMap]
      exact ⟨s, List.mem_range.2 hs, List.mem_map_of_mem (f := fun t : Ticket box => OfflineSecret.entry t.head) ht⟩

/-- What a server does in the offline stage; `sc` sends its ciphers. -/
def offSegs (a : Slot box) (idx : ι → Option Nat) (sib : Nat → ι) (back next : ι) (T NT : Nat → List (Ticket box))
    (I : Nat → List OfflineSecret) (sc : List (PAct ι)) : List (Seg ι Obs) :=
  (aRecvCount back (a.input a.me)).map Seg.act ++ (rseg idx sib (countsRound a.S a.own) a.me ::
    ((aSendCount next a.slice).map Seg.act ++
    ((aRecvReady next).map Seg.act ++ (rseg idx sib (castOut a.S readyMsg) a.me :: ((aSendReady back).map Seg.act ++
    (((T a.me).flatMap (fun t => aRecvCipher back (t.cipher a.pkeys a.k))).map Seg.act ++
      (rseg idx sib (castOut a.S readyMsg) a.me ::
      (rseg idx sib (noiseRound a.S a.dests a.noise) a.me :: (((T a.me).map (fun t => Act.obs (Obs.store t.head))).map Seg.act ++
      (rseg idx sib (cipherRound (cipherSize a.m) a.S a.dests (a.batch T NT)) a.me :: (rseg idx sib (castOut a.S readyMsg) a.me ::
      (sc.map Seg.act ++ (rseg idx sib (bcastCounts a.S I) a.me :: (rseg idx sib (bcastRound a.S I) a.me ::
      (rseg idx sib (noiseRound a.S a.dests a.noise) a.me ::
      ((aRecvReady next).map Seg.act ++ (rseg idx sib (castOut a.S readyMsg) a.me :: (aSendReady back).map Seg.act)))))))))))))))))

theorem offline_does (hg : Group idx sib a.S) (h : a.Ok) {p : ParallelParty box} (hf : a.Fresh p) (back next : ι)
    {T NT : Nat → List (Ticket box)} {I : Nat → List OfflineSecret} (hl : a.Load T NT I)
    (hnod : ((List.range a.S).flatMap (fun s => (T s).map Ticket.tag)).Nodup) (NQ Q : Nat → List QTicket)
    (hNQ : ∀ s, s < a.S → (NQ s).length = a.noise s) (hQ : ∀ s, s < a.S → (Q s).length = a.input s)
    (hme : NQ a.me = noiseQ (noiseKeysAt a.rand.sample a.start a.len) a.tag a.shares a.pres) (T' : List (Ticket box))
    (hT' : T' = shuffled a.S a.dests (mixed T NT) a.shuf.backward a.me) :
    ∃ sc, PProc.Does (fun p' => ParallelReady p' a.S a.me a.dests NQ Q a.shuf.forward a.shuf.backward ∧ ∀ q : QTicket,
          (∃ s, s < a.S ∧ ∃ t ∈ T s, t.tag = q.tag ∧ t.shares = q.shares ∧ t.pres = q.pres) → PartyServes p'.queriesState q)
        (p.startOffline a.rand back next sib) (a.offSegs idx sib back next T NT I sc) ∧
      Sends next sc (T'.flatMap (fun t => t.cipher a.pkeys (a.k + 1))) (T'.map (fun t => .sendCipher (t.cipher a.pkeys (a.k + 1)))) := by
  have hm255 : a.m ≤ 255 := by have := h.km; have := h.parties; omega
  have hupos := cipherSize_pos h.m
  have hub := cipherSize_le hm255
  have hbat : ∀ s, s < a.S → ∀ t ∈ mixed T NT s, (t.cipher a.pkeys (a.k + 1)).length = cipherSize a.m := by
    intro s hs t ht
    have hk := h.km
    unfold mixed at ht
    rw [List.mem_append, List.mem_map] at ht
    rcases ht with ht | ⟨t, ht, rfl⟩
    · exact Ticket.cipher_length h.keys h.parties (hl.ngood s hs t ht) (by omega)
    · exact Ticket.cipher_length h.keys h.parties (hl.good s hs t ht).next (by omega)
  have hT'len : ∀ c ∈ T'.map (fun t => t.cipher a.pkeys (a.k + 1)), c.length = cipherSize a.m := by
    rw [hT']
    intro c hc
    obtain ⟨t, ht, rfl⟩ := List.mem_map.1 hc
    obtain ⟨s, hs, ht⟩ := mem_shuffled ht
    exact hbat s hs t ht
  obtain ⟨sc, hsc, hsc'⟩ := parallelSendCiphers_ok (box := box) next (cipherSize a.m) hupos hub _ hT'len
  refine ⟨sc, ?_, by
    rw [List.map_map] at hsc'
    rw [List.flatMap_def]
    exact hsc'⟩
  obtain ⟨q1, s1, s2⟩ := begin_does hg h hf back next
  unfold ParallelParty.startOffline offSegs
  simp only [PProc.bind_def]
  refine PProc.Does.lifts s1 ?_
  refine PProc.Does.bind' s2 (M := _) ?_ (by rw [List.append_assoc, List.cons_append])
  rintro p2 ⟨c2, e2, hS2, hL2⟩
  obtain ⟨c3, e3, n3⟩ := states_ok h c2 e2
  obtain ⟨q4, s4, c4, e4, n4, b4, hS4, hL4, hm4, hf4⟩ := create_ok h c3 p2.noiseState n3 hS2 hL2
  refine PProc.Does.lifts s4 ?_
  refine PProc.Does.bind' (relayReady_does hg h.me _ c4.counted.id c4.counted.count back next) (M := _) ?_
    (by rw [List.append_assoc, List.cons_append])
  rintro - -
  obtain ⟨q5, s5, c5, e5, n5, b5, hS5, hL5, hf5⟩ := collect_ok h c4 back (T a.me) (hl.good _ h.me) (hl.input _ h.me) _ b4 hS4 hL4 hm4
  refine PProc.Does.runs s5 ?_
  refine PProc.Does.bind' (sync_does hg h.me _ c5.counted.id c5.counted.count) (M := _) ?_ rfl
  rintro - -
  refine PProc.Does.bind' (shufflers_does hg h c5) (M := _) ?_ rfl
  rintro p6 ⟨ps, hps, c6, hp6⟩
  have hci6 : p6.ciphers = q5.ciphers := by rw [hp6]; rfl
  have hqs6 : p6.queriesState = {} := by rw [hp6]; exact e5.trans (e4.trans e3)
  have hns6 : p6.noiseState = q4.noiseState := by rw [hp6]; exact n5
  have hps6 : p6.pshuffler = ps := by rw [hp6]
  have hsh6 : p6.shuffler = a.shuf := by rw [hp6]
  clear hp6
  have hndme : ((T a.me).map Ticket.tag).Nodup := by
    refine hnod.sublist ?_
    exact List.sublist_flatten_of_mem (List.mem_map_of_mem (f := fun s => (T s).map Ticket.tag) (List.mem_range.2 h.me))
  obtain ⟨b7, it, s7, el7, hS7⟩ := install_ok (ι := ι) h c6 (T a.me) (hl.good _ h.me) hndme _ (by rw [hci6]; exact b5)
    (by rw [hci6]; exact hS5) (by rw [hci6]; exact hL5) hqs6 (by
      intro e
      rw [hci6, hf5]
      show q4.ciphers.firstLong = 0
      rw [hf4]
      have := congrArg List.length e
      simp only [List.length_map, List.length_range, List.length_nil] at this
      rw [this, Nat.zero_mul])
  refine PProc.Does.runs s7 ?_
  have c7 := c6.upd b7 { simulated := false, secrets := (T a.me).map (fun t => OfflineSecret.entry t.head), it := it } p6.noiseState
  have hitems : b7.elements = .ok (a.batch T NT a.me) := by
    rw [el7]
    unfold batch mixed
    rw [hl.own, List.map_append, List.map_map, List.map_map]
    rfl
  have hslice := c7.counted.slice
  refine PProc.Does.bind' (shuffleCiphers_does hg (by have := h.max; omega) _ a.me h.me a.dests h.routing (a.batch T NT) (by
      intro s hs
      rw [h.dests_length hs]
      unfold batch mixed own
      rw [List.length_map, List.length_append, List.length_map, hl.noise s hs, hl.input s hs])
    (a.noise a.me) c7.counted.id c7.counted.count (by rw [← hps6] at hps; exact hps) a.shuf.backward
    (by
      have := h.shuf
      rw [← hsh6] at this
      exact hsh6 ▸ this) hslice (cipherSize a.m) hupos hub hS7 c7.out hitems (by
      intro s hs c hc
      obtain ⟨t, ht, rfl⟩ := List.mem_map.1 hc
      exact hbat s hs t ht)) (M := _) ?_ rfl
  rintro p8 ⟨g, hcr, hp8⟩
  have hcr' : CRep (cipherSize a.m) p8.outCiphers (T'.map (fun t => t.cipher a.pkeys (a.k + 1))) := by
    rw [hp8, hT', ← shuffled_map]
    exact hcr
  have c8 : a.Core p8 := by
    rw [hp8]
    refine c7.shuf _ ?_ ?_ ?_ _ ?_ _ _ _ _ hcr.short
    · exact c7.counted.seed
    · exact c7.counted.pid
    · exact c7.counted.pcount
    · exact c7.counted.lseed
  have hqs8 : p8.queriesState = { simulated := false, secrets := (T a.me).map (fun t => OfflineSecret.entry t.head), it := it } := by
    rw [hp8]
  have hns8 : p8.noiseState = q4.noiseState := by rw [hp8]; exact hns6
  clear hp8
  refine PProc.Does.runs (hsc p8 hcr') ?_
  have c9 : a.Core { p8 with outCiphers := p8.outCiphers.free } :=
    c8.shuf _ c8.counted.seed c8.counted.pid c8.counted.pcount _ c8.counted.lseed _ _ _ _ c8.out
  refine PProc.Does.bind' (broadcast_does hg h c9 hl hnod it hqs8) (M := _) ?_ rfl
  rintro p10 ⟨st, hp10, hserv⟩
  have c10 : a.Core p10 := by rw [hp10]; exact c9.upd _ _ _
  have hqs10 : p10.queriesState = st := by rw [hp10]
  have hns10 : p10.noiseState = q4.noiseState := by rw [hp10]; exact hns8
  clear hp10
  refine PProc.Does.bind' (shufflers_does hg h c10) (M := _) ?_ rfl
  rintro p11 ⟨ps', hps', c11, hp11⟩
  have hqs11 : p11.queriesState = st := by rw [hp11]; exact hqs10
  have hns11 : p11.noiseState = q4.noiseState := by rw [hp11]; exact hns10
  obtain ⟨p12, s12, e12, r12, i12, n12⟩ := prepare_ok h c11 hps' (by rw [hp11]) a.tag a.shares a.pres (fun i => preShares_valid _ _)
    (fun i => preShares_length _ _) (fun i => by simp [pres]) (by rw [hns11]; exact n4) NQ Q hNQ hQ hme
  refine PProc.Does.lifts s12 ?_
  refine PProc.Does.bind' (relayReady_does hg h.me _ (i12.trans c11.counted.id) (n12.trans c11.counted.count) back next) (M := []) ?_
    (List.append_nil _).symm
  rintro - -
  refine .done ⟨r12, ?_⟩
  rw [e12, hqs11]
  exact hserv

/-- What a server does in the simulated offline stage. -/
def simSegs (a : Slot box) (idx : ι → Option Nat) (sib : Nat → ι) (back next : ι) : List (Seg ι Obs) :=
  (aRecvCount back (a.input a.me)).map Seg.act ++ (rseg idx sib (countsRound a.S a.own) a.me ::
    ((aSendCount next a.slice).map Seg.act ++ (rseg idx sib (noiseRound a.S a.dests a.noise) a.me ::
    ((aRecvReady next).map Seg.act ++ (rseg idx sib (castOut a.S readyMsg) a.me :: (aSendReady back).map Seg.act)))))

theorem simulated_does (hg : Group idx sib a.S) (h : a.Ok) {p : ParallelParty box} (hf : a.Fresh p) (back next : ι) (M' : Nat)
    (NQ Q : Nat → List QTicket)
    (hNQ : ∀ s, s < a.S → (NQ s).length = a.noise s) (hQ : ∀ s, s < a.S → (Q s).length = a.input s)
    (hme : NQ a.me = noiseQ (noiseKeysAt a.rand.sample a.start a.len) (fun _ => 0) (fun _ => List.replicate a.m ⟨0, 1⟩)
      (fun _ => List.replicate a.m (fun _ => 0))) :
    PProc.Does (fun p' => ParallelReady p' a.S a.me a.dests NQ Q a.shuf.forward a.shuf.backward ∧ ∀ q : QTicket,
          q.tag = 0 → q.shares = List.replicate M' ⟨0, 1⟩ → q.pres = List.replicate M' (fun _ => 0) → PartyServes p'.queriesState q)
        (p.simulateOffline a.rand back next sib) (a.simSegs idx sib back next) := by
  obtain ⟨q1, s1, s2⟩ := begin_does hg h hf back next
  unfold ParallelParty.simulateOffline simSegs
  simp only [PProc.bind_def]
  refine PProc.Does.lifts s1 ?_
  refine PProc.Does.bind' s2 (M := _) ?_ (by rw [List.append_assoc, List.cons_append])
  rintro p2 ⟨c2, e2, -, -⟩
  refine PProc.Does.bind' (shufflers_does hg h c2) (M := _) ?_ rfl
  rintro p3 ⟨ps, hps, c3, hp3⟩
  have hqs3 : p3.queriesState = {} := by rw [hp3]; exact e2
  have hkm := h.km
  have c4 := c3.upd p3.ciphers (p3.queriesState.initialize true)
    (p3.noiseState.initialize (p3.partyCount - p3.partyId - 1) p3.noiseCount true true)
  obtain ⟨p5, s5, e5, r5, i5, n5⟩ := prepare_ok h c4 hps (by rw [hp3]) (fun _ => 0) (fun _ => List.replicate a.m ⟨0, 1⟩)
    (fun _ => List.replicate a.m (fun _ => 0)) (by
      intro i s hs
      rw [List.eq_of_mem_replicate hs]
      exact isShare_id) (by simp) (by simp) (by
      simp only
      rw [c3.parties, c3.party, show a.pkeys.length - a.k - 1 = a.m by omega, c3.counted.noise]
      exact ⟨rfl, fun j hj => rfl, fun j hj => rfl⟩) NQ Q hNQ hQ hme
  refine PProc.Does.lifts s5 ?_
  refine PProc.Does.bind' (relayReady_does hg h.me _ (i5.trans c4.counted.id) (n5.trans c4.counted.count) back next) (M := []) ?_
    (List.append_nil _).symm
  rintro - -
  refine .done ⟨r5, ?_⟩
  intro q h1 h2 h3
  rw [e5]
  simp only
  rw [hqs3]
  constructor
  · rw [h1]; rfl
  · rw [h2, headD_replicate]; rfl
  · rw [h3, headD_replicate]; rfl

end
end Slot

/-! ### The backend -/

section
variable [DecidableEq ι] {idx : ι → Option Nat} {sib : Nat → ι} {pkeys : List box.PKey} {skeys : List box.SKey}

/-- What a server of the backend does in the offline stage. -/
def backSegs (idx : ι → Option Nat) (sib : Nat → ι) (S me : Nat) (back : ι) (pkeys : List box.PKey) (T : Nat → List (Ticket box))
    (I : Nat → List OfflineSecret) : List (Seg ι Obs) :=
  (aRecvCount back (T me).length).map Seg.act ++ ((aSendReady back).map Seg.act ++
    (((T me).flatMap (fun t => aRecvCipher back (t.cipher pkeys (pkeys.length - 1)) ++ [.obs (.store t.head)])).map Seg.act ++
    (rseg idx sib (bcastCounts S I) me :: (rseg idx sib (bcastRound S I) me :: (rseg idx sib (castOut S readyMsg) me ::
    (aSendReady back).map Seg.act)))))

theorem backend_offline_does {S me : Nat} (hg : Group idx sib S) (hS : S < 255) (hme : me < S)
    (hgood : GoodKeys box pkeys skeys) (hp : pkeys.length ≤ 255) (hpos : 0 < pkeys.length)
    (b : Backend box) (hb : b.state = {}) (order : List (BitVec 64 × BackendSecret) → List (BitVec 64 × BackendSecret))
    (back : ι) (T : Nat → List (Ticket box)) (hT : ∀ t ∈ T me, t.Good 1)
    (hnd : ((List.range S).flatMap (fun s => (T s).map Ticket.tag)).Nodup)
    (hpk : pkeys[pkeys.length - 1]? = some b.pkey) (hsk : skeys[pkeys.length - 1]? = some b.skey)
    (h32 : preSum (fun s => (T s).length) S < 2 ^ 32) (I : Nat → List OfflineSecret)
    (hI : ∀ s, s < S → ((I s).map OfflineSecret.entryB).Perm ((T s).map (fun t => OfflineSecret.entryB t.head)))
    (horder : I me = (order ((T me).map (fun t => OfflineSecret.entryB t.head))).map secretOfB) :
    PProc.Does (fun b' => ∃ st, b' = { b with queries := Batch.initialize (T me).length ⟨0, 0⟩, state := st } ∧ ∀ q : QTicket,
        (∃ s, s < S ∧ ∃ t ∈ T s, t.tag = q.tag ∧ t.shares = q.shares ∧ t.pres = q.pres) → BackendServes st q)
      (b.startOfflineParallel order me S back sib) (backSegs idx sib S me back pkeys T I) := by
  have hperm := Slot.perm_entries T I hme OfflineSecret.entryB hI
  have hfst := Slot.fst_entries T S OfflineSecret.entryB (fun _ => rfl)
  have hnd' : (((T me).map (fun t => OfflineSecret.entryB t.head) ++
      others S me (fun i => (I i).map OfflineSecret.entryB)).map Prod.fst).Nodup := by
    rw [(hperm.map Prod.fst).nodup_iff, hfst]
    exact hnd
  have hlen : preSum (fun s => (I s).length) S < 2 ^ 32 := by
    refine Nat.lt_of_le_of_lt (Nat.le_of_eq (preSum_congr ?_)) h32
    intro s hs
    have := (hI s hs).length_eq
    simpa using this
  have hndme : ((T me).map Ticket.tag).Nodup := by
    refine hnd.sublist ?_
    exact List.sublist_flatten_of_mem (List.mem_map_of_mem (f := fun s => (T s).map Ticket.tag) (List.mem_range.2 hme))
  have hme32 : (T me).length < 2 ^ 32 := by
    have := preSum_mono (fun s => (T s).length) (show me + 1 ≤ S by omega)
    rw [preSum_succ] at this
    omega
  obtain ⟨it, s1⟩ := backend_collect hgood hp hpos b hb back (T me) hT hndme hpk hsk
  unfold Backend.startOfflineParallel backSegs
  simp only [PProc.bind_def]
  refine PProc.Does.runs (backend_initializeBatch b back _ hme32) ?_
  refine PProc.Does.runs (runs_sendReady back) ?_
  refine PProc.Does.runs s1 ?_
  unfold Backend.broadcast
  simp only [PProc.bind_def]
  have e : List.map (fun s => (⟨s.1, 0, s.2.incremental, s.2.preshare⟩ : OfflineSecret))
      (order ((T me).map (fun t => OfflineSecret.entryB t.head))) = I me := horder.symm
  rw [e]
  rw [PProc.bind_assoc]
  refine PProc.Does.bind' (broadcast_union hg hS me hme I (fun s st => BackendState.store st s)
    (fun s : BackendState => s.secrets) OfflineSecret.entryB (fun s => s.simulated = false) (fun _ => rfl) ?_ hlen
    { simulated := false, secrets := (T me).map (fun t => OfflineSecret.entryB t.head), it := it } rfl hnd') (M := _) ?_ rfl
  · intro x s hs hlk
    refine ⟨{ s with secrets := s.secrets ++ [OfflineSecret.entryB x], it := none }, ?_, hs, rfl⟩
    unfold BackendState.store
    rw [hlk]
    rfl
  · rintro st ⟨h1, h2⟩
    have h2' := h2.trans hperm
    simp only [PProc.pure_def, PProc.done_bind]
    refine PProc.Does.bind' (L := [rseg idx sib (castOut S readyMsg) me]) (M := (aSendReady back).map Seg.act)
      (barrier_does hg hme (fun _ => false)) ?_ rfl
    rintro - -
    rw [← List.append_nil ((aSendReady back).map Seg.act)]
    refine PProc.Does.runs (runs_sendReady back) (.done ⟨st, rfl, ?_⟩)
    rintro q ⟨s, hs, t, ht, e1, e2, e3⟩
    refine backendServes_of_mem st h1 ?_ t ?_ q e1 e2 e3
    · rw [(h2.map Prod.fst).nodup_iff]
      exact hnd'
    · rw [h2'.mem_iff, List.mem_flatMap]
      exact ⟨s, List.mem_range.2 hs, List.mem_map_of_mem (f := fun t : Ticket box => OfflineSecret.entryB t.head) ht⟩

end
end DPPIR.Protocol
