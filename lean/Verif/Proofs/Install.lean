import Verif.Proofs.Safety
import Verif.Spec.Install

/-!
# What a party or backend installs, whatever it receives
-/

namespace DPPIR.Protocol
open DPPIR Proc Onion Incremental Additive Shuffle

variable {box : SealedBox} {ι α β : Type}

/-- Calls other than receiving or installing a cipher. -/
def Obs.Quiet : Obs → Prop
  | .store _ => False
  | .recvCipher _ => False
  | _ => True

/-- Abnormal stops while received ciphers wait to be installed are failed assertions. -/
def StopOk (h : List Obs) (e : Fault) : Prop := (stores h).length ≠ (ciphersRead h).length → e = .assertFail

/-- All received ciphers are installed. -/
def AllIn (h : List Obs) : Prop := (stores h).length = (ciphersRead h).length

/-- A program without cipher calls, returning only values with `R`. -/
def Still (R : α → Prop) (p : Prog ι α) : Prop :=
  ∀ h, Safe (fun _ o => o.Quiet) (fun _ _ => True) p (fun a _ => R a) h

theorem stores_append (a b : List Obs) : stores (a ++ b) = stores a ++ stores b := List.filterMap_append ..
theorem ciphersRead_append (a b : List Obs) : ciphersRead (a ++ b) = ciphersRead a ++ ciphersRead b := List.filterMap_append ..

theorem Obs.Quiet.stores {o : Obs} (h : o.Quiet) (l : List Obs) : stores (l ++ [o]) = stores l := by
  cases o <;> simp_all [Obs.Quiet, Protocol.stores]
theorem Obs.Quiet.ciphersRead {o : Obs} (h : o.Quiet) (l : List Obs) : ciphersRead (l ++ [o]) = ciphersRead l := by
  cases o <;> simp_all [Obs.Quiet, Protocol.ciphersRead]

theorem Still.safe {R : α → Prop} {p : Prog ι α} (hp : Still R p) (pk : box.PKey) (sk : box.SKey) (h : List Obs) (hin : AllIn h) :
    Safe (Justified pk sk) StopOk p (fun a h' => R a ∧ stores h' = stores h ∧ ciphersRead h' = ciphersRead h) h := by
  have key : ∀ (p : Prog ι α) h, AllIn h → (Safe (fun _ o => o.Quiet) (fun _ _ => True) p (fun a _ => R a) h) →
      Safe (Justified pk sk) StopOk p (fun a h' => R a ∧ stores h' = stores h ∧ ciphersRead h' = ciphersRead h) h := by
    intro p
    induction p with
    | done a => exact fun h _ hs => ⟨hs, rfl, rfl⟩
    | fault e => exact fun h hin _ hne => absurd hin hne
    | send d b k ih => exact fun h hin hs => ih h hin hs
    | recv s k ih => exact fun h hin hs b => ih b h hin (hs b)
    | obs o k ih =>
      intro h hin hs
      have e1 := hs.1.stores h
      have e2 := hs.1.ciphersRead h
      refine ⟨?_, ?_⟩
      · have hq := hs.1
        cases o <;> first | exact hin | exact absurd hq (by simp [Obs.Quiet])
      · have := ih (h ++ [o]) (by unfold AllIn; rw [e1, e2]; exact hin) hs.2
        rw [e1, e2] at this
        exact this
  exact key p h hin (hp h)

namespace Still

theorem done {R : α → Prop} {a : α} (h : R a) : Still R (.done a : Prog ι α) := fun _ => h

theorem bind {R : α → Prop} {Q : β → Prop} {p : Prog ι α} {f : α → Prog ι β} (hp : Still R p) (hf : ∀ a, R a → Still Q (f a)) :
    Still Q (p.bind f) := fun h => Safe.bind' (hp h) (fun a h' ha => hf a ha h')

theorem mono {R Q : α → Prop} {p : Prog ι α} (hp : Still R p) (h : ∀ a, R a → Q a) : Still Q p := fun l => (hp l).mono (fun a _ => h a)

theorem any {R : α → Prop} {p : Prog ι α} (hp : Still R p) : Still (fun _ => True) p := hp.mono (fun _ _ => trivial)

theorem lift {R : α → Prop} {r : Res α} (h : ∀ a, r = .ok a → R a) : Still R (Proc.lift r : Prog ι α) :=
  fun _ => Safe.lift h (fun _ _ => trivial)

theorem lift' (r : Res α) : Still (fun _ => True) (Proc.lift r : Prog ι α) := lift (fun _ _ => trivial)

theorem obs {R : α → Prop} {o : Obs} {k : Prog ι α} (ho : o.Quiet) (hk : Still R k) : Still R (.obs o k) := fun h => ⟨ho, hk _⟩

theorem sendBytes (d : ι) (l : List Byte) : Still (fun _ => True) (Proc.sendBytes d l : Prog ι Unit) := fun _ => Safe.sendBytes trivial

theorem recvBytes (s : ι) (n : Nat) : Still (fun l => l.length = n) (Proc.recvBytes s n : Prog ι _) :=
  fun _ => Safe.recvBytes n (fun _ h => h)

theorem loop {σ : Type} {R : σ → Prop} {f : Nat → σ → Prog ι σ} (n i : Nat) (s : σ) (h0 : R s) (hf : ∀ j s, R s → Still R (f j s)) :
    Still R (Proc.loop n i f s) :=
  fun h => Safe.loop (fun _ s _ => R s) n i s h h0 (fun j s h _ _ hs => hf j s hs h)

theorem each {σ γ : Type} {R : σ → Prop} {f : γ → σ → Prog ι σ} (l : List γ) (s : σ) (h0 : R s) (hf : ∀ c s, R s → Still R (f c s)) :
    Still R (Proc.each f l s) :=
  fun h => Safe.each (fun s _ => R s) l s h h0 (fun c s h hs => hf c s hs h)

theorem sendCount (d : ι) (n : Nat) : Still (fun _ => True) (Protocol.sendCount d n) := obs trivial (sendBytes _ _)
theorem readCount (s : ι) : Still (fun _ => True) (Protocol.readCount s) :=
  bind (recvBytes s 4) (fun _ _ => bind (R := fun _ => True) (obs trivial (done trivial)) (fun _ _ => done trivial))
theorem sendReady (d : ι) : Still (fun _ => True) (Protocol.sendReady d) := obs trivial (sendBytes _ _)
theorem waitForReady (s : ι) : Still (fun _ => True) (Protocol.waitForReady s) :=
  bind (recvBytes s 1) (fun _ _ => bind (lift' _) (fun _ _ => obs trivial (done trivial)))
theorem pushBuffered (d : ι) (unit : Nat) (w : WBuf) (l : List Byte) : Still (fun _ => True) (Protocol.pushBuffered d unit w l) := by
  unfold Protocol.pushBuffered
  split
  · split
    · exact bind (sendBytes _ _) (fun _ _ => done trivial)
    · exact done trivial
  · exact fun _ => trivial
theorem flush (d : ι) (w : WBuf) : Still (fun _ => True) (Protocol.flush d w) := sendBytes _ _
theorem sendCipher (d : ι) (size : Nat) (mem : List Byte) (w : WBuf) : Still (fun _ => True) (Protocol.sendCipher d size mem w) :=
  bind (lift' _) (fun _ _ => bind (R := fun _ => True) (obs trivial (done trivial)) (fun _ _ => pushBuffered _ _ _ _))
theorem sendQuery (d : ι) (q : Query) (w : WBuf) : Still (fun _ => True) (Protocol.sendQuery d q w) := obs trivial (pushBuffered _ _ _ _)
theorem sendResponse (d : ι) (r : Response) (w : WBuf) : Still (fun _ => True) (Protocol.sendResponse d r w) :=
  obs trivial (pushBuffered _ _ _ _)
theorem recvQuery (s : ι) : Still (fun _ => True) (Protocol.recvQuery s) :=
  bind (recvBytes s _) (fun _ _ => bind (R := fun _ => True) (obs trivial (done trivial)) (fun _ _ => done trivial))
theorem recvResponse (s : ι) : Still (fun _ => True) (Protocol.recvResponse s) :=
  bind (recvBytes s _) (fun _ _ => bind (R := fun _ => True) (obs trivial (done trivial)) (fun _ _ => done trivial))

end Still

/-! ### The party -/

/-- Fields of a party that never change, and the sizes of its ciphers. -/
structure Shape (p : Party box) (k parties : Nat) (pk : box.PKey) (sk : box.SKey) : Prop where
  id : p.partyId = k
  count : p.partyCount = parties
  pkey : p.pkey = pk
  skey : p.skey = sk
  short : p.ciphers.shortSize = cipherSize (parties - k - 1)
  long : p.ciphers.longSize = cipherSize (parties - k)
  lt : k + 1 < parties
  shuffled : p.shuffledCount < 2 ^ 32

variable {k parties : Nat} {pk : box.PKey} {sk : box.SKey}

theorem Shape.samples {p p' : Party box} (h : Shape p k parties pk sk) {rand : PartyRand box} (hp : p.initializeNoiseSamples rand = .ok p') :
    Shape p' k parties pk sk := by
  unfold Party.initializeNoiseSamples at hp
  cases hf : Noise.findRange rand.rnd (BitVec.ofNat 8 p.serverId) (BitVec.ofNat 8 p.serverCount) p.db.size with
  | error e => rw [hf] at hp; cases hp
  | ok r =>
    rw [hf, bind_ok] at hp
    refine forRange_ok_inv (fun _ (q : Party box) => Shape q k parties pk sk) _ (Nat.zero_le _) ?_ ?_ hp
    · exact ⟨h.id, h.count, h.pkey, h.skey, h.short, h.long, h.lt, h.shuffled⟩
    · intro j q q' _ _ hq hs
      unfold Party.sampleStep at hs
      simp only at hs
      cases hn : q.noise.pushBack (rand.sample j).toNat with
      | error e => rw [hn] at hs; cases hs
      | ok n =>
        rw [hn, bind_ok] at hs
        obtain rfl := Except.ok.inj hs
        exact ⟨hq.id, hq.count, hq.pkey, hq.skey, hq.short, hq.long, hq.lt, hq.shuffled⟩

theorem secret_shape {p : Party box} {r : SecretRand box} {i : BitVec 64} {x : Party box × List OfflineSecret}
    (h : p.makeNoiseSecretTagged r i = .ok x) : ∃ st, x.1 = { p with noiseState := st } := by
  unfold Party.makeNoiseSecretTagged at h
  simp only at h
  cases h1 : generateAdditiveSecretShares r.preshares (p.partyCount - p.partyId - 1 + 1) with
  | error e => rw [h1] at h; cases h
  | ok pre =>
    rw [h1, bind_ok] at h
    cases h2 : buildSecrets i (preIncrementalSecretShares r.shares (p.partyCount - p.partyId - 1)) pre
        (p.partyCount - p.partyId - 1) 0 i with
    | error e => rw [h2] at h; cases h
    | ok sec =>
      rw [h2, bind_ok] at h
      cases h3 : p.noiseState.addNoiseSecret sec.2 (preIncrementalSecretShares r.shares (p.partyCount - p.partyId - 1)) with
      | error e => rw [h3] at h; cases h
      | ok st =>
        rw [h3, bind_ok] at h
        obtain rfl := Except.ok.inj h
        exact ⟨st, rfl⟩

theorem push_inv {b b' : CipherBatch} {v : List Byte} {shorts rest : List (List Byte)} (hb : b.Holds shorts rest)
    (hroom : b.lastShort + b.shortSize ≤ b.firstLong) (h : b.pushShort v = .ok b') :
    b'.Holds (shorts ++ [v.take b.shortSize]) rest ∧ b'.shortSize = b.shortSize ∧ b'.longSize = b.longSize ∧
      b'.mem.length = b.mem.length ∧ b'.firstLong = b.firstLong := by
  by_cases hv : b.shortSize ≤ v.length
  · obtain ⟨mem, h1, h2, h3⟩ := hb.pushShort (v.take b.shortSize) (v.drop b.shortSize) (by simp [hv]) hroom
    rw [List.take_append_drop, h] at h1
    obtain rfl := Except.ok.inj h1
    exact ⟨h3, rfl, rfl, h2, rfl⟩
  · unfold CipherBatch.pushShort slice at h
    simp [hv] at h

/-- After creating the noise ciphers there is room for the input. -/
theorem createTagged_shape {p p' : Party box} (h : Shape p k parties pk sk) {rand : PartyRand box}
    {tagOf : Nat → Res (BitVec 64)} (hp : p.createNoiseCiphersTagged tagOf rand = .ok p') :
    Shape p' k parties pk sk ∧ p'.inputCount = p.inputCount ∧ (∃ shorts, p'.ciphers.Holds shorts []) ∧
      p'.ciphers.mem.length = p'.ciphers.firstLong + p.inputCount * p'.ciphers.longSize := by
  unfold Party.createNoiseCiphersTagged at hp
  obtain ⟨h1, h2, ⟨shorts, h3, -⟩, h4, -⟩ := forRange_ok_inv (fun j (q : Party box) => Shape q k parties pk sk ∧ q.inputCount = p.inputCount ∧
      (∃ shorts, q.ciphers.Holds shorts [] ∧ shorts.length = j) ∧
      q.ciphers.mem.length = q.ciphers.firstLong + p.inputCount * q.ciphers.longSize ∧
      q.ciphers.firstLong = p.noiseCount * q.ciphers.shortSize)
    (s := { p with ciphers := p.ciphers.initialize p.noiseCount p.inputCount }) (Party.noiseCipherStep tagOf rand) (Nat.zero_le _)
    ⟨⟨h.id, h.count, h.pkey, h.skey, h.short, h.long, h.lt, h.shuffled⟩, rfl, ⟨[], CipherBatch.holds_initialize p.ciphers p.noiseCount p.inputCount, rfl⟩,
      List.length_replicate, rfl⟩ (by
      rintro j q q' - hj ⟨a1, a2, ⟨shorts, a3, a4⟩, a5, a6⟩ hs
      unfold Party.noiseCipherStep at hs
      simp only at hs
      cases e0 : tagOf j with
      | error e => rw [e0] at hs; cases hs
      | ok tag =>
      rw [e0, bind_ok] at hs
      cases e1 : q.makeNoiseSecretTagged (rand.secret j) tag with
      | error e => rw [e1] at hs; cases hs
      | ok x =>
        rw [e1, bind_ok] at hs
        obtain ⟨st, hst⟩ := secret_shape e1
        simp only [hst] at hs
        cases e2 : onionEncrypt box (rand.secret j).coins (rand.secret j).junk (rand.secret j).junk' x.2 (q.partyId + 1) q.partyCount q.pkeys with
        | error e => rw [e2] at hs; cases hs
        | ok c =>
          rw [e2, bind_ok] at hs
          cases e3 : q.ciphers.pushShort c with
          | error e => rw [e3] at hs; cases hs
          | ok b =>
            rw [e3, bind_ok] at hs
            obtain rfl := Except.ok.inj hs
            obtain ⟨b1, b2, b3, b4, b5⟩ := push_inv a3 (by
              rw [a3.lastShort, a6, a4]
              have : (j + 1) * q.ciphers.shortSize ≤ p.noiseCount * q.ciphers.shortSize := Nat.mul_le_mul_right _ hj
              have e : (j + 1) * q.ciphers.shortSize = j * q.ciphers.shortSize + q.ciphers.shortSize := by ring
              omega) e3
            refine ⟨⟨a1.id, a1.count, a1.pkey, a1.skey, b2.trans a1.short, b3.trans a1.long, a1.lt, a1.shuffled⟩, a2, ⟨_, b1, by simp [a4]⟩, ?_, ?_⟩
            · show b.mem.length = b.firstLong + _ * b.longSize
              rw [b4, b5, b3, a5]
            · show b.firstLong = _ * b.shortSize
              rw [b5, b2, a6]) hp
  exact ⟨h1, h2, ⟨shorts, h3⟩, h4⟩

theorem create_shape {p p' : Party box} (h : Shape p k parties pk sk) {rand : PartyRand box} (hp : p.createNoiseCiphers rand = .ok p') :
    Shape p' k parties pk sk ∧ p'.inputCount = p.inputCount ∧ (∃ shorts, p'.ciphers.Holds shorts []) ∧
      p'.ciphers.mem.length = p'.ciphers.firstLong + p.inputCount * p'.ciphers.longSize :=
  createTagged_shape h hp

theorem collect_safe (p : Party box) (back : ι) (h : List Obs) (hs : Shape p k parties pk sk) (shorts : List (List Byte))
    (hb : p.ciphers.Holds shorts []) (hroom : p.ciphers.mem.length = p.ciphers.firstLong + p.inputCount * p.ciphers.longSize)
    (h0 : ciphersRead h = []) (h1 : stores h = []) :
    Safe (Justified pk sk) StopOk (p.collectCiphers back) (fun p' h' => Shape p' k parties pk sk ∧ stores h' = [] ∧
      p'.ciphers.Holds shorts (ciphersRead h')) h := by
  have := Safe.loop (I := Justified pk sk) (F := StopOk) (f := Party.collectCipher (box := box) back)
    (fun j q h' => Shape q k parties pk sk ∧ stores h' = [] ∧
      q.ciphers.Holds shorts (ciphersRead h') ∧ (ciphersRead h').length = j ∧
      q.ciphers.mem.length = q.ciphers.firstLong + p.inputCount * q.ciphers.longSize) p.inputCount 0 p h
    ⟨hs, h1, by rw [h0]; exact hb, by rw [h0]; rfl, hroom⟩ (by
      rintro j q h' - hj ⟨a1, a2, a3, a4, a5⟩
      refine Safe.bind' (R := fun c h'' => c.length = q.ciphers.longSize ∧ stores h'' = [] ∧ ciphersRead h'' = ciphersRead h' ++ [c])
        (Safe.bind (Safe.recvBytes _ (fun l hl => ⟨trivial, ?_⟩))) ?_
      · exact ⟨hl, by rw [stores_append, a2]; rfl, by rw [ciphersRead_append]; rfl⟩
      · rintro c h'' ⟨c1, c2, c3⟩
        obtain ⟨mem, g1, g2, g3⟩ := a3.pushLong c c1 (by
          rw [a3.lastLong, a4, a5]
          have : (j + 1) * q.ciphers.longSize ≤ p.inputCount * q.ciphers.longSize := Nat.mul_le_mul_right _ (by omega)
          have e : (j + 1) * q.ciphers.longSize = j * q.ciphers.longSize + q.ciphers.longSize := by ring
          omega)
        rw [g1]
        refine ⟨⟨a1.id, a1.count, a1.pkey, a1.skey, a1.short, a1.long, a1.lt, a1.shuffled⟩, c2, ?_, ?_, ?_⟩
        · rw [c3]; exact g3
        · rw [c3, List.length_append, a4]; rfl
        · show mem.length = _
          rw [g2, a5])
  exact this.mono (fun p' h' hh => ⟨hh.1, hh.2.1, hh.2.2.1⟩)

theorem install_safe (fuel : Nat) : ∀ (p : Party box) (h : List Obs) (shorts rest : List (List Byte)), Shape p k parties pk sk →
    p.ciphers.Holds shorts rest → rest.length ≤ fuel → (stores h).length + rest.length = (ciphersRead h).length →
    (ciphersRead h).drop (stores h).length = rest →
    Safe (Justified pk sk) StopOk (Party.installLoop fuel p : Prog ι _) (fun _ h' => AllIn h') h := by
  induction fuel with
  | zero =>
    intro p h shorts rest hs hb hf hn hd
    obtain rfl : rest = [] := List.length_eq_zero_iff.1 (by omega)
    unfold Party.installLoop
    rw [hb.empty]
    show AllIn h
    unfold AllIn
    simpa using hn
  | succ fuel ih =>
    intro p h shorts rest hs hb hf hn hd
    unfold Party.installLoop
    cases rest with
    | nil =>
      rw [hb.empty]
      show AllIn h
      unfold AllIn
      simpa using hn
    | cons v rest =>
      obtain ⟨g1, ⟨tail, g2⟩, g3⟩ := hb.popLong
      obtain ⟨m, hm⟩ : ∃ m, parties - k = m + 1 := ⟨parties - k - 1, by have := hs.lt; omega⟩
      have hlong : p.ciphers.longSize = (secretSize + sealBytes) * m + (secretSize + sealBytes) := by
        rw [hs.long, hm]; rfl
      have hshort : p.ciphers.shortSize = (secretSize + sealBytes) * m := by
        rw [hs.short, hm]; rfl
      have hv := hb.longLen v List.mem_cons_self
      have hget : (ciphersRead h)[(stores h).length]? = some v := by
        have := congrArg List.head? hd
        rw [List.head?_drop] at this
        exact this
      rw [g1, if_pos (decide_eq_true (by rw [hlong]; simp [secretSize, sealBytes]))]
      simp only
      have hdec : onionDecrypt box p.ciphers.popLong.1 (p.partyCount - p.partyId) p.pkey p.skey =
          match box.openMsg pk sk v with | none => .error .assertFail | some plain => .ok ⟨plain⟩ := by
        unfold onionDecrypt
        have hsz : v.length = cipherSize (p.partyCount - p.partyId) := by rw [hv, hs.long, hs.count, hs.id]
        simp only
        rw [if_neg (by rw [← hsz, hv]; omega), g2, slice_zero hsz, bind_ok, hs.pkey, hs.skey]
        rfl
      rw [hdec]
      cases hopen : box.openMsg pk sk v with
      | none => exact fun _ => rfl
      | some plain =>
        have hplain := box.open_length _ _ _ _ hopen
        have hmsg : (OnionLayer.mk plain).msg = .ok (OfflineSecret.decode (plain.take secretSize)) := by
          unfold OnionLayer.msg
          rw [slice_ok (by simp only; omega)]
          rfl
        show Safe _ _ ((lift (OnionLayer.mk plain).msg).bind _) _ _
        rw [hmsg]
        refine ⟨⟨v, plain, hget, hopen, rfl⟩, ?_⟩
        have hstores : stores (h ++ [Obs.store (OfflineSecret.decode (plain.take secretSize))]) =
            stores h ++ [OfflineSecret.decode (plain.take secretSize)] := by rw [stores_append]; rfl
        have hcr : ciphersRead (h ++ [Obs.store (OfflineSecret.decode (plain.take secretSize))]) = ciphersRead h := by
          rw [ciphersRead_append]; exact List.append_nil _
        show Safe _ _ ((lift (p.queriesState.store _)).bind _) _ _
        refine Safe.bind (Safe.lift ?_ ?_)
        · intro st _
          obtain ⟨mem, c1, -, c3⟩ := g3.pushShort (plain.drop secretSize) [] (by
              show _ = p.ciphers.shortSize
              rw [List.length_drop]
              omega) (by
            have := hb.room
            show p.ciphers.lastShort + p.ciphers.shortSize ≤ p.ciphers.firstLong + p.ciphers.longSize
            omega)
          rw [List.append_nil] at c1
          show Safe _ _ ((lift (CipherBatch.pushShort _ (plain.drop secretSize))).bind _) _ _
          rw [c1]
          refine ih _ _ (shorts ++ [plain.drop secretSize]) rest ⟨hs.id, hs.count, hs.pkey, hs.skey, hs.short, hs.long, hs.lt, hs.shuffled⟩ c3
            (by simp at hf; omega) ?_ ?_
          · rw [hstores, hcr, List.length_append]
            simp at hn ⊢
            omega
          · rw [hstores, hcr, List.length_append]
            have := congrArg (List.drop 1) hd
            rw [List.drop_drop] at this
            exact this
        · intro e he _
          unfold PartyState.store at he
          split at he
          · exact (Except.error.inj he).symm
          · cases he


/-- The online stage of a party has no cipher calls. -/
theorem party_online_still (p : Party box) (back next : ι) : Still (fun _ => True) (p.startOnline back next) := by
  refine .bind (R := fun _ => True) (.loop _ _ _ trivial (fun _ _ _ => ?_)) (fun p _ => ?_)
  · exact .bind (.recvQuery _) (fun _ _ => .bind (.lift' _) (fun _ _ => .bind (.lift' _) (fun _ _ => .lift' _)))
  refine .bind (R := fun _ => True) (.bind (.lift' _) (fun _ _ =>
    .bind (R := fun _ => True) (.each _ _ trivial (fun _ _ _ => .sendQuery _ _ _)) (fun _ _ => .bind (.flush _ _) (fun _ _ => .done trivial))))
    (fun p _ => ?_)
  refine .bind (R := fun _ => True) (.bind (R := fun _ => True) (.loop _ _ _ trivial (fun j p _ => ?_)) (fun p _ => .done trivial))
    (fun p _ => ?_)
  · refine .bind (.recvResponse _) (fun _ _ => .bind (.lift' _) (fun _ _ => ?_))
    split
    · exact .bind (.lift' _) (fun _ _ => .lift' _)
    · exact .done trivial
  · exact .bind (.lift' _) (fun _ _ =>
      .bind (R := fun _ => True) (.each _ _ trivial (fun _ _ _ => .sendResponse _ _ _)) (fun _ _ => .bind (.flush _ _) (fun _ _ => .done trivial)))

theorem initializeCounts_still (p : Party box) (back next : ι) (hs : Shape p k parties pk sk) :
    Still (fun p' => Shape p' k parties pk sk) (p.initializeCounts back next) :=
  .bind (.readCount _) (fun _ _ => .bind (.sendCount _ _) (fun _ _ =>
    .done ⟨hs.id, hs.count, hs.pkey, hs.skey, hs.short, hs.long, hs.lt, Nat.mod_lt _ (by decide)⟩))

theorem initializeShuffler_fields {p p' : Party box} {rand : PartyRand box} (h : p.initializeShuffler rand = .ok p') :
    ∃ s, p' = { p with shuffler := s } := by
  unfold Party.initializeShuffler at h
  cases h1 : p.shuffler.initialize rand.rand p.shuffledCount with
  | error e => rw [h1] at h; cases h
  | ok s =>
    rw [h1, bind_ok] at h
    exact ⟨s, (Except.ok.inj h).symm⟩

theorem initializeShuffler_error {p : Party box} {rand : PartyRand box} {e : Fault} (hn : p.shuffledCount < 2 ^ 32) (h : p.initializeShuffler rand = .error e) : False := by
  obtain ⟨s', h1, -⟩ := initialize_spec rand.rand p.shuffler p.shuffledCount hn
  unfold Party.initializeShuffler at h
  rw [h1] at h
  cases h

theorem party_offline_safe (p : Party box) (rand : PartyRand box) (back next : ι) (hs : Shape p k parties pk sk) :
    Safe (Justified pk sk) StopOk (p.startOffline rand back next) (fun _ h' => AllIn h') [] := by
  have first : Still (fun p' : Party box => Shape p' k parties pk sk ∧ (∃ shorts, p'.ciphers.Holds shorts []) ∧
      p'.ciphers.mem.length = p'.ciphers.firstLong + p'.inputCount * p'.ciphers.longSize)
      ((lift (p.initializeNoiseSamples rand)).bind fun p => (p.initializeCounts back next).bind fun p =>
        (lift ({ p with queriesState := p.queriesState.initialize false
                        noiseState := p.noiseState.initialize (p.partyCount - p.partyId - 1) p.noiseCount true false }.createNoiseCiphers rand)).bind fun p =>
        (waitForReady next).bind fun _ => (sendReady back).bind fun _ => .done p) := by
    refine .bind (.lift (fun p' h' => hs.samples h')) (fun p' hs' => .bind (initializeCounts_still _ _ _ hs') (fun p'' h'' => ?_))
    refine .bind (.lift (fun q hq => create_shape (k := k) (parties := parties) (pk := pk) (sk := sk) ?_ hq)) (fun q hq => ?_)
    · exact ⟨h''.id, h''.count, h''.pkey, h''.skey, h''.short, h''.long, h''.lt, h''.shuffled⟩
    · refine .bind (.waitForReady _) (fun _ _ => .bind (.sendReady _) (fun _ _ => .done ⟨hq.1, hq.2.2.1, ?_⟩))
      rw [hq.2.1]
      exact hq.2.2.2
  have last : ∀ p : Party box, Still (fun _ => True) ((p.sendCiphers next).bind fun p => (lift (p.initializeShuffler rand)).bind fun p =>
      (lift p.prepareOnline).bind fun p => (waitForReady next).bind fun _ => (sendReady back).bind fun _ => .done p : Prog ι (Party box)) := by
    intro p
    refine .bind (R := fun _ => True) (.bind (R := fun _ => True) (.loop _ _ _ trivial (fun _ _ _ => .bind (.lift' _) (fun _ _ => .sendCipher _ _ _ _)))
      (fun _ _ => .bind (.flush _ _) (fun _ _ => .done trivial))) (fun _ _ => ?_)
    exact .bind (.lift' _) (fun _ _ => .bind (.lift' _) (fun _ _ => .bind (.waitForReady _) (fun _ _ => .bind (.sendReady _) (fun _ _ => .done trivial))))
  have hrun : p.startOffline rand back next = (((lift (p.initializeNoiseSamples rand)).bind fun p => (p.initializeCounts back next).bind fun p =>
        (lift ({ p with queriesState := p.queriesState.initialize false
                        noiseState := p.noiseState.initialize (p.partyCount - p.partyId - 1) p.noiseCount true false }.createNoiseCiphers rand)).bind fun p =>
        (waitForReady next).bind fun _ => (sendReady back).bind fun _ => .done p).bind fun p => (p.collectCiphers back).bind fun p =>
        (lift (p.initializeShuffler rand)).bind fun p => p.installSecrets.bind fun p => ((p.sendCiphers next).bind fun p => (lift (p.initializeShuffler rand)).bind fun p =>
      (lift p.prepareOnline).bind fun p => (waitForReady next).bind fun _ => (sendReady back).bind fun _ => .done p : Prog ι (Party box))) := by
    simp only [Proc.bind_assoc]
    rfl
  rw [hrun]
  refine Safe.bind' (first.safe pk sk [] rfl) ?_
  rintro q h ⟨⟨a1, ⟨shorts, a2⟩, a3⟩, a4, a5⟩
  refine Safe.bind' (collect_safe q back h a1 shorts a2 a3 a5 a4) ?_
  rintro q h ⟨b1, b2, b3⟩
  refine Safe.bind (Safe.lift ?_ (fun e he _ => (initializeShuffler_error b1.shuffled he).elim))
  intro q' hq'
  obtain ⟨s, rfl⟩ := initializeShuffler_fields hq'
  refine Safe.bind' (install_safe (p := { q with shuffler := s }) (k := k) (parties := parties) _ h shorts (ciphersRead h)
    ⟨b1.id, b1.count, b1.pkey, b1.skey, b1.short, b1.long, b1.lt, b1.shuffled⟩ b3 ?_ (by rw [b2]; simp) (by rw [b2]; rfl)) ?_
  · show (ciphersRead h).length ≤ q.ciphers.lastLong - q.ciphers.firstLong
    rw [b3.lastLong]
    have h1 : 1 ≤ q.ciphers.longSize := by
      rw [b1.long, cipherSize]
      have := b1.lt
      exact Nat.mul_pos (by simp [secretSize]) (by omega)
    have h2 : (ciphersRead h).length * 1 ≤ (ciphersRead h).length * q.ciphers.longSize := Nat.mul_le_mul_left _ h1
    omega
  · intro q h hin
    refine ((last q).safe pk sk h hin).mono ?_
    rintro _ h' ⟨-, c1, c2⟩
    unfold AllIn
    rw [c1, c2]
    exact hin

theorem party_start_safe (p : Party box) (rand : PartyRand box) (back next : ι) (offline online : Bool) (hs : Shape p k parties pk sk) :
    Safe (Justified pk sk) StopOk (p.start rand back next offline online) (fun _ h' => AllIn h') [] := by
  have hst : p.start rand back next offline online = (if offline then p.startOffline rand back next else p.simulateOffline rand back next).bind
      fun p => if online then (p.startOnline back next).bind fun _ => .done () else .done () := by
    unfold Party.start
    cases offline <;> rfl
  rw [hst]
  refine Safe.bind' (R := fun _ h => AllIn h) ?_ ?_
  · cases offline
    · refine ((Still.safe (R := fun _ => True) ?_ pk sk [] rfl).mono ?_)
      · exact .bind (.lift (fun p' h' => hs.samples h')) (fun _ hs' => .bind (initializeCounts_still _ _ _ hs') (fun _ _ => .bind (.lift' _) (fun _ _ =>
          .bind (.lift' _) (fun _ _ => .bind (.waitForReady _) (fun _ _ => .bind (.sendReady _) (fun _ _ => .done trivial))))))
      · rintro _ h' ⟨-, c1, c2⟩
        unfold AllIn
        rw [c1, c2]
        rfl
    · exact party_offline_safe p rand back next hs
  · intro q h hin
    cases online
    · exact hin
    · refine Safe.bind' ((party_online_still q back next).safe pk sk h hin) ?_
      rintro _ h' ⟨-, c1, c2⟩
      show AllIn h'
      unfold AllIn
      rw [c1, c2]
      exact hin

theorem party_safe (c : Chain box) (k : Nat) (offline online : Bool) :
    Safe (Justified (c.pkey k) (c.skey k)) StopOk (c.party k offline online) (fun _ h' => AllIn h') [] := by
  unfold Chain.party
  refine Safe.bind (Safe.lift (fun db _ => ?_) (fun e _ hne => absurd rfl hne))
  refine Safe.bind (Safe.lift (fun p hp => ?_) (fun e _ hne => absurd rfl hne))
  unfold Party.new at hp
  by_cases h0 : 2 ≤ c.parties ∧ k < c.parties - 1
  · simp [DPPIR.assert, h0, bind_ok] at hp
    obtain rfl := hp
    exact party_start_safe (parties := c.parties) (k := k) _ _ _ _ _ _ ⟨rfl, rfl, rfl, rfl, rfl, rfl, by omega, Nat.two_pow_pos 32⟩
  · simp only [DPPIR.assert, decide_eq_false h0] at hp
    cases hp

/-! ### The backend -/

theorem backend_install_safe (b : Backend box) (back : ι) (h : List Obs) (hin : AllIn h) :
    Safe (Justified b.pkey b.skey) StopOk (b.collectAndInstallSecrets back) (fun b' h' => AllIn h') h := by
  refine (Safe.loop (I := Justified b.pkey b.skey) (F := StopOk) (f := Backend.installStep (box := box) back)
    (fun _ b' h' => AllIn h' ∧ b'.pkey = b.pkey ∧ b'.skey = b.skey) _ 0 b h ⟨hin, rfl, rfl⟩ ?_).mono (fun _ _ h => h.1)
  rintro j q h' - - ⟨a1, a2, a3⟩
  refine Safe.bind' (R := fun c h'' => c.length = cipherSize 1 ∧ stores h'' = stores h' ∧ ciphersRead h'' = ciphersRead h' ++ [c])
    (Safe.bind (Safe.recvBytes _ (fun l hl => ⟨trivial, ?_⟩))) ?_
  · exact ⟨hl, by rw [stores_append]; exact List.append_nil _, by rw [ciphersRead_append]; rfl⟩
  · rintro c h'' ⟨c1, c2, c3⟩
    unfold Backend.handleOnionCipher
    have hdec : onionDecrypt box c 1 q.pkey q.skey =
        match box.openMsg b.pkey b.skey c with | none => .error .assertFail | some plain => .ok ⟨plain⟩ := by
      unfold onionDecrypt
      simp only
      rw [if_neg (by simp [cipherSize, secretSize]), show slice c 0 (cipherSize 1) = .ok c from by
          have := slice_zero (b := []) c1
          rwa [List.append_nil] at this, bind_ok, a2, a3]
      rfl
    rw [hdec]
    cases hopen : box.openMsg b.pkey b.skey c with
    | none => exact fun _ => rfl
    | some plain =>
      have hplain := box.open_length _ _ _ _ hopen
      have hmsg : (OnionLayer.mk plain).msg = .ok (OfflineSecret.decode (plain.take secretSize)) := by
        unfold OnionLayer.msg
        have : secretSize + sealBytes = plain.length + sealBytes := by rw [← hplain, c1]; rfl
        rw [slice_ok (by simp only; omega)]
        rfl
      show Safe _ _ ((lift (OnionLayer.mk plain).msg).bind _) _ _
      rw [hmsg]
      have hlen : (stores h'').length = (ciphersRead h').length := by rw [c2]; exact a1
      refine ⟨⟨c, plain, ?_, hopen, rfl⟩, ?_⟩
      · rw [c3, hlen]; simp
      · show Safe _ _ ((lift (q.state.store _)).bind _) _ _
        refine Safe.bind (Safe.lift ?_ ?_)
        · intro st _
          refine ⟨?_, a2, a3⟩
          unfold AllIn
          rw [stores_append, ciphersRead_append, c3]
          simp [stores, ciphersRead] at hlen ⊢
          exact hlen
        · intro e he hne
          refine absurd ?_ hne
          rw [stores_append, ciphersRead_append, c3]
          simp [stores, ciphersRead] at hlen ⊢
          exact hlen

theorem backend_online_still (b : Backend box) (back : ι) (junk : Response) : Still (fun _ => True) (b.startOnline back junk) := by
  refine .bind (R := fun _ => True) (.loop _ _ _ trivial (fun _ _ _ => ?_)) (fun p _ => ?_)
  · exact .bind (.recvQuery _) (fun _ _ => .bind (.lift' _) (fun _ _ => .done trivial))
  · refine .bind (.lift' _) (fun _ _ => .bind (R := fun _ => True) (.each _ _ trivial (fun q s _ => ?_))
      (fun _ _ => .bind (.flush _ _) (fun _ _ => .done trivial)))
    refine .bind (R := fun _ => True) ?_ (fun _ _ => .bind (.sendResponse _ _ _) (fun _ _ => .done trivial))
    exact .bind (.lift' _) (fun _ _ => .bind (R := fun _ => True) (.obs trivial (.done trivial)) (fun _ _ => .bind (.lift' _) (fun _ _ =>
      .bind (.lift' _) (fun _ _ => .bind (.lift' _) (fun _ _ => .done trivial)))))

theorem backend_safe (c : Chain box) (offline online : Bool) :
    Safe (Justified (c.pkey (c.parties - 1)) (c.skey (c.parties - 1))) StopOk (c.backend offline online) (fun _ h' => AllIn h') [] := by
  unfold Chain.backend
  refine Safe.bind (Safe.lift (fun db _ => ?_) (fun e _ hne => absurd rfl hne))
  refine Safe.bind (Safe.lift (fun b hb => ?_) (fun e _ hne => absurd rfl hne))
  have hk : b.pkey = c.pkey (c.parties - 1) ∧ b.skey = c.skey (c.parties - 1) := by
    unfold Backend.new at hb
    by_cases h0 : 2 ≤ c.parties
    · simp [DPPIR.assert, h0, bind_ok] at hb
      obtain rfl := hb
      exact ⟨rfl, rfl⟩
    · simp only [DPPIR.assert, decide_eq_false h0] at hb
      cases hb
  rw [← hk.1, ← hk.2]
  have keys : Still (fun b' : Backend box => b'.pkey = b.pkey ∧ b'.skey = b.skey) (b.initializeBatch (c.parties - 1)) :=
    .bind (.readCount _) (fun _ _ => .done ⟨rfl, rfl⟩)
  have hst : b.start (c.parties - 1) c.junk offline online = (if offline then b.startOffline (c.parties - 1) else b.simulateOffline (c.parties - 1)).bind
      fun b => if online then (b.startOnline (c.parties - 1) c.junk).bind fun _ => .done () else .done () := by
    unfold Backend.start
    cases offline <;> rfl
  rw [hst]
  refine Safe.bind' (R := fun _ h => AllIn h) ?_ ?_
  · cases offline
    · refine ((Still.safe (R := fun _ => True) ?_ b.pkey b.skey [] rfl).mono ?_)
      · exact .bind keys (fun _ _ => .bind (.sendReady _) (fun _ _ => .done trivial))
      · rintro _ h' ⟨-, c1, c2⟩
        unfold AllIn
        rw [c1, c2]
        rfl
    · refine Safe.bind' (keys.safe b.pkey b.skey [] rfl) ?_
      rintro b' h ⟨⟨k1, k2⟩, c1, c2⟩
      refine Safe.bind' ((Still.sendReady _).safe b.pkey b.skey h (by unfold AllIn; rw [c1, c2]; rfl)) ?_
      rintro - h' ⟨-, d1, d2⟩
      have := backend_install_safe { b' with state := b'.state.initialize false } (c.parties - 1) h' (by unfold AllIn; rw [d1, d2, c1, c2]; rfl)
      rw [← k1, ← k2]
      refine Safe.bind' this ?_
      intro b'' h'' hin
      refine Safe.bind' ((Still.sendReady _).safe b'.pkey b'.skey h'' hin) ?_
      rintro - h3 ⟨-, e1, e2⟩
      show AllIn h3
      unfold AllIn
      rw [e1, e2]
      exact hin
  · intro q h hin
    cases online
    · exact hin
    · refine Safe.bind' ((backend_online_still q _ _).safe b.pkey b.skey h hin) ?_
      rintro _ h' ⟨-, c1, c2⟩
      show AllIn h'
      unfold AllIn
      rw [c1, c2]
      exact hin

end DPPIR.Protocol
