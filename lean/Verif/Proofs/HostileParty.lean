import Verif.Proofs.Hostile

/-!
# How a party stops among arbitrary peers
-/

namespace DPPIR.Protocol
open DPPIR Proc Onion Incremental Additive Spec Props Shuffle

variable {box : SealedBox} {ι α β : Type}

section party
variable {noise : Nat} {offline : Bool}

theorem TooMany.append {noise : Nat} {h : List Obs} (hh : TooMany noise h) (t : List Obs) : TooMany noise (h ++ t) := by
  obtain ⟨n, h1, h2⟩ := hh
  refine ⟨n, ?_, h2⟩
  unfold countsRead at *
  rw [List.filterMap_append]
  exact List.mem_append_left _ h1

theorem many_safe {B : List Obs → Prop} (hB : ∀ h', TooMany noise h' → B h') (p : Prog ι α) (h : List Obs) (hh : TooMany noise h) :
    Safe Any (Stop B) p (fun _ h' => TooMany noise h') h := by
  induction p generalizing h with
  | done a => exact hh
  | fault e => exact Or.inr (Or.inr (hB h hh))
  | send d b k ih => exact ih h hh
  | recv s k ih => exact fun b => ih b h hh
  | obs o k ih => exact ⟨trivial, ih _ (hh.append [o])⟩

theorem counts_safe {B : List Obs → Prop} (p : Party box) (back next : ι) (h : List Obs) (n : Nat) (hn : p.noiseCount = wrap32 n) :
    Safe Any (Stop B) (p.initializeCounts back next) (fun p' h' => TooMany n h' ∨ ∃ N, N + n < 2 ^ 32 ∧ Keeps h h' ∧ p' = { p with
        inputCount := N
        shuffledCount := N + n }) h := by
  refine Safe.bind' (readCount_safe back) ?_
  rintro N h' ⟨h1, h2, h3⟩
  refine Safe.bind' (sendCount_safe next _) ?_
  rintro - h'' rfl
  by_cases hlt : N + n < 2 ^ 32
  · right
    refine ⟨N, hlt, h2.trans (Keeps.obs _ (by simp)), ?_⟩
    rw [hn, wrap32_of_lt (show n < 2 ^ 32 by omega), wrap32_of_lt hlt]
  · left
    refine TooMany.append ⟨BitVec.ofNat 32 N, by rw [h3]; simp, ?_⟩ _
    rw [BitVec.toNat_ofNat, Nat.mod_eq_of_lt h1]
    omega

section
variable {pkeys : List box.PKey} {skeys : List box.SKey}

/-- A party at the end of an offline stage. -/
def Prepared (n : Nat) (offline : Bool) (p : Party box) (h : List Obs) : Prop :=
  ∃ N NQ rest F Bw, PartyReady p N (N + n) NQ rest F Bw ∧ NQ.length = n ∧ rest.length = N ∧ IsShuffler F Bw (N + n) ∧ N + n < 2 ^ 32 ∧
    Knows p.queriesState offline h

theorem lookup_none_keys {β : Type} : ∀ (l : List (BitVec 64 × β)) (t : BitVec 64), l.lookup t = none → t ∉ l.map Prod.fst := by
  intro l t h
  induction l with
  | nil => simp
  | cons e l ih =>
    obtain ⟨k, v⟩ := e
    rw [List.lookup_cons] at h
    by_cases hk : t = k
    · subst hk; simp at h
    · rw [show (t == k) = false from by simpa using hk] at h
      simpa [hk] using ih h

theorem prepare_safe {B : List Obs → Prop} {p : Party box} {rand : PartyRand box} {k rows n N : Nat} {seed : Int} (back next : ι) (h : List Obs)
    (c : PartyCore p k rows n N seed rand.sample pkeys skeys) (hn : sampleSum rand.sample rows = n) (h32 : N + n < 2 ^ 32)
    (hsh : p.shuffler = shufOf rand.rand seed (N + n)) (m : Nat) (hm : 0 < m)
    (hr : rows ≤ Spec.p) (tag : Nat → BitVec 64) (shares : Nat → List Share) (pres : Nat → List Preshare)
    (hs : ∀ i, ∀ s ∈ shares i, Spec.IsShare s) (hsl : ∀ i, (shares i).length = m) (hpl : ∀ i, (pres i).length = m)
    (hready : NoiseReady p.noiseState n tag shares) (hk : Knows p.queriesState offline h) :
    Safe Any (Stop B) ((lift p.prepareOnline).bind fun p => (waitForReady next).bind fun _ => (sendReady back).bind fun _ => .done p : Prog ι (Party box))
      (Prepared n offline) h := by
  obtain ⟨p', h1, h2, h3⟩ := core_prepare c hn h32 hsh m hm hr tag shares pres hs hsl hpl hready (List.replicate N QTicket.zero) (by simp)
  refine safe_ok h1 (Safe.bind' (waitForReady_safe next) ?_)
  rintro - h' rfl
  refine Safe.bind' (sendReady_safe back) ?_
  rintro - h'' rfl
  refine ⟨N, _, _, _, _, h3, by rw [noiseQ_length, noiseKeys_length, hn], by simp, (shufOf_ok rand.rand p.shuffler seed c.seed (N + n) h32).2.2, h32, ?_⟩
  rw [h2]
  exact hk.keeps ((Keeps.obs _ (by simp)).trans (Keeps.obs _ (by simp)))

theorem startOffline_safe {B : List Obs → Prop} (hgood : GoodKeys box pkeys skeys) (hp : pkeys.length ≤ 255) (p : Party box) (rand : PartyRand box)
    (back next : ι) (k m rows : Nat) (seed : Int) (hkm : k + m + 1 = pkeys.length) (hm : 0 < m)
    (hfr : PartyFresh p k rows seed pkeys skeys) (hrnd : Noise.IsDivRounding rand.rnd)
    (hr0 : 0 < rows) (hr : rows ≤ Spec.p) (n : Nat) (hn : sampleSum rand.sample rows = n) (h : List Obs) (hst : stores h = [])
    (hB : ∀ h', TooMany n h' → B h') :
    Safe Any (Stop B) (p.startOffline rand back next) (fun p' h' => TooMany n h' ∨ Prepared n true p' h') h := by
  have hp32 : Spec.p < 2 ^ 32 := by decide
  unfold Party.startOffline
  refine safe_ok (noiseSamples_wrap p rand rows hrnd hfr.server hfr.servers hfr.db hr0 (by omega)) ?_
  refine Safe.bind' (counts_safe _ back next h n (by rw [hn])) ?_
  rintro p2 h2 (hmany | ⟨N, h32, k2, rfl⟩)
  · exact (many_safe hB _ _ hmany).mono (fun _ _ h => Or.inl h)
  have hnc : wrap32 (sampleSum rand.sample rows) = n := by rw [hn, wrap32_of_lt (by omega)]
  rw [hnc]
  obtain ⟨p3, e3, c3, q3, n3, hS3, hL3⟩ := core_states (p := { p with
      noiseCount := n
      noiseStart := 0
      noiseEnd := rows
      noise := { ptr := (List.range rows).map (fun i => (rand.sample i).toNat), capacity := rows, right := rows }
      inputCount := N
      shuffledCount := N + n }) (k := k) (rows := rows) (n := n) (N := N) (m := m) (seed := seed) (sample := rand.sample)
    (pkeys := pkeys) (skeys := skeys)
    ⟨hfr.id, hfr.count, hfr.seed, hfr.keys, hfr.pkey, hfr.skey, rfl, rfl, rfl, rfl, rfl, rfl⟩ hkm hfr.state hfr.short hfr.long
  simp only at e3 ⊢
  rw [e3]
  obtain ⟨p4, s4, c4, q4, n4, b4, hS4, hL4, hm4⟩ := core_create hgood hp c3 _ hkm (by omega) q3 n3 hS3 hL3
  refine safe_ok s4 ?_
  refine Safe.bind' (waitForReady_safe next) ?_
  rintro - h' rfl
  refine Safe.bind' (sendReady_safe back) ?_
  rintro - h' rfl
  refine Safe.bind' (collectCiphers_safe p4 back _ _ b4 (by rw [hm4, c4.input, hL4])) ?_
  rintro p5 h5 ⟨k5, b, rest, rfl, b5, r5, hS5, hL5, -⟩
  have k5' := (k2.trans ((Keeps.obs _ (by simp)).trans (Keeps.obs _ (by simp)))).trans k5
  have hst5 : stores h5 = [] := k5'.stores.trans hst
  have c5 : PartyCore { p4 with ciphers := b } k rows n N seed rand.sample pkeys skeys :=
    ⟨c4.id, c4.count, c4.seed, c4.keys, c4.pkey, c4.skey, c4.input, c4.shuffled, c4.noise, c4.samples, c4.start, c4.stop⟩
  obtain ⟨p6, s6, c6, q6, n6, b6, f6⟩ := core_shuffler c5 h32
  refine safe_ok s6 ?_
  have hperm := (shufOf_ok rand.rand p6.shuffler seed c6.seed (N + n) h32).2.2
  have hL6 : p6.ciphers.longSize = cipherSize (m + 1) := by rw [b6]; exact hL5.trans hL4
  have hS6 : p6.ciphers.shortSize = cipherSize m := by rw [b6]; exact hS5.trans hS4
  have hb6 : p6.ciphers.Holds ((List.range n).map (fun i => (noiseT rand m N i).cipher pkeys (k + 1))) rest := by rw [b6]; exact b5
  refine Safe.bind' (installLoop_safe m _ p6 h5 _ rest hb6 ?_ ?_ hS6 hL6 ?_ ?_) ?_
  · rw [hb6.lastLong, hL6, Nat.add_sub_cancel_left]
    exact Nat.le_mul_of_pos_right _ (Nat.mul_pos (by decide) (by omega))
  · rw [c6.id, c6.count]; omega
  · rw [q6]; simp only; rw [q4]
  · rw [q6, hst5]; simp only; rw [q4]; rfl
  rintro p7 h7 ⟨b', st, shorts', rfl, d1, d2, d3, d4, d5, -, -⟩
  have hlen' : shorts'.length = N + n := by
    rw [d2, r5, c4.input, List.length_map, List.length_range, Nat.add_comm]
  have c7 : PartyCore { p6 with
      ciphers := b'
      queriesState := st } k rows n N seed rand.sample pkeys skeys :=
    ⟨c6.id, c6.count, c6.seed, c6.keys, c6.pkey, c6.skey, c6.input, c6.shuffled, c6.noise, c6.samples, c6.start, c6.stop⟩
  refine Safe.bind' (sendCiphers_safe _ next h7 shorts' d1 ?_ ?_ ?_ ?_) ?_
  · rw [hlen']; exact c6.shuffled
  · rw [hlen']; simp only; rw [f6]; exact hperm.perm
  · simp only; rw [d3]; exact Nat.mul_pos (by decide) hm
  · simp only; rw [d3]; simp only [cipherSize, secretSize, sealBytes, Sockets.bufferSize]; omega
  rintro p8 h8 ⟨k8, rfl⟩
  have c8 : PartyCore { p6 with
      ciphers := b'.free
      queriesState := st
      shuffler := p6.shuffler.finishForward } k rows n N seed rand.sample pkeys skeys :=
    ⟨c6.id, c6.count, c6.seed, c6.keys, c6.pkey, c6.skey, c6.input, c6.shuffled, c6.noise, c6.samples, c6.start, c6.stop⟩
  obtain ⟨p9, s9, c9, q9, n9, -, f9⟩ := core_shuffler c8 h32
  refine safe_ok s9 ?_
  refine (prepare_safe (offline := true) back next h8 c9 hn h32 f9 m hm hr (noiseTag N)
    (fun i => preIncrementalSecretShares (rand.secret i).shares m) (fun i => (List.range m).map (rand.secret i).preshares)
    (fun i => preShares_valid _ _) (fun i => preShares_length _ _) (fun i => by simp)
    (by rw [n9]; simp only; rw [n6]; exact n4) ?_).mono (fun _ _ h => Or.inr h)
  rw [q9]
  intro tag ht
  simp only [d4] at ht
  refine ⟨rfl, ?_⟩
  rw [k8.stores, ← d5]
  exact lookup_none_keys _ _ ht

theorem simulateOffline_safe {B : List Obs → Prop} (p : Party box) (rand : PartyRand box)
    (back next : ι) (k m rows : Nat) (seed : Int) (hkm : k + m + 1 = pkeys.length) (hm : 0 < m)
    (hfr : PartyFresh p k rows seed pkeys skeys) (hrnd : Noise.IsDivRounding rand.rnd)
    (hr0 : 0 < rows) (hr : rows ≤ Spec.p) (n : Nat) (hn : sampleSum rand.sample rows = n) (h : List Obs)
    (hB : ∀ h', TooMany n h' → B h') :
    Safe Any (Stop B) (p.simulateOffline rand back next) (fun p' h' => TooMany n h' ∨ Prepared n false p' h') h := by
  have hp32 : Spec.p < 2 ^ 32 := by decide
  have hms : pkeys.length - k - 1 = m := by omega
  unfold Party.simulateOffline
  refine safe_ok (noiseSamples_wrap p rand rows hrnd hfr.server hfr.servers hfr.db hr0 (by omega)) ?_
  refine Safe.bind' (counts_safe _ back next h n (by rw [hn])) ?_
  rintro p2 h2 (hmany | ⟨N, h32, k2, rfl⟩)
  · exact (many_safe hB _ _ hmany).mono (fun _ _ h => Or.inl h)
  have hnc : wrap32 (sampleSum rand.sample rows) = n := by rw [hn, wrap32_of_lt (by omega)]
  rw [hnc]
  have c2 : PartyCore { p with
      noiseCount := n
      noiseStart := 0
      noiseEnd := rows
      noise := { ptr := (List.range rows).map (fun i => (rand.sample i).toNat), capacity := rows, right := rows }
      inputCount := N
      shuffledCount := N + n } k rows n N seed rand.sample pkeys skeys :=
    ⟨hfr.id, hfr.count, hfr.seed, hfr.keys, hfr.pkey, hfr.skey, rfl, rfl, rfl, rfl, rfl, rfl⟩
  obtain ⟨p3, s3, c3, q3, -, -, f3⟩ := core_shuffler c2 h32
  refine safe_ok s3 ?_
  have c4 : PartyCore { p3 with
      queriesState := p3.queriesState.initialize true
      noiseState := p3.noiseState.initialize (p3.partyCount - p3.partyId - 1) p3.noiseCount true true }
      k rows n N seed rand.sample pkeys skeys :=
    ⟨c3.id, c3.count, c3.seed, c3.keys, c3.pkey, c3.skey, c3.input, c3.shuffled, c3.noise, c3.samples, c3.start, c3.stop⟩
  refine (prepare_safe (offline := false) back next h2 c4 hn h32 f3 m hm hr (fun _ => 0) (fun _ => List.replicate m ⟨0, 1⟩)
    (fun _ => List.replicate m (fun _ => 0)) (by
      intro i s hs
      rw [List.eq_of_mem_replicate hs]
      exact isShare_id) (by simp) (by simp) (by
      simp only
      rw [c3.count, c3.id, hms, c3.noise]
      exact ⟨rfl, fun j hj => rfl, fun j hj => rfl⟩) ?_).mono (fun _ _ h => Or.inr h)
  intro tag ht
  simp [PartyState.initialize] at ht

theorem party_start_hostile (hgood : GoodKeys box pkeys skeys) (hp : pkeys.length ≤ 255) (p : Party box) (rand : PartyRand box)
    (back next : ι) (k m rows : Nat) (seed : Int) (hkm : k + m + 1 = pkeys.length) (hm : 0 < m)
    (hfr : PartyFresh p k rows seed pkeys skeys) (hrnd : Noise.IsDivRounding rand.rnd)
    (hr0 : 0 < rows) (hr : rows ≤ Spec.p) (n : Nat) (hn : sampleSum rand.sample rows = n) (offline online : Bool) :
    Safe Any (Stop (PartyBlame n offline)) (p.start rand back next offline online) (fun _ _ => True) [] := by
  have hst : p.start rand back next offline online = (if offline then p.startOffline rand back next else p.simulateOffline rand back next).bind
      fun p => if online then (p.startOnline back next).bind fun _ => .done () else .done () := by
    unfold Party.start
    cases offline <;> rfl
  rw [hst]
  have hoff : Safe Any (Stop (PartyBlame n offline)) (if offline then p.startOffline rand back next else p.simulateOffline rand back next)
      (fun p' h' => TooMany n h' ∨ Prepared n offline p' h') [] := by
    cases offline with
    | true => exact startOffline_safe hgood hp p rand back next k m rows seed hkm hm hfr hrnd hr0 hr n hn [] rfl (fun _ h => Or.inl h)
    | false => exact simulateOffline_safe p rand back next k m rows seed hkm hm hfr hrnd hr0 hr n hn [] (fun _ h => Or.inl h)
  refine Safe.bind' hoff ?_
  rintro p' h' (hmany | ⟨N, NQ, rest, F, Bw, h1, h2, h3, h4, h5, h6⟩)
  · exact (many_safe (fun _ h => Or.inl h) _ _ hmany).mono (fun _ _ _ => trivial)
  · cases online with
    | false => trivial
    | true =>
      refine Safe.bind' (party_online_safe p' back next h' N n NQ rest F Bw h1 h2 h3 h4 h5 h6 (fun _ ho hu => Or.inr ⟨ho, hu⟩)) ?_
      intro _ _ _
      trivial

end

theorem Chain.Configured.good {c : Chain box} (h : c.Configured) : GoodKeys box c.pkeys ((List.range c.parties).map c.skey) := by
  have e := h.keys
  refine ⟨by rw [e]; simp, ?_⟩
  generalize c.pkeys = pk at e
  subst e
  intro k h1 h2
  simp only [List.getElem_map, List.getElem_range]
  exact h.pairs k (by simpa using h1)

theorem Chain.Configured.rowsp {c : Chain box} (h : c.Configured) : 0 < c.rows ∧ c.rows ≤ Spec.p := by
  have h1 := h.rows
  have h2 : Spec.p = 2 ^ 31 - 1 := by decide
  omega

theorem party_hostile {c : Chain box} (h : c.Configured) (k : Nat) (hk : k + 1 < c.parties) (offline online : Bool) :
    Safe Any (Stop (PartyBlame (c.noise k) offline)) (c.party k offline online) (fun _ _ => True) [] := by
  have hP := h.parties
  have hlen : c.pkeys.length = c.parties := by rw [h.keys]; simp
  unfold Chain.party
  refine safe_ok (database_new _) ?_
  let db : Database := { size := c.rows, rows := (List.range c.rows).map Database.row }
  let p : Party box := { partyId := k, serverId := 0, partyCount := c.parties, serverCount := 1, db := db, shuffler := LocalShuffler.new (c.seed k), ciphers := CipherBatch.new (cipherSize (c.parties - k - 1)) (cipherSize (c.parties - k)), pkeys := c.pkeys, pkey := c.pkey k, skey := c.skey k }
  have hnew : Party.new k 0 c.parties 1 (c.seed k) c.pkeys (c.pkey k) (c.skey k) db = .ok p := by
    have : k < c.parties - 1 := by omega
    simp [Party.new, assert, hP.1, this]
    rfl
  have hfr : PartyFresh p k c.rows (c.seed k) c.pkeys ((List.range c.parties).map c.skey) := by
    refine ⟨rfl, rfl, rfl, hlen.symm, rfl, rfl, rfl, ?_, ?_, rfl, ?_, ?_⟩
    · rw [h.keys, List.getElem?_map, List.getElem?_range (by omega)]
      rfl
    · rw [List.getElem?_map, List.getElem?_range (by omega)]
      rfl
    · rw [hlen]; rfl
    · rw [hlen]; rfl
  refine safe_ok hnew ?_
  exact party_start_hostile h.good (by omega) p (c.partyRand k) k (k + 2) k (c.parties - k - 1) c.rows (c.seed k) (by omega) (by omega) hfr
    (h.division k) h.rowsp.1 h.rowsp.2 (c.noise k) rfl offline online

end party

end DPPIR.Protocol
