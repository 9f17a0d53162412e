import Verif.Proofs.Overflow
import Verif.Proofs.HostileParty

/-!
# What a party that returns has counted
-/

namespace DPPIR.Protocol
open DPPIR Proc Onion Incremental Additive Spec Props Shuffle

variable {box : SealedBox} {ι α β : Type}

/-- No demands on the calls. -/
abbrev AnyObs : List Obs → Obs → Prop := fun _ _ => True
/-- No demands on the faults. -/
abbrev AnyFault : List Obs → Fault → Prop := fun _ _ => True

theorem grows (p : Prog ι α) (h : List Obs) : Safe AnyObs AnyFault p (fun _ h' => h <+: h') h := by
  suffices ∀ g, h <+: g → Safe AnyObs AnyFault p (fun _ h' => h <+: h') g from this h (List.prefix_refl h)
  induction p with
  | done a => exact fun g hg => hg
  | fault e => exact fun _ _ => trivial
  | send d b k ih => exact ih
  | recv s k ih => exact fun g hg b => ih b g hg
  | obs o k ih => exact fun g hg => ⟨trivial, ih _ (hg.trans (List.prefix_append _ _))⟩

/-- What does not change after the counts. -/
structure CountedUp (p : Party box) (sample : Nat → BitVec 32) (rows M : Nat) : Prop where
  noise : p.noise.ptr = (List.range rows).map (fun i => (sample i).toNat)
  start : p.noiseStart = 0
  stop : p.noiseEnd = rows
  places : p.shuffledCount = M

section
variable {sample : Nat → BitVec 32} {rows M : Nat}

theorem bind_eq_ok {r : Res α} {f : α → Res β} {b : β} (h : (r >>= f) = .ok b) : ∃ a, r = .ok a ∧ f a = .ok b := by
  cases r with
  | error e => cases h
  | ok a => exact ⟨a, rfl, h⟩

theorem counted_shuffler {p p' : Party box} {rand : PartyRand box} (h : CountedUp p sample rows M) (hM : M < 2 ^ 32)
    (he : p.initializeShuffler rand = .ok p') : CountedUp p' sample rows M ∧ ∃ B, IsShuffler p'.shuffler.forward B M := by
  obtain ⟨g1, -, g3⟩ := shufOf_ok rand.rand p.shuffler p.shuffler.seed rfl p.shuffledCount (by rw [h.places]; exact hM)
  unfold Party.initializeShuffler at he
  rw [g1, bind_ok] at he
  obtain rfl := Except.ok.inj he
  exact ⟨⟨h.noise, h.start, h.stop, h.places⟩, _, by rw [← h.places]; exact g3⟩

theorem counted_create {p p' : Party box} {rand : PartyRand box} (h : CountedUp p sample rows M)
    (he : p.createNoiseCiphers rand = .ok p') : CountedUp p' sample rows M := by
  unfold Party.createNoiseCiphers Party.createNoiseCiphersTagged at he
  refine forRange_ok_inv (s := { p with ciphers := p.ciphers.initialize p.noiseCount p.inputCount })
    (fun _ p => CountedUp p sample rows M) _ (Nat.zero_le _) ⟨h.noise, h.start, h.stop, h.places⟩ ?_ he
  intro j s s' _ _ hs hstep
  unfold Party.noiseCipherStep Party.makeNoiseSecretTagged at hstep
  simp only at hstep
  obtain ⟨tag, -, hstep⟩ := bind_eq_ok hstep
  obtain ⟨⟨q, sec⟩, hq, hstep⟩ := bind_eq_ok hstep
  obtain ⟨x, -, hq⟩ := bind_eq_ok hq
  obtain ⟨y, -, hq⟩ := bind_eq_ok hq
  obtain ⟨z, -, hq⟩ := bind_eq_ok hq
  have hq := Except.ok.inj hq
  obtain ⟨rfl, -⟩ := Prod.mk.inj hq
  obtain ⟨c, -, hstep⟩ := bind_eq_ok hstep
  obtain ⟨b, -, hstep⟩ := bind_eq_ok hstep
  obtain rfl := Except.ok.inj hstep
  exact ⟨hs.noise, hs.start, hs.stop, hs.places⟩

theorem counted_collect (p : Party box) (back : ι) (h : List Obs) (hc : CountedUp p sample rows M) :
    Safe AnyObs AnyFault (p.collectCiphers back) (fun p' h' => h <+: h' ∧ CountedUp p' sample rows M) h := by
  unfold Party.collectCiphers
  refine Safe.loop (fun _ p' h' => h <+: h' ∧ CountedUp p' sample rows M) _ _ _ _ ⟨List.prefix_refl h, hc⟩ ?_
  intro i p' h' _ _ ⟨hpre, hp'⟩
  refine Safe.bind' (grows _ h') ?_
  intro c h2 h2p
  refine Safe.bind (Safe.lift (fun b _ => ?_) (fun _ _ => trivial))
  exact ⟨hpre.trans h2p, ⟨hp'.noise, hp'.start, hp'.stop, hp'.places⟩⟩

theorem counted_install (fuel : Nat) (p : Party box) (h : List Obs) (hc : CountedUp p sample rows M) (F : List Nat)
    (hF : p.shuffler.forward = F) :
    Safe AnyObs AnyFault (Party.installLoop fuel p : Prog ι (Party box))
      (fun p' h' => h <+: h' ∧ CountedUp p' sample rows M ∧ p'.shuffler.forward = F) h := by
  induction fuel generalizing p h with
  | zero =>
    unfold Party.installLoop
    split
    · trivial
    · exact ⟨List.prefix_refl h, hc, hF⟩
  | succ fuel ih =>
    unfold Party.installLoop
    split
    · refine Safe.bind (Safe.lift (fun layer _ => ?_) (fun _ _ => trivial))
      refine Safe.bind (Safe.lift (fun msg _ => ?_) (fun _ _ => trivial))
      refine Safe.bind' (R := fun _ h' => h <+: h') ⟨trivial, List.prefix_append _ _⟩ ?_
      intro _ h1 hp1
      refine Safe.bind (Safe.lift (fun st _ => ?_) (fun _ _ => trivial))
      refine Safe.bind (Safe.lift (fun b _ => ?_) (fun _ _ => trivial))
      refine (ih { p with
        ciphers := b
        queriesState := st } h1 ⟨hc.noise, hc.start, hc.stop, hc.places⟩ hF).mono ?_
      rintro p' h' ⟨hp2, h2⟩
      exact ⟨hp1.trans hp2, h2⟩
    · exact ⟨List.prefix_refl h, hc, hF⟩

theorem counted_send (p : Party box) (next : ι) (h : List Obs) (hc : CountedUp p sample rows M) :
    Safe AnyObs AnyFault (p.sendCiphers next) (fun p' h' => h <+: h' ∧ CountedUp p' sample rows M) h := by
  unfold Party.sendCiphers
  refine Safe.bind' (grows _ h) ?_
  intro w h1 hp1
  refine Safe.bind' (grows _ h1) ?_
  intro _ h2 hp2
  exact ⟨hp1.trans hp2, ⟨hc.noise, hc.start, hc.stop, hc.places⟩⟩

/-- A query step that succeeds had a place. -/
theorem query_place {p p' : Party box} {B : List Nat} (hF : IsShuffler p.shuffler.forward B M) (key i : Nat)
    (he : Party.noiseQueryStep key i p = .ok p') : i < M ∧ p'.shuffler = p.shuffler ∧ p'.noise = p.noise ∧ p'.noiseStart = p.noiseStart := by
  unfold Party.noiseQueryStep LocalShuffler.shuffle at he
  obtain ⟨f, hf, he⟩ := bind_eq_ok he
  refine ⟨?_, ?_⟩
  · by_contra hi
    rw [rd_ub (by rw [hF.length]; omega)] at hf
    cases hf
  · unfold Party.makeNoiseQuery at he
    simp only at he
    obtain ⟨_, -, he⟩ := bind_eq_ok he
    obtain ⟨_, -, he⟩ := bind_eq_ok he
    obtain ⟨_, -, he⟩ := bind_eq_ok he
    obtain ⟨_, -, he⟩ := bind_eq_ok he
    obtain rfl := Except.ok.inj he
    exact ⟨rfl, rfl, rfl⟩

/-- What the noise queries of one key that succeed show. -/
theorem key_places {p p' : Party box} {B : List Nat} (hF : IsShuffler p.shuffler.forward B M) (bound : Nat)
    (hb : ∀ key < rows, (sample key).toNat ≤ bound) (h32 : M + bound < 2 ^ 32)
    (hnoise : p.noise.ptr = (List.range rows).map (fun i => (sample i).toNat)) (hst : p.noiseStart = 0)
    (key : Nat) (hk : key < rows) (hs : sampleSum sample key ≤ M) (idx : Nat)
    (he : Party.noiseKeyStep key (sampleSum sample key, p) = .ok (idx, p')) :
    idx = sampleSum sample (key + 1) ∧ sampleSum sample (key + 1) ≤ M ∧
      p'.shuffler = p.shuffler ∧ p'.noise = p.noise ∧ p'.noiseStart = p.noiseStart := by
  have hmono := sampleSum_mono sample (show key ≤ key + 1 by omega)
  have hlt : sampleSum sample (key + 1) < 2 ^ 32 := by
    have := hb key hk
    rw [sampleSum_succ]
    omega
  have e1 : p.noise.get (key - p.noiseStart) = .ok (sample key).toNat := by
    unfold Batch.get
    rw [hnoise, hst, rd_eq_ok]
    simp [hk]
  unfold Party.noiseKeyStep at he
  simp only at he
  rw [e1, bind_ok, ← sampleSum_succ, wrap32_of_lt hlt] at he
  obtain ⟨q, hq, he⟩ := bind_eq_ok he
  obtain ⟨rfl, rfl⟩ := Prod.mk.inj (Except.ok.inj he)
  have hinv := forRange_ok_inv (fun j (s : Party box) => j ≤ M ∧ s.shuffler = p.shuffler ∧ s.noise = p.noise ∧
    s.noiseStart = p.noiseStart) _ hmono ⟨hs, rfl, rfl, rfl⟩ (by
      rintro j s s' _ _ ⟨-, i1, i2, i3⟩ hstep
      obtain ⟨k0, k1, k2, k3⟩ := query_place (M := M) (B := B) (by rw [i1]; exact hF) key j hstep
      exact ⟨k0, k1.trans i1, k2.trans i2, k3.trans i3⟩) hq
  exact ⟨Nat.max_eq_right hmono, hinv⟩

/-- A party that has prepared its noise queries had a place for each. -/
theorem prepare_places {p p' : Party box} {B : List Nat} (hc : CountedUp p sample rows M) (hF : IsShuffler p.shuffler.forward B M)
    (bound : Nat) (hb : ∀ key < rows, (sample key).toNat ≤ bound) (h32 : M + bound < 2 ^ 32) (he : p.prepareOnline = .ok p') :
    sampleSum sample rows ≤ M := by
  unfold Party.prepareOnline Party.initializeNoiseQueries at he
  simp only at he
  rw [hc.start, hc.stop] at he
  obtain ⟨⟨idx, q⟩, hq, -⟩ := bind_eq_ok he
  have hinv := forRange_ok_inv (fun j (s : Nat × Party box) => s.1 = sampleSum sample j ∧ sampleSum sample j ≤ M ∧
    s.2.shuffler = p.shuffler ∧ s.2.noise = p.noise ∧ s.2.noiseStart = 0) _ (Nat.zero_le _)
    (by exact ⟨rfl, by simp [sampleSum], rfl, rfl, rfl⟩) (by
      rintro j ⟨i, s⟩ ⟨i', s'⟩ _ hj ⟨i0, i1, i2, i3, i4⟩ hstep
      simp only at i0 i2 i3 i4
      subst i0
      obtain ⟨k0, k1, k2, k3, k4⟩ := key_places (M := M) (B := B) (p := s) (by rw [i2]; exact hF) bound hb h32
        (by rw [i3]; exact hc.noise) i4 j hj i1 i' hstep
      exact ⟨k0, k1, k2.trans i2, k3.trans i3, k4.trans i4⟩) hq
  exact hinv.2.1

/-- The end of both offline stages. -/
theorem prepared_tail {p : Party box} {rand : PartyRand box} (back next : ι) (h : List Obs) (hc : CountedUp p sample rows M) (hM : M < 2 ^ 32)
    (bound : Nat) (hb : ∀ key < rows, (sample key).toNat ≤ bound) (g : Party box → Party box)
    (hg : ∀ q, (g q).shuffler = q.shuffler ∧ (CountedUp q sample rows M → CountedUp (g q) sample rows M)) :
    Safe AnyObs AnyFault ((lift (p.initializeShuffler rand)).bind fun p => (lift (g p).prepareOnline).bind fun p =>
      (waitForReady next).bind fun _ => (sendReady back).bind fun _ => .done p : Prog ι (Party box))
      (fun _ h' => h <+: h' ∧ (M + bound < 2 ^ 32 → sampleSum sample rows ≤ M)) h := by
  refine Safe.bind (Safe.lift (fun p1 e1 => ?_) (fun _ _ => trivial))
  obtain ⟨c1, B, hF⟩ := counted_shuffler hc hM e1
  refine Safe.bind (Safe.lift (fun p2 e2 => ?_) (fun _ _ => trivial))
  refine Safe.bind' (grows _ h) ?_
  intro _ h1 hp1
  refine Safe.bind' (grows _ h1) ?_
  intro _ h2 hp2
  exact ⟨hp1.trans hp2, fun h32 => prepare_places ((hg p1).2 c1) (by rw [(hg p1).1]; exact hF) bound hb h32 e2⟩

end

theorem counts_told (p : Party box) (back next : ι) :
    Safe AnyObs AnyFault (p.initializeCounts back next) (fun p' h' => ∃ N, N < 2 ^ 32 ∧
      h' = [.recvCount (BitVec.ofNat 32 N), .sendCount (BitVec.ofNat 32 (wrap32 (N + p.noiseCount)))] ∧
      p' = { p with
        inputCount := N
        shuffledCount := wrap32 (N + p.noiseCount) }) [] := by
  refine Safe.bind' (R := fun n h' => n < 2 ^ 32 ∧ h' = [.recvCount (BitVec.ofNat 32 n)]) ?_ ?_
  · refine Safe.bind (Safe.recvBytes _ (fun l _ => ⟨trivial, BitVec.isLt _, ?_⟩))
    rw [BitVec.ofNat_toNat, BitVec.setWidth_eq]
    rfl
  · rintro N h' ⟨hN, rfl⟩
    refine Safe.bind' (R := fun _ h' => h' = [.recvCount (BitVec.ofNat 32 N), .sendCount (BitVec.ofNat 32 (wrap32 (N + p.noiseCount)))])
      ⟨trivial, Safe.sendBytes rfl⟩ ?_
    rintro _ h' rfl
    exact ⟨N, hN, rfl, rfl⟩

/-- What a party that returns has counted. -/
def CountedRight (n bound : Nat) (h : List Obs) : Prop :=
  ∃ N M rest, h = .recvCount N :: .sendCount M :: rest ∧ M.toNat = (N.toNat + n) % 2 ^ 32 ∧ (M.toNat + bound < 2 ^ 32 → n ≤ M.toNat)

theorem offline_counted (p : Party box) (rand : PartyRand box) (rows : Nat) (hrnd : Noise.IsDivRounding rand.rnd)
    (hid : p.serverId = 0) (hsc : p.serverCount = 1) (hdb : p.db.size = rows) (hr0 : 0 < rows) (hr : rows < 2 ^ 32)
    (back next : ι) (bound : Nat) (hb : ∀ key < rows, (rand.sample key).toNat ≤ bound) (offline : Bool) :
    Safe AnyObs AnyFault (if offline then p.startOffline rand back next else p.simulateOffline rand back next)
      (fun _ h => CountedRight (sampleSum rand.sample rows) bound h) [] := by
  have key : ∀ N, N < 2 ^ 32 → ∀ h', [.recvCount (BitVec.ofNat 32 N),
      .sendCount (BitVec.ofNat 32 (wrap32 (N + wrap32 (sampleSum rand.sample rows))))] <+: h' →
      (wrap32 (N + wrap32 (sampleSum rand.sample rows)) + bound < 2 ^ 32 →
        sampleSum rand.sample rows ≤ wrap32 (N + wrap32 (sampleSum rand.sample rows))) →
      CountedRight (sampleSum rand.sample rows) bound h' := by
    rintro N hN h' ⟨rest, rfl⟩ hh
    have e : (BitVec.ofNat 32 (wrap32 (N + wrap32 (sampleSum rand.sample rows)))).toNat =
        wrap32 (N + wrap32 (sampleSum rand.sample rows)) := by
      rw [BitVec.toNat_ofNat]
      simp only [wrap32]
      omega
    refine ⟨_, _, rest, rfl, ?_, ?_⟩
    · rw [e, BitVec.toNat_ofNat]
      simp only [wrap32]
      omega
    · rw [e]
      exact hh
  have hM : ∀ N, wrap32 (N + wrap32 (sampleSum rand.sample rows)) < 2 ^ 32 := fun N => by simp only [wrap32]; omega
  cases offline with
  | true =>
    show Safe _ _ (p.startOffline rand back next) _ _
    unfold Party.startOffline
    refine safe_ok (noiseSamples_wrap p rand rows hrnd hid hsc hdb hr0 hr) ?_
    refine Safe.bind' (counts_told _ back next) ?_
    rintro p1 h1 ⟨N, hN, rfl, rfl⟩
    refine Safe.bind (Safe.lift (fun p2 e2 => ?_) (fun _ _ => trivial))
    have c2 := counted_create (sample := rand.sample) (rows := rows) (M := wrap32 (N + wrap32 (sampleSum rand.sample rows))) ⟨rfl, rfl, rfl, rfl⟩ e2
    refine Safe.bind' (grows _ _) ?_
    intro _ h3 hp3
    refine Safe.bind' (grows _ _) ?_
    intro _ h4 hp4
    refine Safe.bind' (counted_collect p2 back h4 c2) ?_
    rintro p5 h5 ⟨hp5, c5⟩
    refine Safe.bind (Safe.lift (fun p6 e6 => ?_) (fun _ _ => trivial))
    obtain ⟨c6, -⟩ := counted_shuffler c5 (hM N) e6
    refine Safe.bind' (counted_install _ p6 h5 c6 _ rfl) ?_
    rintro p7 h7 ⟨hp7, c7, -⟩
    refine Safe.bind' (counted_send p7 next h7 c7) ?_
    rintro p8 h8 ⟨hp8, c8⟩
    refine (prepared_tail (rand := rand) back next h8 c8 (hM N) bound hb id (fun q => ⟨rfl, fun h => h⟩)).mono ?_
    rintro _ h9 ⟨hp9, hh⟩
    exact key N hN h9 (((((hp3.trans hp4).trans hp5).trans hp7).trans hp8).trans hp9) hh
  | false =>
    show Safe _ _ (p.simulateOffline rand back next) _ _
    unfold Party.simulateOffline
    refine safe_ok (noiseSamples_wrap p rand rows hrnd hid hsc hdb hr0 hr) ?_
    refine Safe.bind' (counts_told _ back next) ?_
    rintro p1 h1 ⟨N, hN, rfl, rfl⟩
    refine (prepared_tail (rand := rand) (sample := rand.sample) (rows := rows) (M := wrap32 (N + wrap32 (sampleSum rand.sample rows)))
      back next _ ⟨rfl, rfl, rfl, rfl⟩ (hM N) bound hb
      (fun p => { p with
        queriesState := p.queriesState.initialize true
        noiseState := p.noiseState.initialize (p.partyCount - p.partyId - 1) p.noiseCount true true })
      (fun q => ⟨rfl, fun h => ⟨h.noise, h.start, h.stop, h.places⟩⟩)).mono ?_
    rintro _ h9 ⟨hp9, hh⟩
    exact key N hN h9 hp9 hh

theorem start_counted (p : Party box) (rand : PartyRand box) (rows : Nat) (hrnd : Noise.IsDivRounding rand.rnd)
    (hid : p.serverId = 0) (hsc : p.serverCount = 1) (hdb : p.db.size = rows) (hr0 : 0 < rows) (hr : rows < 2 ^ 32)
    (back next : ι) (bound : Nat) (hb : ∀ key < rows, (rand.sample key).toNat ≤ bound) (offline online : Bool) :
    Safe AnyObs AnyFault (p.start rand back next offline online) (fun _ h => CountedRight (sampleSum rand.sample rows) bound h) [] := by
  have hst : p.start rand back next offline online = (if offline then p.startOffline rand back next else p.simulateOffline rand back next).bind
      fun p => if online then (p.startOnline back next).bind fun _ => .done () else .done () := by
    unfold Party.start
    cases offline <;> rfl
  rw [hst]
  refine Safe.bind' (offline_counted p rand rows hrnd hid hsc hdb hr0 hr back next bound hb offline) ?_
  rintro p' h' ⟨N, M, rest, rfl, hM, hh⟩
  refine (grows _ _).mono ?_
  rintro _ _ ⟨t, rfl⟩
  exact ⟨N, M, rest ++ t, by simp, hM, hh⟩

end DPPIR.Protocol
