import Verif.Proofs.OverflowAny
import Verif.Proofs.InstallGrid
import Verif.Proofs.HostileStages

/-!
# What a server of a party that returns has counted
-/

namespace DPPIR.Protocol
open DPPIR Proc Onion Incremental Additive Spec Props Shuffle

variable {box : SealedBox} {ι α β σ τ : Type}

/-! ### Values a program may return -/

/-- Every value `p` returns, whatever it reads, has `R`. -/
def Yields (R : α → Prop) (p : Prog ι α) : Prop := ∀ h, Safe AnyObs AnyFault p (fun a _ => R a) h

/-- The same for programs that poll. -/
def PYields (R : α → Prop) (p : PProg ι α) : Prop := ∀ h, PProc.Safe AnyObs AnyFault p (fun a _ => R a) h

theorem Yields.all (p : Prog ι α) : Yields (fun _ => True) p := fun h => (grows p h).mono (fun _ _ _ => trivial)

theorem Yields.done {R : α → Prop} {a : α} (h : R a) : Yields R (.done a : Prog ι α) := fun _ => h

theorem Yields.bind {R : α → Prop} {Q : β → Prop} {p : Prog ι α} {f : α → Prog ι β} (hp : Yields R p) (hf : ∀ a, R a → Yields Q (f a)) :
    Yields Q (p.bind f) := fun h => Safe.bind' (hp h) (fun a h' ha => hf a ha h')

theorem Yields.lift {R : α → Prop} {r : Res α} (h : ∀ a, r = .ok a → R a) : Yields R (Proc.lift r : Prog ι α) :=
  fun _ => Safe.lift h (fun _ _ => trivial)

theorem Yields.loop {R : σ → Prop} {f : Nat → σ → Prog ι σ} (n : Nat) : ∀ (i : Nat) (s : σ), R s → (∀ j s, R s → Yields R (f j s)) →
    Yields R (Proc.loop n i f s) := by
  induction n with
  | zero => exact fun i s hs _ => Yields.done hs
  | succ n ih => exact fun i s hs hf => Yields.bind (hf i s hs) (fun s hs => ih _ s hs hf)

namespace PYields

theorem grow (p : PProg ι α) (h : List Obs) : PProc.Safe AnyObs AnyFault p (fun _ h' => h <+: h') h := by
  suffices ∀ g, h <+: g → PProc.Safe AnyObs AnyFault p (fun _ h' => h <+: h') g from this h (List.prefix_refl h)
  induction p with
  | done a => exact fun g hg => hg
  | fault e => exact fun _ _ => trivial
  | send d b k ih => exact ih
  | recv s k ih => exact fun g hg b => ih b g hg
  | obs o k ih => exact fun g hg => ⟨trivial, ih _ (hg.trans (List.prefix_append _ _))⟩
  | poll ss bl k ih => exact fun g hg r _ _ => ih r g hg
  | read s n k ih => exact fun g hg c _ _ => ih c g hg

theorem and {Q Q' : α → List Obs → Prop} (p : PProg ι α) (h : List Obs) (h1 : PProc.Safe AnyObs AnyFault p Q h)
    (h2 : PProc.Safe AnyObs AnyFault p Q' h) : PProc.Safe AnyObs AnyFault p (fun a h => Q a h ∧ Q' a h) h := by
  induction p generalizing h with
  | done a => exact ⟨h1, h2⟩
  | fault e => trivial
  | send d b k ih => exact ih h h1 h2
  | recv s k ih => exact fun b => ih b h (h1 b) (h2 b)
  | obs o k ih => exact ⟨trivial, ih _ h1.2 h2.2⟩
  | poll ss bl k ih => exact fun r a b => ih r h (h1 r a b) (h2 r a b)
  | read s n k ih => exact fun c a b => ih c h (h1 c a b) (h2 c a b)

/-- Together with the record it only adds to. -/
theorem safe {R : α → Prop} {p : PProg ι α} (hp : PYields R p) (h : List Obs) :
    PProc.Safe AnyObs AnyFault p (fun a h' => R a ∧ h <+: h') h := and p h (hp h) (grow p h)

theorem all (p : PProg ι α) : PYields (fun _ => True) p := fun h => (grow p h).mono (fun _ _ _ => trivial)

theorem done {R : α → Prop} {a : α} (h : R a) : PYields R (.done a : PProg ι α) := fun _ => h

theorem fault {R : α → Prop} {e : Fault} : PYields R (.fault e : PProg ι α) := fun _ => trivial

theorem bind {R : α → Prop} {Q : β → Prop} {p : PProg ι α} {f : α → PProg ι β} (hp : PYields R p) (hf : ∀ a, R a → PYields Q (f a)) :
    PYields Q (p.bind f) := fun h => PProc.Safe.bind' (hp h) (fun a h' ha => hf a ha h')

theorem then' {Q : β → Prop} {p : PProg ι α} {f : α → PProg ι β} (hf : ∀ a, PYields Q (f a)) : PYields Q (p.bind f) :=
  bind (all p) (fun a _ => hf a)

theorem ofProc {R : α → Prop} {p : Prog ι α} (hp : Yields R p) : PYields R (PProc.ofProc p) := fun h => PProc.Safe.ofProc (hp h)

theorem lift {R : α → Prop} {r : Res α} (h : ∀ a, r = .ok a → R a) : PYields R (PProc.lift r : PProg ι α) := by
  cases r with
  | ok a => exact done (h a rfl)
  | error e => exact fault

theorem ploop {R : σ → Prop} {f : Nat → σ → PProg ι σ} (n : Nat) : ∀ (i : Nat) (s : σ), R s → (∀ j s, R s → PYields R (f j s)) →
    PYields R (Protocol.ploop n i f s) := by
  induction n with
  | zero => exact fun i s hs _ => done hs
  | succ n ih => exact fun i s hs hf => bind (hf i s hs) (fun s hs => ih _ s hs hf)

/-! ### Exchanges -/

/-- Handlers that keep `R`. -/
structure Keep (R : σ → Prop) (h : Handlers ι σ τ) : Prop where
  send : ∀ t x, R x.st → Yields (fun y => R y.st) (h.send t x)
  recv : ∀ source m st st', R st.1 → h.recv source m st = .ok st' → R st'.1

variable {X : Exchange ι} {h : Handlers ι σ τ} {R : σ → Prop}

theorem deliver (hk : Keep R h) (source : Nat) (l : List (List Byte)) : ∀ st st', R st.1 → Protocol.deliver h source l st = .ok st' → R st'.1 := by
  induction l with
  | nil =>
    intro st st' hs he
    obtain rfl := Except.ok.inj he
    exact hs
  | cons m ms ih =>
    intro st st' hs he
    unfold Protocol.deliver at he
    obtain ⟨s1, h1, he⟩ := bind_eq_ok he
    exact ih s1 st' (hk.recv _ _ _ _ hs h1) he

theorem readFrom (hk : Keep R h) (source : Nat) (st : Bool × XState σ) (hs : R st.2.st) :
    PYields (fun y => R y.2.st) (XState.readFrom X h source st) := by
  unfold XState.readFrom
  refine then' (fun got => ?_)
  simp only
  split
  · refine then' (fun c => bind (R := fun y => R y.1) (lift (fun a ha => deliver hk _ _ _ a hs ha)) (fun y hy => ?_))
    exact then' (fun _ => done hy)
  · exact done hs

theorem pollRound (hk : Keep R h) (block : Bool) (x : XState σ) (hs : R x.st) : PYields (fun y => R y.2.st) (x.pollRound X h block) := by
  unfold XState.pollRound
  refine then' (fun r => ploop (R := fun y : Bool × XState σ => R y.2.st) _ _ _ hs (fun j s hs => ?_))
  split
  · exact readFrom hk _ _ hs
  · exact done hs

theorem drain (hk : Keep R h) (fuel : Nat) : ∀ x : XState σ, R x.st → PYields (fun y => R y.st) (x.drain X h fuel) := by
  induction fuel with
  | zero => exact fun x _ => fault
  | succ n ih =>
    intro x hs
    unfold XState.drain
    refine bind (pollRound hk _ _ hs) (fun ⟨_, y⟩ hy => ?_)
    simp only
    split
    · exact ih _ hy
    · exact done hy

theorem sendMany (hk : Keep R h) (l : List τ) : ∀ x : XState σ, R x.st → Yields (fun y => R y.st) (XState.sendMany h l x) := by
  induction l with
  | nil => exact fun x hs => Yields.done hs
  | cons t ts ih => exact fun x hs => Yields.bind (hk.send t x hs) (fun y hy => ih y hy)

theorem sendLoop (hk : Keep R h) (rate fuel : Nat) : ∀ (items : List τ) (x : XState σ), R x.st →
    PYields (fun y => R y.st) (x.sendLoop X h rate fuel items) := by
  induction fuel with
  | zero =>
    intro items x hs
    cases items with
    | nil => exact done hs
    | cons t ts => exact fault
  | succ n ih =>
    intro items x hs
    cases items with
    | nil => exact done hs
    | cons t ts =>
      unfold XState.sendLoop
      refine bind (ofProc (sendMany hk _ _ hs)) (fun y hy => ?_)
      simp only [PProc.bind_def]
      split
      · exact bind (R := fun y => R y.st) (done hy) (fun y hy => ih _ _ hy)
      · exact bind (drain hk _ _ hy) (fun y hy => ih _ _ hy)

theorem finish (hk : Keep R h) (fuel : Nat) : ∀ x : XState σ, R x.st → PYields (fun y => R y.st) (x.finish X h fuel) := by
  induction fuel with
  | zero =>
    intro x hs
    unfold XState.finish
    split
    · exact fault
    · exact done hs
  | succ n ih =>
    intro x hs
    unfold XState.finish
    split
    · exact bind (pollRound hk _ _ hs) (fun y hy => ih _ hy)
    · exact done hs

theorem sendAndPoll (hk : Keep R h) (items : List τ) (n : Nat) (s : σ) (hs : R s) : PYields R (Protocol.sendAndPoll X h items n s) := by
  unfold Protocol.sendAndPoll
  exact then' (fun r => bind (R := fun y => R y.st) (sendLoop hk _ _ _ _ hs) (fun x hx => then' (fun _ =>
    bind (R := fun y => R y.st) (finish hk _ _ hx) (fun _ hy => done hy))))

end PYields

/-! ### The party -/

/-- What does not change after the counts. -/
structure CountedAt (p : Party box) (sample : Nat → BitVec 32) (start len M : Nat) : Prop where
  noise : p.noise.ptr = (List.range len).map (fun i => (sample i).toNat)
  first : p.noiseStart = start
  stop : p.noiseEnd = start + len
  own : wrap32 (p.inputCount + p.noiseCount) = M

section
variable {sample : Nat → BitVec 32} {start len M : Nat}

theorem countedAt_create {p p' : Party box} {tagOf : Nat → Res (BitVec 64)} {rand : PartyRand box} (h : CountedAt p sample start len M)
    (he : p.createNoiseCiphersTagged tagOf rand = .ok p') : CountedAt p' sample start len M := by
  unfold Party.createNoiseCiphersTagged at he
  refine forRange_ok_inv (s := { p with ciphers := p.ciphers.initialize p.noiseCount p.inputCount })
    (fun _ p => CountedAt p sample start len M) _ (Nat.zero_le _) ⟨h.noise, h.first, h.stop, h.own⟩ ?_ he
  intro j s s' _ _ hs hstep
  unfold Party.noiseCipherStep Party.makeNoiseSecretTagged at hstep
  simp only at hstep
  obtain ⟨tag, -, hstep⟩ := bind_eq_ok hstep
  obtain ⟨⟨q, sec⟩, hq, hstep⟩ := bind_eq_ok hstep
  obtain ⟨x, -, hq⟩ := bind_eq_ok hq
  obtain ⟨y, -, hq⟩ := bind_eq_ok hq
  obtain ⟨z, -, hq⟩ := bind_eq_ok hq
  have hq := Except.ok.inj hq
  obtain ⟨rfl, -⟩ := Prod.mk.inj hq
  obtain ⟨c, -, hstep⟩ := bind_eq_ok hstep
  obtain ⟨b, -, hstep⟩ := bind_eq_ok hstep
  obtain rfl := Except.ok.inj hstep
  exact ⟨hs.noise, hs.first, hs.stop, hs.own⟩

theorem countedAt_collect (p : Party box) (back : ι) (hc : CountedAt p sample start len M) :
    Yields (fun p' => CountedAt p' sample start len M) (p.collectCiphers back) := by
  unfold Party.collectCiphers
  refine Yields.loop _ _ _ hc (fun j s hs => ?_)
  refine Yields.bind (Yields.all _) (fun c _ => ?_)
  refine Yields.bind (Yields.lift (R := fun _ => True) (fun _ _ => trivial)) (fun b _ => ?_)
  exact Yields.done ⟨hs.noise, hs.first, hs.stop, hs.own⟩

theorem countedAt_install (fuel : Nat) : ∀ (p : Party box), CountedAt p sample start len M →
    Yields (fun p' => CountedAt p' sample start len M) (Party.installLoop fuel p : Prog ι (Party box)) := by
  induction fuel with
  | zero =>
    intro p hc
    unfold Party.installLoop
    split
    · exact fun _ => trivial
    · exact Yields.done hc
  | succ fuel ih =>
    intro p hc
    unfold Party.installLoop
    split
    · refine Yields.bind (Yields.all _) (fun layer _ => ?_)
      refine Yields.bind (Yields.all _) (fun msg _ => ?_)
      refine Yields.bind (Yields.all _) (fun _ _ => ?_)
      refine Yields.bind (Yields.all _) (fun st _ => ?_)
      refine Yields.bind (Yields.all _) (fun b _ => ?_)
      exact ih { p with
        ciphers := b
        queriesState := st } ⟨hc.noise, hc.first, hc.stop, hc.own⟩
    · exact Yields.done hc

theorem countedAt_shufflers (p : ParallelParty box) (rand : ParallelRand box) (sib : Nat → ι) (hc : CountedAt p.toParty sample start len M) :
    PYields (fun p' => CountedAt p'.toParty sample start len M) (p.initializeShufflers rand sib) := by
  unfold ParallelParty.initializeShufflers
  refine PYields.then' (fun ps => PYields.then' (fun _ => PYields.then' (fun own => PYields.then' (fun counts => PYields.then' (fun ls => ?_)))))
  exact PYields.done ⟨hc.noise, hc.first, hc.stop, hc.own⟩

theorem countedAt_cipherFrom (source : Nat) (m : List Byte) (st st' : ParallelParty box × List Nat)
    (hc : CountedAt st.1.toParty sample start len M) (he : ParallelParty.cipherFrom source m st = .ok st') :
    CountedAt st'.1.toParty sample start len M := by
  unfold ParallelParty.cipherFrom at he
  simp only at he
  obtain ⟨⟨t, r⟩, -, he⟩ := bind_eq_ok he
  obtain ⟨b, -, he⟩ := bind_eq_ok he
  obtain rfl := Except.ok.inj he
  exact ⟨hc.noise, hc.first, hc.stop, hc.own⟩

theorem countedAt_shuffle (p : ParallelParty box) (sib : Nat → ι) (hc : CountedAt p.toParty sample start len M) :
    PYields (fun p' => CountedAt p'.toParty sample start len M) (p.shuffleCiphers sib) := by
  unfold ParallelParty.shuffleCiphers
  simp only
  refine PYields.then' (fun ⟨counts, total⟩ => PYields.then' (fun items => ?_))
  simp only
  refine PYields.bind (R := fun p' : ParallelParty box => CountedAt p'.toParty sample start len M)
    (PYields.sendAndPoll ⟨?_, ?_⟩ _ _ _ ⟨hc.noise, hc.first, hc.stop, hc.own⟩)
    (fun q hq => PYields.then' (fun _ => PYields.done ⟨hq.noise, hq.first, hq.stop, hq.own⟩))
  · intro t x hx
    show Yields _ (shuffleOut _ _ _ t x)
    unfold shuffleOut
    refine Yields.bind (Yields.all _) (fun ⟨target, s⟩ _ => ?_)
    simp only
    split
    · refine Yields.bind (R := fun y : ParallelParty box × List Nat => CountedAt y.1.toParty sample start len M)
        (Yields.lift (fun a ha => countedAt_cipherFrom _ _ _ _ ?_ ha)) (fun y hy => Yields.done hy)
      exact ⟨hx.noise, hx.first, hx.stop, hx.own⟩
    · exact Yields.bind (Yields.all _) (fun w _ => Yields.done ⟨hx.noise, hx.first, hx.stop, hx.own⟩)
  · exact fun source m st st' hs he => countedAt_cipherFrom source m st st' hs he

theorem countedAt_send (p : ParallelParty box) (next : ι) (hc : CountedAt p.toParty sample start len M) :
    Yields (fun p' : ParallelParty box => CountedAt p'.toParty sample start len M) (p.sendCiphers next) := by
  unfold ParallelParty.sendCiphers
  exact Yields.bind (Yields.all _) (fun cs _ => Yields.bind (Yields.all _) (fun w _ => Yields.bind (Yields.all _) (fun _ _ =>
    Yields.done ⟨hc.noise, hc.first, hc.stop, hc.own⟩)))

theorem countedAt_broadcast (p : ParallelParty box) (rand : ParallelRand box) (sib : Nat → ι) (hc : CountedAt p.toParty sample start len M) :
    PYields (fun p' : ParallelParty box => CountedAt p'.toParty sample start len M) (p.broadcast rand sib) := by
  unfold ParallelParty.broadcast
  exact PYields.then' (fun st => PYields.done ⟨hc.noise, hc.first, hc.stop, hc.own⟩)

/-- A noise query that is made had a place. -/
theorem make_place {p p' : Party box} (key i : Nat) (he : p.makeNoiseQuery key i = .ok p') :
    i < p.queries.ptr.length ∧ p'.queries.ptr.length = p.queries.ptr.length ∧ p'.noise = p.noise ∧ p'.noiseStart = p.noiseStart := by
  unfold Party.makeNoiseQuery at he
  simp only at he
  obtain ⟨_, -, he⟩ := bind_eq_ok he
  obtain ⟨_, -, he⟩ := bind_eq_ok he
  obtain ⟨_, -, he⟩ := bind_eq_ok he
  obtain ⟨b, hb, he⟩ := bind_eq_ok he
  obtain rfl := Except.ok.inj he
  unfold Batch.set at hb
  obtain ⟨l, hl, hb⟩ := bind_eq_ok hb
  obtain rfl := Except.ok.inj hb
  have hlt : i < p.queries.ptr.length := by
    by_contra hn
    unfold wr at hl
    rw [if_neg hn] at hl
    cases hl
  rw [wr_ok hlt] at hl
  obtain rfl := Except.ok.inj hl
  exact ⟨hlt, by simp, rfl, rfl⟩

theorem key_made {p p' : Party box} (hM : p.queries.ptr.length = M) (bound : Nat)
    (hb : ∀ i < len, (sample i).toNat ≤ bound) (h32 : M + bound < 2 ^ 32)
    (hnoise : p.noise.ptr = (List.range len).map (fun i => (sample i).toNat)) (hst : p.noiseStart = start)
    (j : Nat) (hj : j < len) (hs : sampleSum sample j ≤ M) (idx : Nat)
    (he : ParallelParty.noiseKeyStep (start + j) (sampleSum sample j, p) = .ok (idx, p')) :
    idx = sampleSum sample (j + 1) ∧ sampleSum sample (j + 1) ≤ M ∧
      p'.queries.ptr.length = M ∧ p'.noise = p.noise ∧ p'.noiseStart = p.noiseStart := by
  have hmono := sampleSum_mono sample (show j ≤ j + 1 by omega)
  have hlt : sampleSum sample (j + 1) < 2 ^ 32 := by
    have := hb j hj
    rw [sampleSum_succ]
    omega
  have e1 : p.noise.get (start + j - p.noiseStart) = .ok (sample j).toNat := by
    unfold Batch.get
    rw [hnoise, hst, Nat.add_sub_cancel_left, rd_eq_ok]
    simp [hj]
  unfold ParallelParty.noiseKeyStep at he
  simp only at he
  rw [e1, bind_ok, ← sampleSum_succ, wrap32_of_lt hlt] at he
  obtain ⟨q, hq, he⟩ := bind_eq_ok he
  obtain ⟨rfl, rfl⟩ := Prod.mk.inj (Except.ok.inj he)
  have hinv := forRange_ok_inv (fun i (s : Party box) => i ≤ M ∧ s.queries.ptr.length = M ∧ s.noise = p.noise ∧
    s.noiseStart = p.noiseStart) _ hmono ⟨hs, hM, rfl, rfl⟩ (by
      rintro i s s' _ _ ⟨-, i1, i2, i3⟩ hstep
      obtain ⟨k0, k1, k2, k3⟩ := make_place _ _ hstep
      exact ⟨by omega, k1.trans i1, k2.trans i2, k3.trans i3⟩) hq
  exact ⟨Nat.max_eq_right hmono, hinv⟩

theorem prepare_made {p p' : ParallelParty box} (hc : CountedAt p.toParty sample start len M)
    (bound : Nat) (hb : ∀ i < len, (sample i).toNat ≤ bound) (h32 : M + bound < 2 ^ 32) (he : p.prepareOnline = .ok p') :
    sampleSum sample len ≤ M := by
  unfold ParallelParty.prepareOnline ParallelParty.initializeNoiseQueries at he
  simp only at he
  rw [hc.first, hc.stop, hc.own] at he
  obtain ⟨⟨idx, q⟩, hq, -⟩ := bind_eq_ok he
  have hinv := forRange_ok_inv (fun i (s : Nat × Party box) => ∃ j, i = start + j ∧ s.1 = sampleSum sample j ∧ sampleSum sample j ≤ M ∧
    s.2.queries.ptr.length = M ∧ s.2.noise = p.noise ∧ s.2.noiseStart = start) _ (Nat.le_add_right _ _)
    (by exact ⟨0, rfl, rfl, by simp [sampleSum], by simp [Batch.initialize], rfl, rfl⟩) (by
      rintro i ⟨x, s⟩ ⟨x', s'⟩ _ hi ⟨j, rfl, i0, i1, i2, i3, i4⟩ hstep
      simp only at i0 i2 i3 i4
      subst i0
      obtain ⟨k0, k1, k2, k3, k4⟩ := key_made (M := M) (p := s) i2 bound hb h32
        (by rw [i3]; exact hc.noise) i4 j (by omega) i1 x' hstep
      exact ⟨j + 1, rfl, k0, k1, k2, k3.trans i3, k4.trans i4⟩) hq
  obtain ⟨j, h1, -, h2, -⟩ := hinv
  obtain rfl : j = len := by omega
  exact h2

/-- The end of both offline stages. -/
theorem made_tail (p : ParallelParty box) (rand : ParallelRand box) (back next : ι) (sib : Nat → ι) (hc : CountedAt p.toParty sample start len M)
    (bound : Nat) (hb : ∀ i < len, (sample i).toNat ≤ bound) (g : ParallelParty box → ParallelParty box)
    (hg : ∀ q, CountedAt q.toParty sample start len M → CountedAt (g q).toParty sample start len M) :
    PYields (fun _ => M + bound < 2 ^ 32 → sampleSum sample len ≤ M)
      ((p.initializeShufflers rand sib).bind fun p => (PProc.lift (g p).prepareOnline).bind fun p =>
        (p.relayReady back next sib).bind fun _ => .done p) :=
  PYields.bind (countedAt_shufflers p rand sib hc) (fun p1 c1 => PYields.bind (R := fun _ => M + bound < 2 ^ 32 → sampleSum sample len ≤ M)
    (PYields.lift (fun _ e2 h32 => prepare_made (hg p1 c1) bound hb h32 e2)) (fun _ h => PYields.then' (fun _ => PYields.done h)))

end

theorem psafe_ok {r : Res α} {a : α} {f : α → PProg ι β} {Q : β → List Obs → Prop} {h : List Obs} (hr : r = .ok a)
    (hs : PProc.Safe AnyObs AnyFault (f a) Q h) : PProc.Safe AnyObs AnyFault ((PProc.lift r).bind f) Q h := by
  subst hr
  exact hs

/-- What a server first hears and announces. -/
theorem parallel_counts_told (p : ParallelParty box) (back next : ι) (sib : Nat → ι) :
    PProc.Safe AnyObs AnyFault (p.initializeCounts back next sib) (fun p' h' => ∃ N, N < 2 ^ 32 ∧
      [.recvCount (BitVec.ofNat 32 N)] <+: h' ∧ p'.inputCount = N ∧ p'.noiseCount = p.noiseCount ∧ p'.noise = p.noise ∧
      p'.noiseStart = p.noiseStart ∧ p'.noiseEnd = p.noiseEnd) [] := by
  unfold ParallelParty.initializeCounts
  refine PProc.Safe.bind' (R := fun n h' => n < 2 ^ 32 ∧ h' = [.recvCount (BitVec.ofNat 32 n)]) (PProc.Safe.ofProc ?_) ?_
  · refine Safe.bind (Safe.recvBytes _ (fun l _ => ⟨trivial, BitVec.isLt _, ?_⟩))
    rw [BitVec.ofNat_toNat, BitVec.setWidth_eq]
    rfl
  · rintro N h' ⟨hN, rfl⟩
    refine PProc.Safe.bind' (PYields.grow _ _) ?_
    intro counts h2 hp2
    refine PProc.Safe.bind' (PYields.grow _ _) ?_
    intro _ h3 hp3
    exact ⟨N, hN, hp2.trans hp3, rfl, rfl, rfl, rfl, rfl⟩

/-- What a server that returns was told. -/
def ToldRight (n bound : Nat) (h : List Obs) : Prop :=
  ∃ N rest, h = .recvCount N :: rest ∧ ((N.toNat + n) % 2 ^ 32 + bound < 2 ^ 32 → N.toNat + n < 2 ^ 32)

theorem start_told (p : ParallelParty box) (rand : ParallelRand box) (start len : Nat)
    (hfr : Noise.findRange rand.rnd (BitVec.ofNat 8 p.serverId) (BitVec.ofNat 8 p.serverCount) p.db.size = .ok (start, start + len))
    (hlen : start + len < 2 ^ 32) (back next : ι) (sib : Nat → ι) (bound : Nat)
    (hb : ∀ i < len, (rand.sample i).toNat ≤ bound) (offline online : Bool) :
    PProc.Safe AnyObs AnyFault (p.start rand back next sib offline online) (fun _ h => ToldRight (sampleSum rand.sample len) bound h) [] := by
  have hM : ∀ N, wrap32 (N + wrap32 (sampleSum rand.sample len)) = (N + sampleSum rand.sample len) % 2 ^ 32 :=
    fun N => by simp only [wrap32]; omega
  have key : ∀ N, N < 2 ^ 32 → ∀ h', [.recvCount (BitVec.ofNat 32 N)] <+: h' →
      ((N + sampleSum rand.sample len) % 2 ^ 32 + bound < 2 ^ 32 → sampleSum rand.sample len ≤ (N + sampleSum rand.sample len) % 2 ^ 32) →
      ToldRight (sampleSum rand.sample len) bound h' := by
    rintro N hN h' ⟨rest, rfl⟩ hh
    refine ⟨_, rest, rfl, ?_⟩
    rw [BitVec.toNat_ofNat, Nat.mod_eq_of_lt hN]
    intro h1
    have := hh h1
    omega
  have hoff : PProc.Safe AnyObs AnyFault (if offline then p.startOffline rand back next sib else p.simulateOffline rand back next sib)
      (fun _ h => ToldRight (sampleSum rand.sample len) bound h) [] := by
    have hsamp := noiseSamplesAt_wrap p.toParty rand.toPartyRand start len hfr hlen
    cases offline with
    | true =>
      show PProc.Safe _ _ (p.startOffline rand back next sib) _ _
      unfold ParallelParty.startOffline
      refine psafe_ok hsamp ?_
      refine PProc.Safe.bind' (parallel_counts_told _ back next sib) ?_
      rintro p1 h1 ⟨N, hN, hp1, a1, a2, a3, a4, a5⟩
      have c1 : CountedAt p1.toParty rand.sample start len ((N + sampleSum rand.sample len) % 2 ^ 32) :=
        ⟨by rw [a3]; rfl, a4, a5, by rw [a1, a2, ← hM]; rfl⟩
      refine (PYields.safe (R := fun _ => (N + sampleSum rand.sample len) % 2 ^ 32 + bound < 2 ^ 32 →
        sampleSum rand.sample len ≤ (N + sampleSum rand.sample len) % 2 ^ 32) ?_ h1).mono
        (fun _ h' hh => key N hN h' (hp1.trans hh.2) hh.1)
      refine PYields.bind (R := fun q => CountedAt q rand.sample start len ((N + sampleSum rand.sample len) % 2 ^ 32)) (PYields.lift (fun q hq => by
        refine countedAt_create ?_ hq
        exact ⟨c1.noise, c1.first, c1.stop, c1.own⟩)) (fun q c2 => ?_)
      refine PYields.then' (fun _ => ?_)
      refine PYields.bind (PYields.ofProc (countedAt_collect q back c2)) (fun q3 c3 => ?_)
      refine PYields.then' (fun _ => ?_)
      refine PYields.bind (countedAt_shufflers _ rand sib c3) (fun p4 c4 => ?_)
      refine PYields.bind (PYields.ofProc (countedAt_install _ p4.toParty c4)) (fun q5 c5 => ?_)
      refine PYields.bind (countedAt_shuffle _ sib c5) (fun p6 c6 => ?_)
      refine PYields.bind (PYields.ofProc (countedAt_send p6 next c6)) (fun p7 c7 => ?_)
      refine PYields.bind (countedAt_broadcast p7 rand sib c7) (fun p8 c8 => ?_)
      exact made_tail p8 rand back next sib c8 bound hb id (fun _ h => h)
    | false =>
      show PProc.Safe _ _ (p.simulateOffline rand back next sib) _ _
      unfold ParallelParty.simulateOffline
      refine psafe_ok hsamp ?_
      refine PProc.Safe.bind' (parallel_counts_told _ back next sib) ?_
      rintro p1 h1 ⟨N, hN, hp1, a1, a2, a3, a4, a5⟩
      have c1 : CountedAt p1.toParty rand.sample start len ((N + sampleSum rand.sample len) % 2 ^ 32) :=
        ⟨by rw [a3]; rfl, a4, a5, by rw [a1, a2, ← hM]; rfl⟩
      refine (PYields.safe (R := fun _ => (N + sampleSum rand.sample len) % 2 ^ 32 + bound < 2 ^ 32 →
        sampleSum rand.sample len ≤ (N + sampleSum rand.sample len) % 2 ^ 32) ?_ h1).mono
        (fun _ h' hh => key N hN h' (hp1.trans hh.2) hh.1)
      exact made_tail p1 rand back next sib c1 bound hb (fun p => { p with
        queriesState := p.queriesState.initialize true
        noiseState := p.noiseState.initialize (p.partyCount - p.partyId - 1) p.noiseCount true true })
        (fun _ h => ⟨h.noise, h.first, h.stop, h.own⟩)
  have hst : p.start rand back next sib offline online =
      (if offline then p.startOffline rand back next sib else p.simulateOffline rand back next sib).bind
      fun p => if online then (p.startOnline back next sib).bind fun _ => .done () else .done () := by
    unfold ParallelParty.start
    cases offline <;> rfl
  rw [hst]
  refine PProc.Safe.bind' hoff ?_
  rintro p' h' ⟨N, rest, rfl, hh⟩
  refine (PYields.grow _ _).mono ?_
  rintro _ _ ⟨t, rfl⟩
  exact ⟨N, rest ++ t, by simp, hh⟩

end DPPIR.Protocol
