import Verif.Proofs.InstallFacts
import Verif.Proofs.PSafety
import Verif.Proofs.Polling
import Verif.Model.Grid

/-!
# What a server with siblings installs, whatever it receives
-/

namespace DPPIR

theorem Proc.Safe.loosen {ι O α : Type} {I : List O → O → Prop} {F F' : List O → Fault → Prop} {p : Proc ι O α}
    {Q : α → List O → Prop} {h : List O} (hs : Proc.Safe I F p Q h) (hF : ∀ h e, F h e → F' h e) : Proc.Safe I F' p Q h := by
  induction p generalizing h with
  | done a => exact hs
  | fault e => exact hF _ _ hs
  | send d b k ih => exact ih hs
  | recv s k ih => exact fun b => ih b (hs b)
  | obs o k ih => exact ⟨hs.1, ih hs.2⟩

theorem PProc.Safe.loosen {ι O α : Type} {I : List O → O → Prop} {F F' : List O → Fault → Prop} {p : PProc ι O α}
    {Q : α → List O → Prop} {h : List O} (hs : PProc.Safe I F p Q h) (hF : ∀ h e, F h e → F' h e) : PProc.Safe I F' p Q h := by
  induction p generalizing h with
  | done a => exact hs
  | fault e => exact hF _ _ hs
  | send d b k ih => exact ih hs
  | recv s k ih => exact fun b => ih b (hs b)
  | obs o k ih => exact ⟨hs.1, ih hs.2⟩
  | poll ss bl k ih => exact fun r h1 h2 => ih r (hs r h1 h2)
  | read s n k ih => exact fun c h1 h2 => ih c (hs c h1 h2)

namespace Protocol
open DPPIR Proc Onion Incremental Additive Shuffle

variable {box : SealedBox} {ι α β σ τ : Type}

/-- A program without cipher calls, returning only values with `R`. -/
def PStill (R : α → Prop) (p : PProg ι α) : Prop :=
  ∀ h, PProc.Safe (fun _ o => o.Quiet) (fun _ _ => True) p (fun a _ => R a) h

namespace PStill

theorem safe {R : α → Prop} {p : PProg ι α} (hp : PStill R p) (pk : box.PKey) (sk : box.SKey) (h : List Obs) (hin : AllIn h) :
    PProc.Safe (Justified pk sk) StopOk p (fun a h' => R a ∧ stores h' = stores h ∧ ciphersRead h' = ciphersRead h) h := by
  have key : ∀ (p : PProg ι α) h, AllIn h → (PProc.Safe (fun _ o => o.Quiet) (fun _ _ => True) p (fun a _ => R a) h) →
      PProc.Safe (Justified pk sk) StopOk p (fun a h' => R a ∧ stores h' = stores h ∧ ciphersRead h' = ciphersRead h) h := by
    intro p
    induction p with
    | done a => exact fun h _ hs => ⟨hs, rfl, rfl⟩
    | fault e => exact fun h hin _ hne => absurd hin hne
    | send d b k ih => exact fun h hin hs => ih h hin hs
    | recv s k ih => exact fun h hin hs b => ih b h hin (hs b)
    | poll ss bl k ih => exact fun h hin hs r h1 h2 => ih r h hin (hs r h1 h2)
    | read s n k ih => exact fun h hin hs c h1 h2 => ih c h hin (hs c h1 h2)
    | obs o k ih =>
      intro h hin hs
      have e1 := hs.1.stores h
      have e2 := hs.1.ciphersRead h
      refine ⟨?_, ?_⟩
      · have hq := hs.1
        cases o <;> first | exact hin | exact absurd hq (by simp [Obs.Quiet])
      · have := ih (h ++ [o]) (by unfold AllIn; rw [e1, e2]; exact hin) hs.2
        rw [e1, e2] at this
        exact this
  exact key p h hin (hp h)

theorem done {R : α → Prop} {a : α} (h : R a) : PStill R (.done a : PProg ι α) := fun _ => h

theorem fault {R : α → Prop} {e : Fault} : PStill R (.fault e : PProg ι α) := fun _ => trivial

theorem bind {R : α → Prop} {Q : β → Prop} {p : PProg ι α} {f : α → PProg ι β} (hp : PStill R p) (hf : ∀ a, R a → PStill Q (f a)) :
    PStill Q (p.bind f) := fun h => PProc.Safe.bind' (hp h) (fun a h' ha => hf a ha h')

/-- When nothing needs to be known about the value. -/
theorem then' {Q : β → Prop} {p : PProg ι α} {f : α → PProg ι β} (hp : PStill (fun _ => True) p) (hf : ∀ a, PStill Q (f a)) :
    PStill Q (p.bind f) := bind hp (fun a _ => hf a)

theorem ofProc {R : α → Prop} {p : Prog ι α} (hp : Still R p) : PStill R (PProc.ofProc p) := fun h => PProc.Safe.ofProc (hp h)

theorem lift {R : α → Prop} {r : Res α} (h : ∀ a, r = .ok a → R a) : PStill R (PProc.lift r : PProg ι α) := by
  cases r with
  | ok a => exact done (h a rfl)
  | error e => exact fault

theorem lift' (r : Res α) : PStill (fun _ => True) (PProc.lift r : PProg ι α) := lift (fun _ _ => trivial)

theorem ploop {f : Nat → σ → PProg ι σ} (n : Nat) : ∀ (i : Nat) (s : σ), (∀ j s, PStill (fun _ => True) (f j s)) →
    PStill (fun _ => True) (Protocol.ploop n i f s) := by
  induction n with
  | zero => exact fun i s _ => done trivial
  | succ n ih => exact fun i s hf => then' (hf i s) (fun s => ih _ _ hf)

/-! ### Exchanges -/

/-- Send handlers without cipher calls. -/
def Mute (h : Handlers ι σ τ) : Prop := ∀ t x, Still (fun _ => True) (h.send t x)

variable {X : Exchange ι} {h : Handlers ι σ τ}

theorem readCall (s : ι) (n : Nat) : PStill (fun _ => True) (PProc.readCall s n : PProg ι _) := by
  unfold PProc.readCall
  split
  · exact done trivial
  · exact fun _ _ _ _ => trivial

theorem readFrom (source : Nat) (st : Bool × XState σ) : PStill (fun _ => True) (XState.readFrom X h source st) := by
  unfold XState.readFrom
  refine then' (lift' _) (fun got => ?_)
  simp only
  split
  · refine then' (readCall _ _) (fun c => then' (lift' _) (fun x => ?_))
    exact then' (lift' _) (fun _ => done trivial)
  · exact done trivial

theorem pollRound (block : Bool) (x : XState σ) : PStill (fun _ => True) (x.pollRound X h block) := by
  unfold XState.pollRound
  refine then' (p := PProc.pollCall _ _) (fun _ _ _ _ => trivial) (fun r => ploop _ _ _ (fun j s => ?_))
  split
  · exact readFrom _ _
  · exact done trivial

theorem drain (fuel : Nat) : ∀ x : XState σ, PStill (fun _ => True) (x.drain X h fuel) := by
  induction fuel with
  | zero => exact fun x => fault
  | succ n ih =>
    intro x
    unfold XState.drain
    refine then' (pollRound _ _) (fun ⟨_, y⟩ => ?_)
    simp only
    split
    · exact ih _
    · exact done trivial

theorem sendMany (hm : Mute h) (l : List τ) : ∀ x : XState σ, Still (fun _ => True) (XState.sendMany h l x) := by
  induction l with
  | nil => exact fun x => Still.done trivial
  | cons t ts ih => exact fun x => Still.bind (hm t x) (fun y _ => ih y)

theorem sendLoop (hm : Mute h) (rate fuel : Nat) : ∀ (items : List τ) (x : XState σ),
    PStill (fun _ => True) (x.sendLoop X h rate fuel items) := by
  induction fuel with
  | zero =>
    intro items x
    cases items with
    | nil => exact done trivial
    | cons t ts => exact fault
  | succ n ih =>
    intro items x
    cases items with
    | nil => exact done trivial
    | cons t ts =>
      unfold XState.sendLoop
      refine then' (ofProc (sendMany hm _ _)) (fun y => ?_)
      simp only [PProc.bind_def]
      split
      · exact then' (done trivial) (fun y => ih _ _)
      · exact then' (drain _ _) (fun y => ih _ _)

theorem finish (fuel : Nat) : ∀ x : XState σ, PStill (fun _ => True) (x.finish X h fuel) := by
  induction fuel with
  | zero =>
    intro x
    unfold XState.finish
    split
    · exact fault
    · exact done trivial
  | succ n ih =>
    intro x
    unfold XState.finish
    split
    · exact then' (pollRound _ _) (fun y => ih _)
    · exact done trivial

theorem flushAll (x : XState σ) : Still (fun _ => True) (x.flushAll X) := by
  refine Still.loop _ _ _ trivial (fun j s _ => ?_)
  split
  · exact Still.flush _ _
  · exact Still.done trivial

theorem sendAndPoll (hm : Mute h) (items : List τ) (n : Nat) (s : σ) : PStill (fun _ => True) (Protocol.sendAndPoll X h items n s) := by
  unfold Protocol.sendAndPoll
  exact then' (lift' _) (fun r => then' (sendLoop hm _ _ _ _) (fun x => then' (ofProc (flushAll x)) (fun _ =>
    then' (finish _ _) (fun _ => done trivial))))

/-! ### Counts and barriers -/

theorem exchangeCounts_silent (me S : Nat) (sib : Nat → ι) (n : Nat → Res Nat) (own : Nat) (h : List Obs) :
    Proc.Safe (fun _ (_ : Obs) => False) (fun _ _ => True) (Protocol.exchangeCounts me S sib n own) (fun _ _ => True) h := by
  unfold Protocol.exchangeCounts sendCounts readCounts
  refine Safe.bind' (R := fun _ _ => True) (Safe.loop (fun _ _ _ => True) _ _ _ _ trivial (fun j s h _ _ _ => ?_))
    (fun _ h _ => Safe.loop (fun _ _ _ => True) _ _ _ _ trivial (fun j s h _ _ _ => ?_))
  · split
    · exact Safe.bind (Safe.lift (fun _ _ => Safe.sendBytes trivial) (fun _ _ => trivial))
    · exact trivial
  · split
    · exact Safe.bind (Safe.bind (Safe.recvBytes _ (fun _ _ => trivial)))
    · exact trivial

theorem barrier_silent (me S : Nat) (sib : Nat → ι) (h : List Obs) :
    Proc.Safe (fun _ (_ : Obs) => False) (fun _ _ => True) (Protocol.barrier me S sib) (fun _ _ => True) h := by
  unfold Protocol.barrier
  refine Safe.bind' (R := fun _ _ => True) (Safe.loop (fun _ _ _ => True) _ _ _ _ trivial (fun j s h _ _ _ => ?_))
    (fun _ h _ => Safe.loop (fun _ _ _ => True) _ _ _ _ trivial (fun j s h _ _ _ => ?_))
  · split
    · exact Safe.sendBytes trivial
    · exact trivial
  · split
    · exact Safe.bind (Safe.recvBytes _ (fun _ _ => Safe.lift (fun _ _ => trivial) (fun _ _ => trivial)))
    · exact trivial

theorem _root_.DPPIR.Proc.Safe.allow {ι O α : Type} {I I' : List O → O → Prop} {F : List O → Fault → Prop} {p : Proc ι O α}
    {Q : α → List O → Prop} {h : List O} (hs : Proc.Safe I F p Q h) (hI : ∀ h o, I h o → I' h o) : Proc.Safe I' F p Q h := by
  induction p generalizing h with
  | done a => exact hs
  | fault e => exact hs
  | send d b k ih => exact ih hs
  | recv s k ih => exact fun b => ih b (hs b)
  | obs o k ih => exact ⟨hI _ _ hs.1, ih hs.2⟩

theorem exchangeCounts (me S : Nat) (sib : Nat → ι) (n : Nat → Res Nat) (own : Nat) :
    Still (fun _ => True) (Protocol.exchangeCounts me S sib n own) :=
  fun h => (exchangeCounts_silent me S sib n own h).allow (fun _ _ h => h.elim)

theorem barrier (me S : Nat) (sib : Nat → ι) : Still (fun _ => True) (Protocol.barrier me S sib) :=
  fun h => (barrier_silent me S sib h).allow (fun _ _ h => h.elim)

theorem sendTo (target : Nat) (l : List Byte) (x : XState σ) : Still (fun _ => True) (x.sendTo X target l) :=
  Still.bind (Still.pushBuffered _ _ _ _) (fun _ _ => Still.done trivial)

theorem broadcastSecrets (me S : Nat) (sib : Nat → ι) (items : List OfflineSecret) (store : OfflineSecret → σ → Res σ) (s : σ) :
    PStill (fun _ => True) (Protocol.broadcastSecrets me S sib items store s) := by
  unfold Protocol.broadcastSecrets
  refine then' (ofProc (exchangeCounts _ _ _ _ _)) (fun _ => sendAndPoll ?_ _ _ _)
  intro t x
  refine Still.loop _ _ _ trivial (fun j s _ => ?_)
  split
  · exact sendTo _ _ _
  · exact Still.done trivial

end PStill

open PStill

/-! ### The party -/

theorem sync_still (p : ParallelParty box) (sib : Nat → ι) : PStill (fun _ => True) (p.sync sib) := .ofProc (PStill.barrier _ _ _)

theorem relayReady_still (p : ParallelParty box) (back next : ι) (sib : Nat → ι) : PStill (fun _ => True) (p.relayReady back next sib) :=
  .then' (.ofProc (.waitForReady _)) (fun _ => .then' (sync_still _ _) (fun _ => .ofProc (.sendReady _)))

/-- The members that matter for installing are the same. -/
def SameIn (p q : Party box) : Prop :=
  q.partyId = p.partyId ∧ q.partyCount = p.partyCount ∧ q.pkey = p.pkey ∧ q.skey = p.skey ∧ q.ciphers = p.ciphers ∧
    q.shuffledCount = p.shuffledCount

theorem shufflers_silent (p : ParallelParty box) (rand : ParallelRand box) (sib : Nat → ι) (h : List Obs) :
    PProc.Safe (fun _ (_ : Obs) => False) (fun _ _ => True) (p.initializeShufflers rand sib)
      (fun p' _ => SameIn p.toParty p'.toParty) h := by
  have lifted : ∀ {γ δ : Type} (r : Res γ) (f : γ → PProg ι δ) (Q : δ → List Obs → Prop) (h : List Obs),
      (∀ a, PProc.Safe (fun _ (_ : Obs) => False) (fun _ _ => True) (f a) Q h) →
      PProc.Safe (fun _ (_ : Obs) => False) (fun _ _ => True) ((PProc.lift r).bind f) Q h := by
    intro γ δ r f Q h hf
    cases r with
    | ok a => exact hf a
    | error e => exact trivial
  exact lifted _ _ _ _ (fun _ => lifted _ _ _ _ (fun _ => lifted _ _ _ _ (fun _ =>
    PProc.Safe.bind' (PProc.Safe.ofProc (exchangeCounts_silent _ _ _ _ _ _)) (fun _ h _ => lifted _ _ _ _ (fun _ => ⟨rfl, rfl, rfl, rfl, rfl, rfl⟩)))))

theorem shufflers_still (p : ParallelParty box) (rand : ParallelRand box) (sib : Nat → ι) :
    PStill (fun p' => SameIn p.toParty p'.toParty) (p.initializeShufflers rand sib) :=
  .then' (.lift' _) (fun _ => .then' (.lift' _) (fun _ => .then' (.lift' _) (fun _ =>
    .then' (.ofProc (PStill.exchangeCounts _ _ _ _ _)) (fun _ => .then' (.lift' _) (fun _ => .done ⟨rfl, rfl, rfl, rfl, rfl, rfl⟩)))))

variable {k parties : Nat} {pk : box.PKey} {sk : box.SKey}

theorem Shape.same {p q : Party box} (h : Shape p k parties pk sk) (e : SameIn p q) : Shape q k parties pk sk := by
  obtain ⟨e1, e2, e3, e4, e5, e6⟩ := e
  exact ⟨e1.trans h.id, e2.trans h.count, e3.trans h.pkey, e4.trans h.skey, by rw [e5]; exact h.short, by rw [e5]; exact h.long, h.lt,
    by rw [e6]; exact h.shuffled⟩

theorem foldl_wrap_lt (l : List Nat) : ∀ a < 2 ^ 32, l.foldl (fun a c => wrap32 (a + c)) a < 2 ^ 32 := by
  induction l with
  | nil => exact fun a h => h
  | cons c l ih => exact fun a _ => ih _ (Nat.mod_lt _ (by decide))

theorem counts_still (p : ParallelParty box) (back next : ι) (sib : Nat → ι) (hs : Shape p.toParty k parties pk sk) :
    PStill (fun p' => Shape p'.toParty k parties pk sk) (p.initializeCounts back next sib) := by
  refine .then' (.ofProc (.readCount _)) (fun _ => .then' (.ofProc (PStill.exchangeCounts _ _ _ _ _)) (fun l =>
    .then' (.ofProc (.sendCount _ _)) (fun _ => .done ⟨hs.id, hs.count, hs.pkey, hs.skey, hs.short, hs.long, hs.lt, ?_⟩)))
  show (if _ then _ else _) < _
  split
  · exact Nat.mod_lt _ (by decide)
  · exact Nat.lt_of_le_of_lt (Nat.div_le_self _ _) (foldl_wrap_lt _ _ (by decide))

theorem shuffleOut_mute (X : Exchange ι) (own : Nat → τ → ParallelParty box × List Nat → Res (ParallelParty box × List Nat))
    (encode : τ → List Byte) (t : τ) (x : XState (ParallelParty box)) : Still (fun _ => True) (shuffleOut X own encode t x) := by
  unfold shuffleOut
  refine Still.bind (Still.lift' _) (fun y _ => ?_)
  simp only
  split
  · exact Still.bind (Still.lift' _) (fun _ _ => Still.done trivial)
  · exact PStill.sendTo _ _ _

theorem shuffleCiphers_still (p : ParallelParty box) (sib : Nat → ι) : PStill (fun _ => True) (p.shuffleCiphers sib) := by
  unfold ParallelParty.shuffleCiphers
  exact .then' (.lift' _) (fun _ => .then' (.lift' _) (fun _ => .then' (PStill.sendAndPoll (fun t x => shuffleOut_mute _ _ _ t x) _ _ _)
    (fun _ => .then' (sync_still _ _) (fun _ => .done trivial))))

theorem shuffleQueries_still (p : ParallelParty box) (sib : Nat → ι) : PStill (fun _ => True) (p.shuffleQueries sib) := by
  unfold ParallelParty.shuffleQueries
  exact .then' (.lift' _) (fun _ => .then' (.lift' _) (fun _ => .then' (PStill.sendAndPoll (fun t x => shuffleOut_mute _ _ _ t x) _ _ _)
    (fun _ => .then' (sync_still _ _) (fun _ => .done trivial))))

theorem deshuffle_still (p : ParallelParty box) (sib : Nat → ι) : PStill (fun _ => True) (p.deshuffleResponses sib) := by
  unfold ParallelParty.deshuffleResponses
  refine .then' (.lift' _) (fun _ => .then' (.lift' _) (fun _ => .then' (.lift' _) (fun _ => .then' (PStill.sendAndPoll (fun t x => ?_) _ _ _)
    (fun _ => .then' (sync_still _ _) (fun _ => .done trivial)))))
  show Still _ (ParallelParty.respond _ t x)
  unfold ParallelParty.respond
  refine Still.bind (Still.lift' _) (fun y _ => ?_)
  simp only
  split
  · exact Still.bind (Still.lift' _) (fun _ _ => Still.done trivial)
  · exact PStill.sendTo _ _ _

theorem broadcast_still (p : ParallelParty box) (rand : ParallelRand box) (sib : Nat → ι) : PStill (fun _ => True) (p.broadcast rand sib) :=
  .then' (PStill.broadcastSecrets _ _ _ _ _ _) (fun _ => .done trivial)

theorem sendCiphersP_still (p : ParallelParty box) (next : ι) : Still (fun _ => True) (p.sendCiphers next) :=
  .bind (.lift' _) (fun _ _ => .bind (R := fun _ => True) (.each _ _ trivial (fun _ _ _ => .sendCipher _ _ _ _))
    (fun _ _ => .bind (.flush _ _) (fun _ _ => .done trivial)))

theorem parallel_online_still (p : ParallelParty box) (back next : ι) (sib : Nat → ι) : PStill (fun _ => True) (p.startOnline back next sib) := by
  unfold ParallelParty.startOnline
  refine .then' (.ofProc ?_) (fun p => .then' (sync_still _ _) (fun _ => .then' (shuffleQueries_still _ _) (fun p => .then' (.ofProc ?_) (fun p =>
    .then' (.ofProc ?_) (fun p => .then' (deshuffle_still _ _) (fun p => .then' (sync_still _ _) (fun _ => .then' (.ofProc ?_) (fun _ => .done trivial))))))))
  · exact .bind (R := fun _ => True) (.loop _ _ _ trivial (fun _ _ _ => .bind (.recvQuery _) (fun _ _ => .bind (.lift' _) (fun _ _ => .lift' _))))
      (fun _ _ => .done trivial)
  · exact .bind (.lift' _) (fun _ _ =>
      .bind (R := fun _ => True) (.each _ _ trivial (fun _ _ _ => .sendQuery _ _ _)) (fun _ _ => .bind (.flush _ _) (fun _ _ => .done trivial)))
  · refine .bind (.lift' _) (fun _ _ => .bind (R := fun _ => True) (.loop _ _ _ trivial (fun j p _ => ?_)) (fun p _ => .done trivial))
    refine .bind (.recvResponse _) (fun _ _ => .bind (.lift' _) (fun _ _ => .bind (.lift' _) (fun _ _ => .bind (.lift' _) (fun _ _ =>
      .bind (.lift' _) (fun _ _ => ?_)))))
    split
    · exact .bind (.lift' _) (fun _ _ => .bind (.lift' _) (fun _ _ => .done trivial))
    · exact .done trivial
  · exact .bind (.lift' _) (fun _ _ =>
      .bind (R := fun _ => True) (.each _ _ trivial (fun _ _ _ => .sendResponse _ _ _)) (fun _ _ => .bind (.flush _ _) (fun _ _ => .done trivial)))

/-- A program without cipher calls in a state in which received ciphers wait. -/
theorem PStill.wait {R : α → Prop} {p : PProg ι α} (hp : ∀ h, PProc.Safe (fun _ (_ : Obs) => False) (fun _ _ => True) p (fun a _ => R a) h)
    (pk : box.PKey) (sk : box.SKey) (h : List Obs) :
    PProc.Safe (Justified pk sk) (fun _ _ => True) p (fun a h' => R a ∧ h' = h) h := by
  have key : ∀ (p : PProg ι α), (PProc.Safe (fun _ (_ : Obs) => False) (fun _ _ => True) p (fun a _ => R a) h) →
      PProc.Safe (Justified pk sk) (fun _ _ => True) p (fun a h' => R a ∧ h' = h) h := by
    intro p
    induction p with
    | done a => exact fun hs => ⟨hs, rfl⟩
    | fault e => exact fun _ => trivial
    | send d b k ih => exact fun hs => ih hs
    | recv s k ih => exact fun hs b => ih b (hs b)
    | poll ss bl k ih => exact fun hs r h1 h2 => ih r (hs r h1 h2)
    | read s n k ih => exact fun hs c h1 h2 => ih c (hs c h1 h2)
    | obs o k ih => exact fun hs => hs.1.elim
  exact key p (hp h)

theorem parallel_offline_safe (p : ParallelParty box) (rand : ParallelRand box) (back next : ι) (sib : Nat → ι)
    (hs : Shape p.toParty k parties pk sk) :
    PProc.Safe (Justified pk sk) (fun _ _ => True) (p.startOffline rand back next sib) (fun _ h' => AllIn h') [] := by
  have first : PStill (fun p' : ParallelParty box => Shape p'.toParty k parties pk sk ∧ (∃ shorts, p'.ciphers.Holds shorts []) ∧
      p'.ciphers.mem.length = p'.ciphers.firstLong + p'.inputCount * p'.ciphers.longSize)
      ((PProc.lift (p.toParty.initializeNoiseSamples rand.toPartyRand)).bind fun q =>
        ((p.withParty q).initializeCounts back next sib).bind fun p =>
        (PProc.lift (({ p with queriesState := p.queriesState.initialize false
                               noiseState := p.noiseState.initialize (p.partyCount - p.partyId - 1) p.noiseCount true false } :
            ParallelParty box).toParty.createNoiseCiphersTagged
          ({ p with queriesState := p.queriesState.initialize false
                    noiseState := p.noiseState.initialize (p.partyCount - p.partyId - 1) p.noiseCount true false } :
            ParallelParty box).sampleTag rand.toPartyRand)).bind fun q =>
        ((({ p with queriesState := p.queriesState.initialize false
                    noiseState := p.noiseState.initialize (p.partyCount - p.partyId - 1) p.noiseCount true false } :
            ParallelParty box).withParty q).relayReady back next sib).bind fun _ =>
        .done (({ p with queriesState := p.queriesState.initialize false
                         noiseState := p.noiseState.initialize (p.partyCount - p.partyId - 1) p.noiseCount true false } :
            ParallelParty box).withParty q)) := by
    refine .bind (.lift (fun p' h' => hs.samples h')) (fun q hq => .bind (counts_still (p.withParty q) _ _ _ hq) (fun p2 h2 => ?_))
    refine .bind (.lift (fun q hq => createTagged_shape (k := k) (parties := parties) (pk := pk) (sk := sk) ?_ hq)) (fun q hq => ?_)
    · exact ⟨h2.id, h2.count, h2.pkey, h2.skey, h2.short, h2.long, h2.lt, h2.shuffled⟩
    · refine .then' (relayReady_still _ _ _ _) (fun _ => .done ⟨hq.1, hq.2.2.1, ?_⟩)
      show q.ciphers.mem.length = q.ciphers.firstLong + q.inputCount * q.ciphers.longSize
      rw [hq.2.1]
      exact hq.2.2.2
  have last : ∀ p : ParallelParty box, PStill (fun _ => True) ((p.shuffleCiphers sib).bind fun p => (PProc.ofProc (p.sendCiphers next)).bind fun p =>
      (p.broadcast rand sib).bind fun p => (p.initializeShufflers rand sib).bind fun p => (PProc.lift p.prepareOnline).bind fun p =>
      (p.relayReady back next sib).bind fun _ => .done p) := fun p =>
    .then' (shuffleCiphers_still _ _) (fun _ => .then' (.ofProc (sendCiphersP_still _ _)) (fun _ => .then' (broadcast_still _ _ _) (fun _ =>
      .bind (shufflers_still _ _ _) (fun _ _ => .then' (.lift' _) (fun _ => .then' (relayReady_still _ _ _ _) (fun _ => .done trivial))))))
  have anyF : ∀ {h : List Obs} {e : Fault}, StopOk h e → True := fun _ => trivial
  have hrun : p.startOffline rand back next sib = ((PProc.lift (p.toParty.initializeNoiseSamples rand.toPartyRand)).bind fun q =>
        ((p.withParty q).initializeCounts back next sib).bind fun p =>
        (PProc.lift (({ p with queriesState := p.queriesState.initialize false
                               noiseState := p.noiseState.initialize (p.partyCount - p.partyId - 1) p.noiseCount true false } :
            ParallelParty box).toParty.createNoiseCiphersTagged
          ({ p with queriesState := p.queriesState.initialize false
                    noiseState := p.noiseState.initialize (p.partyCount - p.partyId - 1) p.noiseCount true false } :
            ParallelParty box).sampleTag rand.toPartyRand)).bind fun q =>
        ((({ p with queriesState := p.queriesState.initialize false
                    noiseState := p.noiseState.initialize (p.partyCount - p.partyId - 1) p.noiseCount true false } :
            ParallelParty box).withParty q).relayReady back next sib).bind fun _ =>
        .done (({ p with queriesState := p.queriesState.initialize false
                         noiseState := p.noiseState.initialize (p.partyCount - p.partyId - 1) p.noiseCount true false } :
            ParallelParty box).withParty q)).bind fun p =>
      (PProc.ofProc (p.toParty.collectCiphers back)).bind fun q => ((p.withParty q).sync sib).bind fun _ =>
      ((p.withParty q).initializeShufflers rand sib).bind fun p => (PProc.ofProc p.toParty.installSecrets).bind fun q =>
      (((p.withParty q).shuffleCiphers sib).bind fun p => (PProc.ofProc (p.sendCiphers next)).bind fun p =>
      (p.broadcast rand sib).bind fun p => (p.initializeShufflers rand sib).bind fun p => (PProc.lift p.prepareOnline).bind fun p =>
      (p.relayReady back next sib).bind fun _ => .done p) := by
    simp only [PProc.bind_assoc]
    rfl
  rw [hrun]
  refine PProc.Safe.bind' ((first.safe pk sk [] rfl).loosen (fun _ _ h => anyF h)) ?_
  rintro q h ⟨⟨a1, ⟨shorts, a2⟩, a3⟩, a4, a5⟩
  refine PProc.Safe.bind' (PProc.Safe.ofProc ((collect_safe q.toParty back h a1 shorts a2 a3 a5 a4).loosen (fun _ _ h => anyF h))) ?_
  rintro q1 h ⟨b1, b2, b3⟩
  refine PProc.Safe.bind' (PStill.wait (R := fun _ => True) (fun h => PProc.Safe.ofProc (PStill.barrier_silent _ _ _ h)) pk sk h) ?_
  rintro - _ ⟨-, rfl⟩
  refine PProc.Safe.bind' (PStill.wait (shufflers_silent (q.withParty q1) rand sib) pk sk _) ?_
  rintro q2 h' ⟨hq2, rfl⟩
  have c1 := Shape.same b1 hq2
  have c2 : q2.ciphers = q1.ciphers := hq2.2.2.2.2.1
  refine PProc.Safe.bind' (PProc.Safe.ofProc ((install_safe (p := q2.toParty) (k := k) (parties := parties) _ h' shorts (ciphersRead h')
    c1 (by rw [c2]; exact b3) ?_ (by rw [b2]; simp) (by rw [b2]; rfl)).loosen (fun _ _ h => anyF h))) ?_
  · rw [c2, b3.lastLong]
    have h1 : 1 ≤ q1.ciphers.longSize := by
      rw [b1.long, cipherSize]
      have := b1.lt
      exact Nat.mul_pos (by simp [secretSize]) (by omega)
    have h2 : (ciphersRead h').length * 1 ≤ (ciphersRead h').length * q1.ciphers.longSize := Nat.mul_le_mul_left _ h1
    omega
  · intro q3 h hin
    refine (((last _).safe pk sk h hin).loosen (fun _ _ h => anyF h)).mono ?_
    rintro _ h' ⟨-, c1, c2⟩
    unfold AllIn
    rw [c1, c2]
    exact hin

theorem parallel_start_safe (p : ParallelParty box) (rand : ParallelRand box) (back next : ι) (sib : Nat → ι) (offline online : Bool)
    (hs : Shape p.toParty k parties pk sk) :
    PProc.Safe (Justified pk sk) (fun _ _ => True) (p.start rand back next sib offline online) (fun _ h' => AllIn h') [] := by
  have hst : p.start rand back next sib offline online =
      (if offline then p.startOffline rand back next sib else p.simulateOffline rand back next sib).bind
      fun p => if online then (p.startOnline back next sib).bind fun _ => .done () else .done () := by
    unfold ParallelParty.start
    cases offline <;> rfl
  rw [hst]
  refine PProc.Safe.bind' (R := fun _ h => AllIn h) ?_ ?_
  · cases offline
    · refine (((PStill.safe (R := fun _ => True) ?_ pk sk [] rfl).loosen (fun _ _ _ => trivial)).mono ?_)
      · exact .bind (.lift (fun p' h' => hs.samples h')) (fun q hq => .bind (counts_still (p.withParty q) _ _ _ hq) (fun _ _ =>
          .bind (shufflers_still _ _ _) (fun _ _ => .then' (.lift' _) (fun _ => .then' (relayReady_still _ _ _ _) (fun _ => .done trivial)))))
      · rintro _ h' ⟨-, c1, c2⟩
        unfold AllIn
        rw [c1, c2]
        rfl
    · exact parallel_offline_safe p rand back next sib hs
  · intro q h hin
    cases online
    · exact hin
    · refine PProc.Safe.bind' (((parallel_online_still q back next sib).safe pk sk h hin).loosen (fun _ _ _ => trivial)) ?_
      rintro _ h' ⟨-, c1, c2⟩
      show AllIn h'
      unfold AllIn
      rw [c1, c2]
      exact hin

theorem grid_party_safe (g : Grid box) (k s : Nat) (offline online : Bool) :
    PProc.Safe (Justified (g.pkey k) (g.skey k)) (fun _ _ => True) (g.party k s offline online) (fun _ h' => AllIn h') [] := by
  unfold Grid.party
  cases hdb : Database.new g.rows with
  | error e => exact trivial
  | ok db =>
    show PProc.Safe _ _ ((PProc.lift (ParallelParty.new _ _ _ _ _ _ _ _ _ _)).bind _) _ _
    cases hp : ParallelParty.new k s g.parties g.servers (g.sharedSeed k) (g.localSeed k s) g.pkeys (g.pkey k) (g.skey k) db with
    | error e => exact trivial
    | ok p =>
      unfold ParallelParty.new at hp
      cases ht : serverTable g.servers with
      | error e => rw [ht] at hp; cases hp
      | ok table =>
        rw [ht, bind_ok] at hp
        by_cases h0 : 2 ≤ g.parties ∧ k < g.parties - 1
        · by_cases h1 : 1 < g.servers ∧ s < g.servers
          · simp [DPPIR.assert, h0, h1, bind_ok] at hp
            obtain rfl := hp
            exact parallel_start_safe (parties := g.parties) (k := k) _ _ _ _ _ _ _ ⟨rfl, rfl, rfl, rfl, rfl, rfl, by omega, Nat.two_pow_pos 32⟩
          · simp only [DPPIR.assert, decide_eq_false h1, decide_eq_true h0] at hp
            cases hp
        · simp only [DPPIR.assert, decide_eq_false h0] at hp
          cases hp

/-! ### The backend -/

theorem grid_backend_safe (g : Grid box) (s : Nat) (offline online : Bool) :
    PProc.Safe (Justified (g.pkey (g.parties - 1)) (g.skey (g.parties - 1))) StopOk (g.backend s offline online)
      (fun _ h' => AllIn h') [] := by
  unfold Grid.backend
  cases hdb : Database.new g.rows with
  | error e => exact fun hne => absurd rfl hne
  | ok db =>
  show PProc.Safe _ _ ((PProc.lift (serverTable _)).bind _) _ _
  cases ht : serverTable g.servers with
  | error e => exact fun hne => absurd rfl hne
  | ok table =>
  show PProc.Safe _ _ ((PProc.lift (Backend.new _ _ _ _)).bind _) _ _
  cases hb : Backend.new g.parties (g.pkey (g.parties - 1)) (g.skey (g.parties - 1)) db with
  | error e => exact fun hne => absurd rfl hne
  | ok b =>
  have hk : b.pkey = g.pkey (g.parties - 1) ∧ b.skey = g.skey (g.parties - 1) := by
    unfold Backend.new at hb
    by_cases h0 : 2 ≤ g.parties
    · simp [DPPIR.assert, h0, bind_ok] at hb
      obtain rfl := hb
      exact ⟨rfl, rfl⟩
    · simp only [DPPIR.assert, decide_eq_false h0] at hb
      cases hb
  rw [← hk.1, ← hk.2]
  have keys : Still (fun b' : Backend box => b'.pkey = b.pkey ∧ b'.skey = b.skey) (b.initializeBatch (g.parties - 1, s)) :=
    .bind (.readCount _) (fun _ _ => .done ⟨rfl, rfl⟩)
  have hst : b.startParallel (g.backendOrder s) s g.servers (g.parties - 1, s) (fun t => (g.parties, t)) g.junk offline online =
      (if offline then b.startOfflineParallel (g.backendOrder s) s g.servers (g.parties - 1, s) (fun t => (g.parties, t))
        else PProc.ofProc (b.simulateOffline (g.parties - 1, s))).bind
      fun b => if online then (PProc.ofProc (b.startOnline (g.parties - 1, s) g.junk)).bind fun _ => .done () else .done () := by
    unfold Backend.startParallel
    cases offline <;> rfl
  show PProc.Safe _ _ (b.startParallel (g.backendOrder s) s g.servers (g.parties - 1, s) (fun t => (g.parties, t)) g.junk offline online) _ _
  rw [hst]
  refine PProc.Safe.bind' (R := fun _ h => AllIn h) ?_ ?_
  · cases offline
    · refine ((PStill.safe (R := fun _ => True) ?_ b.pkey b.skey [] rfl).mono ?_)
      · exact .ofProc (.bind keys (fun _ _ => .bind (.sendReady _) (fun _ _ => .done trivial)))
      · rintro _ h' ⟨-, c1, c2⟩
        unfold AllIn
        rw [c1, c2]
        rfl
    · refine PProc.Safe.bind' (PProc.Safe.ofProc (keys.safe b.pkey b.skey [] rfl)) ?_
      rintro b' h ⟨⟨k1, k2⟩, c1, c2⟩
      refine PProc.Safe.bind' (PProc.Safe.ofProc ((Still.sendReady _).safe b.pkey b.skey h (by unfold AllIn; rw [c1, c2]; rfl))) ?_
      rintro - h' ⟨-, d1, d2⟩
      have := backend_install_safe { b' with state := b'.state.initialize false } (g.parties - 1, s) h' (by unfold AllIn; rw [d1, d2, c1, c2]; rfl)
      rw [← k1, ← k2]
      refine PProc.Safe.bind' (PProc.Safe.ofProc this) ?_
      intro b'' h'' hin
      have rest : PStill (fun _ => True) ((b''.broadcast (g.backendOrder s) s g.servers (fun t => (g.parties, t))).bind fun b =>
          (PProc.ofProc (barrier s g.servers (fun t => (g.parties, t)))).bind fun _ =>
          (PProc.ofProc (sendReady (g.parties - 1, s))).bind fun _ => .done b : PProg Node (Backend box)) :=
        .then' (.then' (PStill.broadcastSecrets _ _ _ _ _ _) (fun _ => .done trivial)) (fun _ => .then' (.ofProc (PStill.barrier _ _ _)) (fun _ =>
          .then' (.ofProc (.sendReady _)) (fun _ => .done trivial)))
      refine (rest.safe b'.pkey b'.skey h'' hin).mono ?_
      rintro - h3 ⟨-, e1, e2⟩
      show AllIn h3
      unfold AllIn
      rw [e1, e2]
      exact hin
  · intro q h hin
    cases online
    · exact hin
    · refine PProc.Safe.bind' (PProc.Safe.ofProc ((backend_online_still q _ _).safe b.pkey b.skey h hin)) ?_
      rintro _ h' ⟨-, c1, c2⟩
      show AllIn h'
      unfold AllIn
      rw [c1, c2]
      exact hin

end Protocol
end DPPIR
