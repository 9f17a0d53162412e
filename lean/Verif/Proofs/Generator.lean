import Verif.Spec.Generator
import Verif.Proofs.Start

/-!
# With a generator per process, a party's noise comes from seed 1
-/

namespace DPPIR.Main
open DPPIR.Config DPPIR.Noise DPPIR.Protocol DPPIR.Onion DPPIR.Shuffle

variable {box : SealedBox} {ι : Type} {w : World box} {d : Dist}

theorem lift_fst {α β : Type} (x : Res (α × Gen)) {f : α × Gen → PProg ι β} {f' : α → PProg ι β} (h : ∀ a g, f (a, g) = f' a) :
    (PProc.lift x : PProg ι (α × Gen)) >>= f = (PProc.lift (Prod.fst <$> x) : PProg ι α) >>= f' := by
  cases x with
  | error e => rfl
  | ok x => exact h x.1 x.2

theorem sampleG_eq {k s i : Nat} {n : Nat} (h : w.unseeded.sample d k s i = .ok n) {g : Gen} (h1 : g.seed = 1)
    (h2 : w.sampling = true → g.used = 2 * i) :
    ∃ g', w.sampleG d g = .ok (n, g') ∧ g'.seed = 1 ∧ (w.sampling = true → g'.used = 2 * (i + 1)) := by
  unfold World.sampleG
  unfold World.sample at h
  by_cases hs : w.sampling = true
  · have hs' : w.unseeded.sampling = true := hs
    rw [if_pos hs'] at h
    rw [if_pos hs]
    have e : g.stream w.rand 0 = (w.unseeded.draw k s i).1 ∧ g.stream w.rand 1 = (w.unseeded.draw k s i).2 := by
      simp only [Gen.stream, World.unseeded, h1, h2 hs, Nat.add_zero, and_self]
    rw [e.1, e.2]
    refine ⟨g.advance 2, ?_, h1, fun _ => ?_⟩
    · have h' : d.sampleReal w.arith (randUniform w.arith (w.unseeded.draw k s i).1) (randUniform w.arith (w.unseeded.draw k s i).2) = .ok n := h
      rw [h']
      rfl
    · simp only [Gen.advance, h2 hs]; omega
  · have hs' : ¬ w.unseeded.sampling = true := hs
    rw [if_neg hs'] at h
    rw [if_neg hs, h]
    exact ⟨g, rfl, h1, fun h => absurd h hs⟩

theorem samples_loop {N : Nat} (hN : w.unseeded.SamplesUpTo d N) (h32 : N < 2 ^ 32) (k s : Nat) (n : Nat) : ∀ (i : Nat) (p : Party box) (g : Gen),
    g.seed = 1 → (w.sampling = true → g.used = 2 * i) →
    Prod.fst <$> forUp n i (w.sampleStepG d) (p, g) = forUp n i (Party.sampleStep (w.unseeded.choices d k s).toPartyRand) p := by
  induction n with
  | zero => intros; rfl
  | succ n ih =>
    intro i p g h1 h2
    obtain ⟨m, hm, he⟩ := hN k s i
    obtain ⟨g', e, h1', h2'⟩ := sampleG_eq he h1 h2
    have ev : (((w.unseeded.choices d k s).toPartyRand).sample i).toNat = m := by
      show (BitVec.ofNat 32 ((w.unseeded.sample d k s i).toOption.getD 0)).toNat = m
      rw [he]
      simp only [Except.toOption, Option.getD_some, BitVec.toNat_ofNat]
      omega
    show Prod.fst <$> ((w.sampleStepG d i (p, g)) >>= fun s' => forUp n (i + 1) (w.sampleStepG d) s') = _
    have e1 : w.sampleStepG d i (p, g) = (do
        let noise ← p.noise.pushBack m
        .ok ({ p with noise := noise, noiseCount := wrap32 (p.noiseCount + m) }, g')) := by
      unfold World.sampleStepG
      rw [show (p, g).2 = g from rfl, e]
      rfl
    have e2 : Party.sampleStep (w.unseeded.choices d k s).toPartyRand i p = (do
        let noise ← p.noise.pushBack m
        .ok { p with noise := noise, noiseCount := wrap32 (p.noiseCount + m) }) := by
      unfold Party.sampleStep
      rw [ev]
    show _ = (Party.sampleStep (w.unseeded.choices d k s).toPartyRand i p >>= fun s' => forUp n (i + 1) _ s')
    rw [e1, e2]
    cases p.noise.pushBack m with
    | error e => rfl
    | ok b => exact ih (i + 1) _ g' h1' h2'

theorem noiseSamplesG_eq {N : Nat} (hN : w.unseeded.SamplesUpTo d N) (h32 : N < 2 ^ 32) (k s : Nat) (p : Party box) :
    Prod.fst <$> w.noiseSamplesG d p .initial = p.initializeNoiseSamples (w.unseeded.choices d k s).toPartyRand := by
  unfold World.noiseSamplesG Party.initializeNoiseSamples
  show Prod.fst <$> (findRange w.division _ _ _ >>= _) = (findRange w.division _ _ _ >>= _)
  cases findRange w.division (BitVec.ofNat 8 p.serverId) (BitVec.ofNat 8 p.serverCount) p.db.size with
  | error e => rfl
  | ok r =>
    obtain ⟨start, stop⟩ := r
    rw [bind_ok, bind_ok]
    dsimp only
    generalize wrap32 (stop + 2 ^ 32 - start) = n
    exact samples_loop hN h32 k s (n - 0) 0 _ _ rfl (fun _ => rfl)

theorem srand_stream (lib : RandGen) (s : Int) : (Gen.srand s).stream lib = lib s := by
  funext k
  simp [Gen.stream, Gen.srand]

theorem localG_eq (lib : RandGen) (s : LocalShuffler) (n : Nat) (g : Gen) :
    Prod.fst <$> localG lib s n g = s.initialize lib n := by
  have e : s.initialize (fun _ => (Gen.srand s.seed).stream lib) n = s.initialize lib n := by
    unfold LocalShuffler.initialize
    rw [srand_stream]
  unfold localG
  dsimp only
  rw [e]
  cases s.initialize lib n <;> rfl

theorem parallelG_eq (lib : RandGen) (s : ParallelShuffler) (counts : List Nat) (noise : Nat) (g : Gen) :
    Prod.fst <$> parallelG lib s counts noise g = s.initialize lib counts noise := by
  have e : s.initialize (fun _ => (Gen.srand s.seed).stream lib) counts noise = s.initialize lib counts noise := by
    unfold ParallelShuffler.initialize
    rw [srand_stream]
  unfold parallelG
  dsimp only
  rw [e]
  cases s.initialize lib counts noise <;> rfl

theorem shufflerG_eq (p : Party box) (rand : PartyRand box) (g : Gen) :
    Prod.fst <$> shufflerG rand.rand p g = p.initializeShuffler rand := by
  unfold shufflerG Party.initializeShuffler
  rw [← localG_eq rand.rand p.shuffler p.shuffledCount g]
  cases localG rand.rand p.shuffler p.shuffledCount g <;> rfl

theorem bind_congr' {α β : Type} (x : PProg ι α) {f g : α → PProg ι β} (h : ∀ a, f a = g a) : x >>= f = x >>= g := by
  congr 1
  funext a
  exact h a

theorem lift_fst' {α β : Type} (x : Res (α × Gen)) {y : Res α} (hy : Prod.fst <$> x = y) {f : α × Gen → PProg ι β} {f' : α → PProg ι β}
    (h : ∀ a g, f (a, g) = f' a) :
    (PProc.lift x : PProg ι (α × Gen)) >>= f = (PProc.lift y : PProg ι α) >>= f' := by
  rw [← hy]
  exact lift_fst x h

theorem passoc {α β γ : Type} (x : PProg ι α) (f : α → PProg ι β) (g : β → PProg ι γ) : (x >>= f) >>= g = x >>= fun a => f a >>= g :=
  PProc.bind_assoc x f g

theorem pofProc {α β : Type} (x : Prog ι α) (f : α → Prog ι β) :
    PProc.ofProc (x >>= f) = (PProc.ofProc x : PProg ι α) >>= fun a => PProc.ofProc (f a) := PProc.ofProc_bind x f

theorem bind_fst {α β γ : Type} (x : PProg ι (α × γ)) {y : PProg ι α} (hx : (x >>= fun a => (.done a.1 : PProg ι α)) = y)
    {f : α × γ → PProg ι β} {f' : α → PProg ι β} (h : ∀ a g, f (a, g) = f' a) : x >>= f = y >>= f' := by
  rw [← hx]
  rw [passoc]
  exact bind_congr' _ (fun a => h a.1 a.2)

theorem shufflersG_eq (p : ParallelParty box) (rand : ParallelRand box) (sib : Nat → ι) (g : Gen) :
    (shufflersG rand.rand p sib g >>= fun a => (.done a.1 : PProg ι _)) = p.initializeShufflers rand sib := by
  unfold shufflersG ParallelParty.initializeShufflers
  rw [passoc]
  refine lift_fst' _ (parallelG_eq rand.rand p.pshuffler p.atSiblingCounts p.noiseCount g) fun ps g => ?_
  dsimp only
  rw [passoc]
  refine lift_bind_congr _ fun _ => ?_
  rw [passoc]
  refine lift_bind_congr _ fun own => ?_
  rw [passoc]
  refine bind_congr' _ fun counts => ?_
  rw [passoc]
  exact lift_fst' _ (localG_eq rand.rand p.shuffler p.shuffledCount g) fun ls g => rfl

section
variable {N : Nat} (hN : w.unseeded.SamplesUpTo d N) (h32 : N < 2 ^ 32) (k s : Nat) (back next : ι)
include hN h32

theorem startOfflineG_eq (p : Party box) : w.startOfflineG d p (w.choices d k s).toPartyRand back next .initial =
    p.startOfflineLoops (w.unseeded.choices d k s).toPartyRand back next := by
  unfold World.startOfflineG Party.startOfflineLoops
  refine lift_fst' _ (noiseSamplesG_eq hN h32 k s p) fun p g => ?_
  refine bind_congr' _ fun p => ?_
  refine lift_bind_congr _ fun p => ?_
  refine bind_congr' _ fun _ => ?_
  refine bind_congr' _ fun _ => ?_
  refine bind_congr' _ fun p => ?_
  refine lift_fst' _ (shufflerG_eq p (w.unseeded.choices d k s).toPartyRand g) fun p g => ?_
  refine bind_congr' _ fun p => ?_
  refine bind_congr' _ fun p => ?_
  exact lift_fst' _ (shufflerG_eq p (w.unseeded.choices d k s).toPartyRand g) fun p g => rfl

theorem simulateOfflineG_eq (p : Party box) : w.simulateOfflineG d p back next .initial =
    PProc.ofProc (p.simulateOffline (w.unseeded.choices d k s).toPartyRand back next) := by
  unfold World.simulateOfflineG Party.simulateOffline
  rw [pofProc]
  refine lift_fst' _ (noiseSamplesG_eq hN h32 k s p) fun p g => ?_
  rw [pofProc]
  refine bind_congr' _ fun p => ?_
  rw [pofProc]
  refine lift_fst' _ (shufflerG_eq p (w.unseeded.choices d k s).toPartyRand g) fun p g => ?_
  rw [pofProc]
  refine lift_bind_congr _ fun p => ?_
  rw [pofProc]
  refine bind_congr' _ fun _ => ?_
  rw [pofProc]
  rfl

theorem startPartyG_eq (p : Party box) (offline online : Bool) :
    w.startPartyG d p (w.choices d k s).toPartyRand back next offline online .initial =
      p.startLoops (w.unseeded.choices d k s).toPartyRand back next offline online := by
  unfold World.startPartyG Party.startLoops
  rw [startOfflineG_eq hN h32, simulateOfflineG_eq hN h32 k s]

theorem startOfflineParallelG_eq (p : ParallelParty box) (sib : Nat → ι) :
    w.startOfflineParallelG d p (w.choices d k s) back next sib .initial =
      p.startOfflineLoops (w.unseeded.choices d k s) back next sib := by
  unfold World.startOfflineParallelG ParallelParty.startOfflineLoops
  refine lift_fst' _ (noiseSamplesG_eq hN h32 k s p.toParty) fun q g => ?_
  refine bind_congr' _ fun p => ?_
  refine lift_bind_congr _ fun q => ?_
  refine bind_congr' _ fun _ => ?_
  refine bind_congr' _ fun q => ?_
  refine bind_congr' _ fun _ => ?_
  refine bind_fst _ (shufflersG_eq _ (w.unseeded.choices d k s) sib g) fun p g => ?_
  refine bind_congr' _ fun q => ?_
  refine bind_congr' _ fun p => ?_
  refine bind_congr' _ fun p => ?_
  refine bind_congr' _ fun p => ?_
  exact bind_fst _ (shufflersG_eq p (w.unseeded.choices d k s) sib g) fun p g => rfl

theorem simulateOfflineParallelG_eq (p : ParallelParty box) (sib : Nat → ι) :
    w.simulateOfflineParallelG d p back next sib .initial = p.simulateOffline (w.unseeded.choices d k s) back next sib := by
  unfold World.simulateOfflineParallelG ParallelParty.simulateOffline
  refine lift_fst' _ (noiseSamplesG_eq hN h32 k s p.toParty) fun q g => ?_
  refine bind_congr' _ fun p => ?_
  exact bind_fst _ (shufflersG_eq p (w.unseeded.choices d k s) sib g) fun p g => rfl

theorem startParallelPartyG_eq (p : ParallelParty box) (sib : Nat → ι) (offline online : Bool) :
    w.startParallelPartyG d p (w.choices d k s) back next sib offline online .initial =
      p.startLoops (w.unseeded.choices d k s) back next sib offline online := by
  unfold World.startParallelPartyG ParallelParty.startLoops
  rw [startOfflineParallelG_eq hN h32, simulateOfflineParallelG_eq hN h32 k s]

end

/-- Whatever the flags: a process with a generator of its own runs the same program. -/
theorem runG_eq (w : World box) (node : Nat → Nat → ι) (file : String → Option (List Byte)) (f : Flags) {N : Nat} (h32 : N < 2 ^ 32)
    (hN : ∀ c d, readFile (file f.config) = .ok c → w.distribution c = .ok d → w.unseeded.SamplesUpTo d N) :
    w.runG node file f = w.unseeded.run node file f := by
  unfold World.runG World.run
  cases main file f with
  | error e => rfl
  | ok a =>
    cases a with
    | exit1 => rfl
    | client sid q off on => cases readFile (file f.config) <;> rfl
    | backend sid off on => cases readFile (file f.config) <;> rfl
    | party pid sid off on =>
      cases hc : readFile (file f.config) with
      | error e => rfl
      | ok c =>
        dsimp only
        unfold World.startG World.start
        refine lift_bind_congr _ fun db => lift_bind_congr _ fun own => lift_bind_congr _ fun server => ?_
        cases hd : w.distribution c with
        | error e => rw [show w.unseeded.distribution c = _ from hd]; rfl
        | ok d =>
          rw [show w.unseeded.distribution c = _ from hd, lift_ok', lift_ok', checked (hN c d hc hd), lift_ok']
          exact lift_bind_congr _ fun p => startPartyG_eq (hN c d hc hd) h32 _ _ _ _ _ _ _
    | parallelParty pid sid off on =>
      cases hc : readFile (file f.config) with
      | error e => rfl
      | ok c =>
        dsimp only
        unfold World.startG World.start
        refine lift_bind_congr _ fun db => lift_bind_congr _ fun own => lift_bind_congr _ fun server => ?_
        cases hd : w.distribution c with
        | error e => rw [show w.unseeded.distribution c = _ from hd]; rfl
        | ok d =>
          rw [show w.unseeded.distribution c = _ from hd, lift_ok', lift_ok', checked (hN c d hc hd), lift_ok']
          exact lift_bind_congr _ fun p => startParallelPartyG_eq (hN c d hc hd) h32 _ _ _ _ _ _ _ _

theorem samples_of_first {w : World box} {d : Dist} (hs : w.sampling = true) {σ : Nat → Nat} (hσ : w.FirstSamples d σ) (k s i : Nat) :
    w.unseeded.sample d k s i = .ok (σ i) := by
  unfold World.sample
  rw [if_pos (show w.unseeded.sampling = true from hs)]
  exact hσ i

theorem launchGen_eq {w : World box} {c : Config} {d : Dist} (h : Usable w c d) {N : Nat} (hN32 : N < 2 ^ 32)
    (hN : w.unseeded.SamplesUpTo d N) {file : String → Option (List Byte)} {path : String} (hc : readFile (file path) = .ok c)
    (stage : String) (P q : Nat) : launchGen w file path stage P q = launch w.unseeded file path stage P q := by
  have key : ∀ f : Flags, f.config = path → ∀ c' d', readFile (file f.config) = .ok c' → w.distribution c' = .ok d' → w.unseeded.SamplesUpTo d' N := by
    intro f hf c' d' h1 h2
    rw [hf, hc] at h1
    cases h1
    rw [h.noise] at h2
    cases h2
    exact hN
  funext i
  unfold launchGen launch
  rw [runG_eq w _ file _ hN32 (key _ rfl), runG_eq w _ file _ hN32 (key _ rfl)]

theorem launchManyGen_eq {w : World box} {c : Config} {d : Dist} (h : Usable w c d) {N : Nat} (hN32 : N < 2 ^ 32)
    (hN : w.unseeded.SamplesUpTo d N) {file : String → Option (List Byte)} {path : String} (hc : readFile (file path) = .ok c)
    (stage : String) (P S : Nat) (q : Nat → Nat) : launchManyGen w file path stage P S q = launchMany w.unseeded file path stage P S q := by
  have key : ∀ f : Flags, f.config = path → ∀ c' d', readFile (file f.config) = .ok c' → w.distribution c' = .ok d' → w.unseeded.SamplesUpTo d' N := by
    intro f hf c' d' h1 h2
    rw [hf, hc] at h1
    cases h1
    rw [h.noise] at h2
    cases h2
    exact hN
  funext i
  unfold launchManyGen launchMany
  rw [runG_eq w _ file _ hN32 (key _ rfl), runG_eq w _ file _ hN32 (key _ rfl)]

theorem unseeded_sane {w : World box} (hw : w.Sane) : w.unseeded.Sane := ⟨hw.division, hw.order, hw.backendOrder⟩

theorem unseeded_usable {w : World box} {c : Config} {d : Dist} (h : Usable w c d) : Usable w.unseeded c d :=
  ⟨h.parties, h.servers, h.rows, h.pairs, h.noise⟩

theorem lt_of_fits {N q P rows : Nat} (hP : 2 ≤ P) (hrows : 1 ≤ rows) (hq : q + (P - 1) * (rows * N) < 2 ^ 32) : N < 2 ^ 32 := by
  have h1 : 1 * N ≤ rows * N := Nat.mul_le_mul_right N hrows
  have h2 : 1 * (rows * N) ≤ (P - 1) * (rows * N) := Nat.mul_le_mul_right _ (by omega)
  omega

end DPPIR.Main
