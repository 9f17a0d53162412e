import Verif.Model.Start

/-!
# The generator of the C library in a party's process

`rand()` has one hidden state per process.  Here it is an explicit part of the state of a
party: who draws from it, in which order, and who seeds it.  Nothing but
`NoiseDistribution` (noise.cc:30) and `shuffle/util.cc` (lines 7 and 12) uses it.  In
`World` the results of `rand()` for the noise were a parameter (`draw`).
-/

namespace DPPIR.Main
open DPPIR.Config DPPIR.Noise DPPIR.Protocol DPPIR.Onion DPPIR.Shuffle

/-- The state of the generator: the last seed and the number of calls of `rand()` since. -/
structure Gen where
  seed : Int
  used : Nat

namespace Gen

/-- The state when a program starts: "if rand is called before any calls to srand have been
made, the same sequence shall be generated as when srand is first called with a seed value
of 1" (ISO C, 7.22.2.2).  `main` (main.cc:28-118) does not call `srand`. -/
def initial : Gen := ⟨1, 0⟩

/-- `srand(s)` (shuffle/util.cc:7). -/
def srand (s : Int) : Gen := ⟨s, 0⟩

/-- The results of the next calls of `rand()`. -/
def stream (lib : RandGen) (g : Gen) (k : Nat) : Nat := lib g.seed (g.used + k)

/-- The state after `n` calls of `rand()`. -/
def advance (g : Gen) (n : Nat) : Gen := { g with used := g.used + n }

end Gen

variable {box : SealedBox} {ι : Type} (w : World box)

/-- `NoiseDistribution::Sample` (noise.h:28-32): `SampleReal` calls `Laplace`, which calls
`rand()` twice, for the sign and for the size (noise.cc:15-19,66-71). -/
noncomputable def World.sampleG (d : Dist) (g : Gen) : Res (Nat × Gen) :=
  if w.sampling then do
    let n ← d.sampleReal w.arith (randUniform w.arith (g.stream w.rand 0)) (randUniform w.arith (g.stream w.rand 1))
    .ok (n, g.advance 2)
  else do
    let n ← d.sampleDefault
    .ok (n, g)

/-- Loop body of `InitializeNoiseSamples` (party_initialization.cc:72-76,
parallel_party_initialization.cc:94-98). -/
noncomputable def World.sampleStepG (d : Dist) (_ : Nat) (x : Party box × Gen) : Res (Party box × Gen) := do
  let (sample, g) ← w.sampleG d x.2
  let noise ← x.1.noise.pushBack sample
  .ok ({ x.1 with noise := noise, noiseCount := wrap32 (x.1.noiseCount + sample) }, g)

/-- `InitializeNoiseSamples` (party_initialization.cc:62-77,
parallel_party_initialization.cc:84-99). -/
noncomputable def World.noiseSamplesG (d : Dist) (p : Party box) (g : Gen) : Res (Party box × Gen) := do
  let (start, stop) ← Noise.findRange w.division (BitVec.ofNat 8 p.serverId) (BitVec.ofNat 8 p.serverCount) p.db.size
  let size := wrap32 (stop + 2 ^ 32 - start)
  forRange 0 size (w.sampleStepG d)
    ({ p with noiseCount := 0, noiseStart := start, noiseEnd := stop, noise := Batch.initialize size 0 }, g)

/-- `LocalShuffler::Initialize` (shuffle/local_shuffle.cc:12-32): it seeds the generator and
calls `rand()` once per message but the first. -/
def localG (lib : RandGen) (s : LocalShuffler) (n : Nat) (_ : Gen) : Res (LocalShuffler × Gen) := do
  let g := Gen.srand s.seed
  let s ← s.initialize (fun _ => g.stream lib) n
  .ok (s, g.advance (n - 1))

/-- `ParallelShuffler::Initialize` (shuffle/parallel_shuffle.cc:24-121): likewise, with the
seed that all servers of the party share. -/
def parallelG (lib : RandGen) (s : ParallelShuffler) (counts : List Nat) (noise : Nat) (_ : Gen) : Res (ParallelShuffler × Gen) := do
  let g := Gen.srand s.seed
  let s ← s.initialize (fun _ => g.stream lib) counts noise
  .ok (s, g.advance (counts.sum - 1))

/-- `Party::InitializeShuffler` (party_initialization.cc:93-95). -/
def shufflerG (lib : RandGen) (p : Party box) (g : Gen) : Res (Party box × Gen) := do
  let (s, g) ← localG lib p.shuffler p.shuffledCount g
  .ok ({ p with shuffler := s }, g)

/-- `ParallelParty::InitializeShufflers` (parallel_party_initialization.cc:141-171). -/
def shufflersG (lib : RandGen) (p : ParallelParty box) (sib : Nat → ι) (g : Gen) : PProg ι (ParallelParty box × Gen) := do
  let (ps, g) ← PProc.lift (parallelG lib p.pshuffler p.atSiblingCounts p.noiseCount g)
  PProc.lift (assert (p.shuffledCount = ps.getServerSliceSize))
  let own ← PProc.lift (ps.countNoiseTo p.serverId)
  let counts ← PProc.ofProc (exchangeCounts p.serverId p.serverCount sib ps.countNoiseTo own)
  let (ls, g) ← PProc.lift (localG lib p.shuffler p.shuffledCount g)
  return ({ p with pshuffler := ps, noiseFrom := counts, noisePrefix := runningSums 0 counts, shuffler := ls }, g)

/-- `Party::StartOffline` (party_offline.cc:112-177). -/
noncomputable def World.startOfflineG (d : Dist) (p : Party box) (rand : PartyRand box) (back next : ι) (g : Gen) : PProg ι (Party box) := do
  let (p, g) ← PProc.lift (w.noiseSamplesG d p g)
  let p ← PProc.ofProc (p.initializeCounts back next)
  let p := { p with queriesState := p.queriesState.initialize false
                    noiseState := p.noiseState.initialize (p.partyCount - p.partyId - 1) p.noiseCount true false }
  let p ← PProc.lift (p.createNoiseCiphers rand)
  PProc.ofProc (waitForReady next)
  PProc.ofProc (sendReady back)
  let p ← p.collectCiphersLoops back
  let (p, g) ← PProc.lift (shufflerG w.rand p g)
  let p ← PProc.ofProc p.installSecrets
  let p ← PProc.ofProc (p.sendCiphers next)
  let (p, _) ← PProc.lift (shufflerG w.rand p g)
  let p ← PProc.lift p.prepareOnline
  PProc.ofProc (waitForReady next)
  PProc.ofProc (sendReady back)
  return p

/-- `Party::SimulateOffline` (party_offline.cc:179-211). -/
noncomputable def World.simulateOfflineG (d : Dist) (p : Party box) (back next : ι) (g : Gen) : PProg ι (Party box) := do
  let (p, g) ← PProc.lift (w.noiseSamplesG d p g)
  let p ← PProc.ofProc (p.initializeCounts back next)
  let (p, _) ← PProc.lift (shufflerG w.rand p g)
  let p := { p with queriesState := p.queriesState.initialize true
                    noiseState := p.noiseState.initialize (p.partyCount - p.partyId - 1) p.noiseCount true true }
  let p ← PProc.lift p.prepareOnline
  PProc.ofProc (waitForReady next)
  PProc.ofProc (sendReady back)
  return p

/-- `Party::Start` (party/party.h:31-40).  Nobody uses the generator in the online stage. -/
noncomputable def World.startPartyG (d : Dist) (p : Party box) (rand : PartyRand box) (back next : ι) (offline online : Bool) (g : Gen) :
    PProg ι Unit := do
  let p ← if offline then w.startOfflineG d p rand back next g else w.simulateOfflineG d p back next g
  if online then
    let _ ← p.startOnlineLoops back next
    return ()
  else return ()

/-- `ParallelParty::StartOffline` (parallel_party_offline.cc:139-212). -/
noncomputable def World.startOfflineParallelG (d : Dist) (p : ParallelParty box) (rand : ParallelRand box) (back next : ι) (sib : Nat → ι) (g : Gen) :
    PProg ι (ParallelParty box) := do
  let (q, g) ← PProc.lift (w.noiseSamplesG d p.toParty g)
  let p ← (p.withParty q).initializeCounts back next sib
  let p := { p with queriesState := p.queriesState.initialize false
                    noiseState := p.noiseState.initialize (p.partyCount - p.partyId - 1) p.noiseCount true false }
  let q ← PProc.lift (p.toParty.createNoiseCiphersTagged p.sampleTag rand.toPartyRand)
  let p := p.withParty q
  p.relayReady back next sib
  let q ← p.toParty.collectCiphersLoops back
  let p := p.withParty q
  p.sync sib
  let (p, g) ← shufflersG w.rand p sib g
  let q ← PProc.ofProc p.toParty.installSecrets
  let p ← (p.withParty q).shuffleCiphers sib
  let p ← PProc.ofProc (p.sendCiphers next)
  let p ← p.broadcast rand sib
  let (p, _) ← shufflersG w.rand p sib g
  let p ← PProc.lift p.prepareOnline
  p.relayReady back next sib
  return p

/-- `ParallelParty::SimulateOffline` (parallel_party_offline.cc:215-258). -/
noncomputable def World.simulateOfflineParallelG (d : Dist) (p : ParallelParty box) (back next : ι) (sib : Nat → ι) (g : Gen) :
    PProg ι (ParallelParty box) := do
  let (q, g) ← PProc.lift (w.noiseSamplesG d p.toParty g)
  let p ← (p.withParty q).initializeCounts back next sib
  let (p, _) ← shufflersG w.rand p sib g
  let p := { p with queriesState := p.queriesState.initialize true
                    noiseState := p.noiseState.initialize (p.partyCount - p.partyId - 1) p.noiseCount true true }
  let p ← PProc.lift p.prepareOnline
  p.relayReady back next sib
  return p

/-- `ParallelParty::Start` (parallel_party/parallel_party.h:33-42). -/
noncomputable def World.startParallelPartyG (d : Dist) (p : ParallelParty box) (rand : ParallelRand box) (back next : ι) (sib : Nat → ι)
    (offline online : Bool) (g : Gen) : PProg ι Unit := do
  let p ← if offline then w.startOfflineParallelG d p rand back next sib g else w.simulateOfflineParallelG d p back next sib g
  if online then
    let _ ← p.startOnlineLoops back next sib
    return ()
  else return ()

/-- What a process does after `main` has read the configuration `c` (main.cc:78-116), as
`World.start`, but with the generator in its initial state.  Clients and backends do not
use the generator.  The parties use their other random choices (libsodium's) only through
`choices`. -/
noncomputable def World.startG (node : Nat → Nat → ι) (c : Config) : Action → PProg ι Unit
  | .party pid sid offline online => do
    let db ← PProc.lift (Database.new c.dbSize.toNat)
    let own ← PProc.lift (vecAt c.parties pid.toNat)
    let server ← PProc.lift (vecAt own.servers sid.toNat)
    let d ← PProc.lift (w.distribution c)
    let p ← PProc.lift (Party.new pid.toNat sid.toNat c.partyCount.toNat c.serverCount.toNat server.localSeed.toInt
      (w.pkeys c) (w.pkey own.pkey) (w.skey own.skey) db)
    w.startPartyG d p (w.choices d pid.toNat sid.toNat).toPartyRand (node pid.toNat sid.toNat) (node (pid.toNat + 2) sid.toNat)
      offline online .initial
  | .parallelParty pid sid offline online => do
    let db ← PProc.lift (Database.new c.dbSize.toNat)
    let own ← PProc.lift (vecAt c.parties pid.toNat)
    let server ← PProc.lift (vecAt own.servers sid.toNat)
    let d ← PProc.lift (w.distribution c)
    let p ← PProc.lift (ParallelParty.new pid.toNat sid.toNat c.partyCount.toNat c.serverCount.toNat own.sharedSeed.toInt
      server.localSeed.toInt (w.pkeys c) (w.pkey own.pkey) (w.skey own.skey) db)
    w.startParallelPartyG d p (w.choices d pid.toNat sid.toNat) (node pid.toNat sid.toNat) (node (pid.toNat + 2) sid.toNat)
      (node (pid.toNat + 1)) offline online .initial
  | a => w.start node c a

/-- A process that was started with the flags `f` (main.cc:28-118), its generator in the
initial state. -/
noncomputable def World.runG (node : Nat → Nat → ι) (file : String → Option (List Byte)) (f : Flags) : PProg ι Unit :=
  match main file f with
  | .error e => .fault e
  | .ok .exit1 => .done ()
  | .ok a => match readFile (file f.config) with
    | .error e => .fault e
    | .ok c => w.startG node c a

end DPPIR.Main
