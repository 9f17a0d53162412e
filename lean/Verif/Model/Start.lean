import Verif.Model.Main
import Verif.Model.Loops
import Verif.Model.Noise

/-!
# From the command line to the protocol (`DPPIR/main.cc` and the constructors)

What a process does that was started with given flags and a given configuration file:
which parts of the configuration the constructors hand to the protocol, and where the
noise samples come from.  Connecting is in `Connect`.
-/

namespace DPPIR.Main
open DPPIR.Config DPPIR.Noise DPPIR.Protocol DPPIR.Onion DPPIR.Shuffle

/-- The `double` with a given bit pattern (IEEE 754, binary64). -/
noncomputable def Dbl.ofBits (b : BitVec 64) : Dbl :=
  let sign : ℝ := if b.msb then -1 else 1
  let e : Nat := b.toNat / 2 ^ 52 % 2 ^ 11
  let m : Nat := b.toNat % 2 ^ 52
  if e = 2047 then (if m = 0 then (if b.msb then .ninf else .pinf) else .nan)
  else if e = 0 then .fin (sign * m / 2 ^ 1074)
  else .fin (sign * (2 ^ 52 + m) * 2 ^ e / 2 ^ 1075)

/-- What the processes of a deployment depend on besides their flags and configuration:
how the library reads keys, the arithmetic of doubles, the C library's generator, how the
program was built, and all random choices (those of server `s` of party `k` are given by
`k` and `s`). -/
structure World (box : SealedBox) where
  /-- the keys that libsodium sees in 32 bytes -/
  pkey : (Fin keySize → Byte) → box.PKey
  skey : (Fin keySize → Byte) → box.SKey
  arith : FloatOps
  division : ℚ → ℚ
  rand : RandGen
  /-- whether `DPPIR_SAMPLE` was defined (noise.h:28-32) -/
  sampling : Bool
  /-- the two results of `rand()` for the `i`-th noise sample -/
  draw : Nat → Nat → Nat → Nat × Nat
  clientRand : Nat → ClientRand box
  secret : Nat → Nat → Nat → SecretRand box
  order : Nat → Nat → List (BitVec 64 × PartySecret) → List (BitVec 64 × PartySecret)
  backendOrder : Nat → List (BitVec 64 × BackendSecret) → List (BitVec 64 × BackendSecret)
  junk : Response

namespace World
variable {box : SealedBox} {ι : Type} (w : World box)

/-- `pkeys_` (client_initialization.cc:25-27, party_initialization.cc:51-53). -/
def pkeys (c : Config) : List box.PKey := c.parties.map (fun p => w.pkey p.pkey)

/-- `NoiseDistribution::Sample` (noise.h:28-32), the `i`-th call by server `s` of party
`k`. -/
noncomputable def sample (d : Dist) (k s i : Nat) : Res Nat :=
  if w.sampling then
    d.sampleReal w.arith (randUniform w.arith (w.draw k s i).1) (randUniform w.arith (w.draw k s i).2)
  else d.sampleDefault

open Classical in
/-- A process that would run into undefined behaviour in some call of `Sample` counts as
one that does so from the start. -/
noncomputable def checkSamples (d : Dist) (k s : Nat) : Res Unit :=
  if ∀ i, ∃ n, w.sample d k s i = .ok n then .ok () else .error .ub

/-- The choices of server `s` of party `k` whose `distribution_` is `d`, after
`checkSamples`. -/
noncomputable def choices (d : Dist) (k s : Nat) : ParallelRand box :=
  { rnd := w.division, rand := w.rand
    sample := fun i => BitVec.ofNat 32 ((w.sample d k s i).toOption.getD 0)
    secret := w.secret k s, order := w.order k s }

/-- `distribution_(config_.epsilon, config_.delta)` (party_initialization.cc:43,
parallel_party_initialization.cc:55). -/
noncomputable def distribution (c : Config) : Res Dist :=
  Dist.new w.arith (Dbl.ofBits c.epsilon) (Dbl.ofBits c.delta)

/-- What a process does after `main` has read the configuration `c` (main.cc:78-116):
construct an object of the class, and `Start`.  `node l s` is the name of server `s` at
level `l`.  The steps of a constructor that can fail (`at`, the distribution, the
assertions) may be in another order here. -/
noncomputable def start (node : Nat → Nat → ι) (c : Config) : Action → PProg ι Unit
  | .exit1 => .done ()
  | .client sid q offline online => do
    let db ← PProc.lift (Database.new c.dbSize.toNat)
    let cl ← PProc.lift (Client.new sid.toNat c.partyCount.toNat (w.pkeys c) db)
    cl.startLoops (w.clientRand sid.toNat) (node 1 sid.toNat) q.toNat offline online
  | .party pid sid offline online => do
    let db ← PProc.lift (Database.new c.dbSize.toNat)
    let own ← PProc.lift (vecAt c.parties pid.toNat)
    let server ← PProc.lift (vecAt own.servers sid.toNat)
    let d ← PProc.lift (w.distribution c)
    let _ ← PProc.lift (w.checkSamples d pid.toNat sid.toNat)
    let p ← PProc.lift (Party.new pid.toNat sid.toNat c.partyCount.toNat c.serverCount.toNat server.localSeed.toInt
      (w.pkeys c) (w.pkey own.pkey) (w.skey own.skey) db)
    p.startLoops (w.choices d pid.toNat sid.toNat).toPartyRand (node pid.toNat sid.toNat) (node (pid.toNat + 2) sid.toNat)
      offline online
  | .parallelParty pid sid offline online => do
    let db ← PProc.lift (Database.new c.dbSize.toNat)
    let own ← PProc.lift (vecAt c.parties pid.toNat)
    let server ← PProc.lift (vecAt own.servers sid.toNat)
    let d ← PProc.lift (w.distribution c)
    let _ ← PProc.lift (w.checkSamples d pid.toNat sid.toNat)
    let p ← PProc.lift (ParallelParty.new pid.toNat sid.toNat c.partyCount.toNat c.serverCount.toNat own.sharedSeed.toInt
      server.localSeed.toInt (w.pkeys c) (w.pkey own.pkey) (w.skey own.skey) db)
    p.startLoops (w.choices d pid.toNat sid.toNat) (node pid.toNat sid.toNat) (node (pid.toNat + 2) sid.toNat)
      (node (pid.toNat + 1)) offline online
  | .backend sid offline online => do
    let db ← PProc.lift (Database.new c.dbSize.toNat)
    let _ ← PProc.lift (serverTable c.serverCount.toNat)
    let own ← PProc.lift (vecAt c.parties (c.partyCount.toNat - 1))
    let _ ← PProc.lift (vecAt own.servers sid.toNat)
    let b ← PProc.lift (Backend.new c.partyCount.toNat (w.pkey own.pkey) (w.skey own.skey) db)
    if c.serverCount.toNat = 1 then
      b.startLoops (node (c.partyCount.toNat - 1) sid.toNat) w.junk offline online
    else
      b.startParallelLoops (w.backendOrder sid.toNat) sid.toNat c.serverCount.toNat
        (node (c.partyCount.toNat - 1) sid.toNat) (node c.partyCount.toNat) w.junk offline online

/-- A process that was started with the flags `f` (main.cc:28-118). -/
noncomputable def run (node : Nat → Nat → ι) (file : String → Option (List Byte)) (f : Flags) : PProg ι Unit :=
  match main file f with
  | .error e => .fault e
  | .ok .exit1 => .done ()
  | .ok a => match readFile (file f.config) with
    | .error e => .fault e
    | .ok c => w.start node c a

end World

end DPPIR.Main
