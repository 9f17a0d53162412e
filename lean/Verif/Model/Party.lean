import Verif.Model.Protocol
import Verif.Model.Shuffle
import Verif.Model.Noise

/-!
# A party other than the last, one server (`DPPIR/protocol/party`)
-/

namespace DPPIR.Protocol
open DPPIR Proc Onion Incremental Additive Shuffle

/-- `Party` (party/party.h:45-78); the sockets are the names of the processes they are
connected to. -/
structure Party (box : SealedBox) where
  partyId : Nat
  serverId : Nat
  partyCount : Nat
  serverCount : Nat
  db : Database
  shuffler : LocalShuffler
  noiseCount : Nat := 0
  inputCount : Nat := 0
  shuffledCount : Nat := 0
  noise : Batch Nat := {}
  ciphers : CipherBatch
  tags : Batch (BitVec 64) := {}
  queries : Batch Query := {}
  responses : Batch Response := {}
  queriesState : PartyState := {}
  noiseState : ClientState := {}
  noiseStart : Nat := 0
  noiseEnd : Nat := 0
  pkeys : List box.PKey
  pkey : box.PKey
  skey : box.SKey

/-- Everything a party's behaviour depends on besides its configuration and messages:
rounding of `FindRange`'s division, the C generator, the results of
`distribution_.Sample()`, and the choices behind each noise secret. -/
structure PartyRand (box : SealedBox) where
  rnd : ℚ → ℚ
  rand : RandGen
  sample : Nat → BitVec 32
  secret : Nat → SecretRand box

variable {box : SealedBox} {ι : Type}

/-- Constructor (party_initialization.cc:12-60).  `pkeys` are the configured public
keys, `pkey` and `skey` this party's, `seed` its `local_seed`.  Connecting is not
modelled. -/
def Party.new (partyId serverId partyCount serverCount : Nat) (seed : Int) (pkeys : List box.PKey)
    (pkey : box.PKey) (skey : box.SKey) (db : Database) : Res (Party box) := do
  assert (2 ≤ partyCount ∧ partyId < partyCount - 1)
  assert (serverCount = 1)
  .ok { partyId := partyId, serverId := serverId, partyCount := partyCount, serverCount := serverCount, db := db
        shuffler := LocalShuffler.new seed
        ciphers := CipherBatch.new (cipherSize (partyCount - partyId - 1)) (cipherSize (partyCount - partyId))
        pkeys := pkeys, pkey := pkey, skey := skey }

/-! ## Handlers -/

/-- `Party::SampleTag` (party_handlers.cc:11-14): `uint32_t` arithmetic. -/
def Party.sampleTag (p : Party box) (id : Nat) : BitVec 64 := BitVec.ofNat 64 (wrap32 (p.inputCount + id))

/-- `MakeNoiseSecret` (party_handlers.cc:18-45, parallel_party_handlers.cc:29-56) with
the tag that `SampleTag(id)` returns. -/
def Party.makeNoiseSecretTagged (p : Party box) (rand : SecretRand box) (sampled : BitVec 64) :
    Res (Party box × List OfflineSecret) := do
  let remaining := p.partyCount - p.partyId - 1
  let incrementals := preIncrementalSecretShares rand.shares remaining
  let preshares ← generateAdditiveSecretShares rand.preshares (remaining + 1)
  let (secrets, tag) ← buildSecrets sampled incrementals preshares remaining 0 sampled
  let state ← p.noiseState.addNoiseSecret tag incrementals
  .ok ({ p with noiseState := state }, secrets)

/-- `Party::MakeNoiseQuery` (party_handlers.cc:48-55), into `queries_[target]`. -/
def Party.makeNoiseQuery (p : Party box) (key target : Nat) : Res (Party box) := do
  let state := p.noiseState.loadNext
  let tag ← state.getTag
  let shares ← state.getIncrementalShares
  let tally ← generateIncrementalTally (BitVec.ofNat 32 key) shares
  let queries ← p.queries.set target ⟨tag, tally⟩
  .ok { p with noiseState := state, queries := queries }

/-- `Party::HandleQuery` (party_handlers.cc:58-66), into `queries_[target]`. -/
def Party.handleQuery (p : Party box) (input : Query) (target : Nat) : Res (Party box) := do
  let state := p.queriesState.loadSecret input.tag
  let tag ← state.getNextTag
  let share ← state.getIncremental
  let queries ← p.queries.set target ⟨tag, incrementalReconstruct input.tally share⟩
  .ok { p with queriesState := state, queries := queries }

/-- `Party::HandleResponse` (party_handlers.cc:69-74), into `responses_[target]`. -/
def Party.handleResponse (p : Party box) (tag : BitVec 64) (input : Response) (target : Nat) : Res (Party box) := do
  let pre ← p.queriesState.getPreshare tag
  let old ← p.responses.get target
  let r ← additiveReconstructInto input pre old
  let responses ← p.responses.set target r
  .ok { p with responses := responses }

/-! ## Initialization -/

/-- Loop body of `InitializeNoiseSamples` (party_initialization.cc:72-76). -/
def Party.sampleStep (rand : PartyRand box) (i : Nat) (p : Party box) : Res (Party box) := do
  let sample := (rand.sample i).toNat
  let noise ← p.noise.pushBack sample
  .ok { p with noise := noise, noiseCount := wrap32 (p.noiseCount + sample) }

/-- `Party::InitializeNoiseSamples` (party_initialization.cc:62-77). -/
def Party.initializeNoiseSamples (p : Party box) (rand : PartyRand box) : Res (Party box) := do
  let (start, stop) ← Noise.findRange rand.rnd (BitVec.ofNat 8 p.serverId) (BitVec.ofNat 8 p.serverCount) p.db.size
  let size := wrap32 (stop + 2 ^ 32 - start)
  forRange 0 size (Party.sampleStep rand)
    { p with noiseCount := 0, noiseStart := start, noiseEnd := stop, noise := Batch.initialize size 0 }

/-- `Party::InitializeCounts` (party_initialization.cc:79-91). -/
def Party.initializeCounts (p : Party box) (back next : ι) : Prog ι (Party box) := do
  let input ← readCount back
  let shuffled := wrap32 (input + p.noiseCount)
  sendCount next shuffled
  return { p with inputCount := input, shuffledCount := shuffled }

/-- `Party::InitializeShuffler` (party_initialization.cc:93-95). -/
def Party.initializeShuffler (p : Party box) (rand : PartyRand box) : Res (Party box) := do
  let s ← p.shuffler.initialize rand.rand p.shuffledCount
  .ok { p with shuffler := s }

/-- Inner loop body of `InitializeNoiseQueries` (party_initialization.cc:102-107). -/
def Party.noiseQueryStep (key idx : Nat) (p : Party box) : Res (Party box) := do
  let target ← p.shuffler.shuffle idx
  p.makeNoiseQuery key target

/-- Outer loop body of `InitializeNoiseQueries` (party_initialization.cc:99-108); the
state carries `idx`. -/
def Party.noiseKeyStep (key : Nat) (st : Nat × Party box) : Res (Nat × Party box) := do
  let (idx, p) := st
  let sample ← p.noise.get (key - p.noiseStart)
  let stop := wrap32 (idx + sample)
  let p ← forRange idx stop (Party.noiseQueryStep key) p
  .ok (max idx stop, p)

/-- `Party::InitializeNoiseQueries` (party_initialization.cc:97-111). -/
def Party.initializeNoiseQueries (p : Party box) : Res (Party box) := do
  let (_, p) ← forRange p.noiseStart p.noiseEnd Party.noiseKeyStep (0, p)
  .ok { p with noise := Batch.free, noiseState := p.noiseState.free }

/-! ## Offline stage -/

/-- Loop body of `CollectCiphers` (party_offline.cc:17-26). -/
def Party.collectCipher (back : ι) (_ : Nat) (p : Party box) : Prog ι (Party box) := do
  let c ← recvCipher back p.ciphers.longSize
  let b ← lift (p.ciphers.pushLong c)
  return { p with ciphers := b }

/-- `Party::CollectCiphers` (party_offline.cc:13-27). -/
def Party.collectCiphers (p : Party box) (back : ι) : Prog ι (Party box) :=
  loop p.inputCount 0 (Party.collectCipher back) p

/-- Loop body of `CreateNoiseCiphers` (party_offline.cc:36-47,
parallel_party_offline.cc:36-48); `tagOf` is `SampleTag`. -/
def Party.noiseCipherStep (tagOf : Nat → Res (BitVec 64)) (rand : PartyRand box) (i : Nat) (p : Party box) :
    Res (Party box) := do
  let r := rand.secret i
  let tag ← tagOf i
  let (p, secrets) ← p.makeNoiseSecretTagged r tag
  let c ← onionEncrypt box r.coins r.junk r.junk' secrets (p.partyId + 1) p.partyCount p.pkeys
  let b ← p.ciphers.pushShort c
  .ok { p with ciphers := b }

/-- `CreateNoiseCiphers` (party_offline.cc:29-53, parallel_party_offline.cc:29-53);
`tagOf` is `SampleTag`. -/
def Party.createNoiseCiphersTagged (tagOf : Nat → Res (BitVec 64)) (p : Party box) (rand : PartyRand box) :
    Res (Party box) :=
  forRange 0 p.noiseCount (Party.noiseCipherStep tagOf rand)
    { p with ciphers := p.ciphers.initialize p.noiseCount p.inputCount }

/-- `Party::CreateNoiseCiphers` (party_offline.cc:29-53).  `SampleTag` depends only on
`input_count_`, which does not change meanwhile. -/
def Party.createNoiseCiphers (p : Party box) (rand : PartyRand box) : Res (Party box) :=
  p.createNoiseCiphersTagged (fun i => .ok (p.sampleTag i)) rand

/-- The loop of `InstallSecrets` (party_offline.cc:60-77).  Every round advances by
`long_size_` bytes, so a run of more than `fuel` rounds, the number of bytes, means
that the loop does not end. -/
def Party.installLoop : Nat → Party box → Prog ι (Party box)
  | 0, p => if p.ciphers.hasLong then .fault .hang else .done p
  | fuel + 1, p =>
    if p.ciphers.hasLong then do
      let (mem, b) := p.ciphers.popLong
      let layer ← lift (onionDecrypt box mem (p.partyCount - p.partyId) p.pkey p.skey)
      let msg ← lift layer.msg
      observe (.store msg)
      let st ← lift (p.queriesState.store msg)
      let b ← lift (b.pushShort layer.nextLayer)
      Party.installLoop fuel { p with ciphers := b, queriesState := st }
    else .done p

/-- `Party::InstallSecrets` (party_offline.cc:55-82). -/
def Party.installSecrets (p : Party box) : Prog ι (Party box) :=
  Party.installLoop (p.ciphers.lastLong - p.ciphers.firstLong) p

/-- Loop body of `SendCiphers` (party_offline.cc:96-104); the state is the socket's
write buffer. -/
def Party.sendCipherStep (p : Party box) (next : ι) (i : Nat) (w : WBuf) : Prog ι WBuf := do
  let idx ← lift (p.shuffler.shuffle i)
  sendCipher next p.ciphers.shortSize (p.ciphers.getShort idx) w

/-- `Party::SendCiphers` (party_offline.cc:84-110). -/
def Party.sendCiphers (p : Party box) (next : ι) : Prog ι (Party box) := do
  let w ← loop p.shuffledCount 0 (p.sendCipherStep next) {}
  flush next w
  return { p with shuffler := p.shuffler.finishForward, ciphers := p.ciphers.free }

/-- The initialisation of the online stage (party_offline.cc:151-164, 193-204): batches
and noise queries. -/
def Party.prepareOnline (p : Party box) : Res (Party box) :=
  Party.initializeNoiseQueries
    { p with tags := Batch.initialize p.inputCount 0, queries := Batch.initialize p.shuffledCount ⟨0, 0⟩ }

/-- `Party::StartOffline` (party_offline.cc:112-177). -/
def Party.startOffline (p : Party box) (rand : PartyRand box) (back next : ι) : Prog ι (Party box) := do
  let p ← lift (p.initializeNoiseSamples rand)
  let p ← p.initializeCounts back next
  let p := { p with queriesState := p.queriesState.initialize false
                    noiseState := p.noiseState.initialize (p.partyCount - p.partyId - 1) p.noiseCount true false }
  let p ← lift (p.createNoiseCiphers rand)
  waitForReady next
  sendReady back
  let p ← p.collectCiphers back
  let p ← lift (p.initializeShuffler rand)
  let p ← p.installSecrets
  let p ← p.sendCiphers next
  let p ← lift (p.initializeShuffler rand)
  let p ← lift p.prepareOnline
  waitForReady next
  sendReady back
  return p

/-- `Party::SimulateOffline` (party_offline.cc:179-211). -/
def Party.simulateOffline (p : Party box) (rand : PartyRand box) (back next : ι) : Prog ι (Party box) := do
  let p ← lift (p.initializeNoiseSamples rand)
  let p ← p.initializeCounts back next
  let p ← lift (p.initializeShuffler rand)
  let p := { p with queriesState := p.queriesState.initialize true
                    noiseState := p.noiseState.initialize (p.partyCount - p.partyId - 1) p.noiseCount true true }
  let p ← lift p.prepareOnline
  waitForReady next
  sendReady back
  return p

/-! ## Online stage -/

/-- Loop body of `CollectQueries` (party_online.cc:20-29); `read` counts from
`noise_count_`. -/
def Party.collectQuery (back : ι) (read : Nat) (p : Party box) : Prog ι (Party box) := do
  let q ← recvQuery back
  let tags ← lift (p.tags.pushBack q.tag)
  let target ← lift (p.shuffler.shuffle read)
  lift (Party.handleQuery { p with tags := tags } q target)

/-- `Party::CollectQueries` (party_online.cc:14-31). -/
def Party.collectQueries (p : Party box) (back : ι) : Prog ι (Party box) :=
  loop (p.shuffledCount - p.noiseCount) p.noiseCount (Party.collectQuery back) p

/-- `Party::SendQueries` (party_online.cc:34-45). -/
def Party.sendQueries (p : Party box) (next : ι) : Prog ι (Party box) := do
  let qs ← lift p.queries.elements
  let w ← each (sendQuery next) qs {}
  flush next w
  return { p with shuffler := p.shuffler.finishForward, queries := Batch.free }

/-- Loop body of `CollectResponses` (party_online.cc:58-70). -/
def Party.collectResponse (next : ι) (read : Nat) (p : Party box) : Prog ι (Party box) := do
  let r ← recvResponse next
  let target ← lift (p.shuffler.deshuffle read)
  if target ≥ p.noiseCount then do
    let tag ← lift (p.tags.get (target - p.noiseCount))
    lift (p.handleResponse tag r (target - p.noiseCount))
  else return p

/-- `Party::CollectResponses` (party_online.cc:49-76). -/
def Party.collectResponses (p : Party box) (next : ι) : Prog ι (Party box) := do
  let p ← loop p.shuffledCount 0 (Party.collectResponse next)
    { p with responses := Batch.initialize p.inputCount ⟨0, fun _ => 0⟩ }
  return { p with shuffler := p.shuffler.finishBackward, tags := Batch.free }

/-- `Party::SendResponses` (party_online.cc:79-88). -/
def Party.sendResponses (p : Party box) (back : ι) : Prog ι (Party box) := do
  let rs ← lift p.responses.elements
  let w ← each (sendResponse back) rs {}
  flush back w
  return { p with responses := Batch.free }

/-- `Party::StartOnline` (party_online.cc:90-109). -/
def Party.startOnline (p : Party box) (back next : ι) : Prog ι (Party box) := do
  let p ← p.collectQueries back
  let p ← p.sendQueries next
  let p ← p.collectResponses next
  p.sendResponses back

/-- `Party::Start` (party/party.h:31-40). -/
def Party.start (p : Party box) (rand : PartyRand box) (back next : ι) (offline online : Bool) : Prog ι Unit := do
  let p ← if offline then p.startOffline rand back next else p.simulateOffline rand back next
  if online then
    let _ ← p.startOnline back next
    return ()
  else return ()

end DPPIR.Protocol
