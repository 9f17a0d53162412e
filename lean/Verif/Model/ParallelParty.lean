import Verif.Model.Exchange
import Verif.Model.ParallelShuffle
import Verif.Model.Party
import Verif.Model.Backend

/-!
# A server of a party with several servers (`DPPIR/protocol/parallel_party`), and the
parts of the backend that need siblings (`DPPIR/protocol/backend/backend_offline.cc`)

Functions of `ParallelParty` that are the same as those of `Party`, statement by
statement, are modelled by the latter, on the members both classes have.
-/

namespace DPPIR.Protocol
open DPPIR Proc Onion Incremental Additive Shuffle

/-- `ParallelParty` (parallel_party/parallel_party.h:44-110).  Members of `Party` stand
for `in_ciphers_` (`ciphers`), `in_tags_` (`tags`), `in_queries_` (`queries`),
`out_responses_` (`responses`), `lshuffler_` (`shuffler`), and for the members with the
same names. `received_from_sibling_counts_` is only used during an exchange, see
`XState`. -/
structure ParallelParty (box : SealedBox) extends Party box where
  pshuffler : ParallelShuffler
  outCiphers : CipherBatch
  outQueries : Batch Query := {}
  inResponses : Batch Response := {}
  atSiblingCounts : List Nat
  totalBatchSize : Nat := 0
  noiseFrom : List Nat
  noisePrefix : List Nat

variable {box : SealedBox} {ι : Type}

/-- Constructor (parallel_party_initialization.cc:13-72).  The maps of counts are built
before the assertions.  Connecting is not modelled. -/
def ParallelParty.new (partyId serverId partyCount serverCount : Nat) (sharedSeed localSeed : Int)
    (pkeys : List box.PKey) (pkey : box.PKey) (skey : box.SKey) (db : Database) : Res (ParallelParty box) := do
  let table ← serverTable serverCount
  assert (2 ≤ partyCount ∧ partyId < partyCount - 1)
  assert (1 < serverCount ∧ serverId < serverCount)
  let ciphers := CipherBatch.new (cipherSize (partyCount - partyId - 1)) (cipherSize (partyCount - partyId))
  .ok { partyId := partyId, serverId := serverId, partyCount := partyCount, serverCount := serverCount, db := db
        shuffler := LocalShuffler.new localSeed
        pshuffler := ParallelShuffler.new serverId serverCount sharedSeed
        ciphers := ciphers, outCiphers := ciphers
        atSiblingCounts := table, noiseFrom := table, noisePrefix := table
        pkeys := pkeys, pkey := pkey, skey := skey }

/-- The choices a server's behaviour depends on besides those of a `Party`: the order in
which the hash map of secrets is traversed. -/
structure ParallelRand (box : SealedBox) extends PartyRand box where
  order : List (BitVec 64 × PartySecret) → List (BitVec 64 × PartySecret)

/-- A call of a function that `ParallelParty` shares with `Party` (see the header). -/
def ParallelParty.withParty (p : ParallelParty box) (q : Party box) : ParallelParty box := { p with toParty := q }

/-- The arguments of an exchange among the servers of this party. -/
def ParallelParty.exchange (p : ParallelParty box) (sib : Nat → ι) (unit : Nat) (counts : List Nat) : Exchange ι :=
  { me := p.serverId, servers := p.serverCount, sib := sib, unit := unit, counts := fun s => counts.getD s 0 }

/-- `BroadcastReady`, `WaitForReady` of `siblings_`. -/
def ParallelParty.sync (p : ParallelParty box) (sib : Nat → ι) : PProg ι Unit :=
  PProc.ofProc (barrier p.serverId p.serverCount sib)

/-- A count is sent to every sibling and read from every sibling. -/
def exchangeCounts (me servers : Nat) (sib : Nat → ι) (n : Nat → Res Nat) (own : Nat) : Prog ι (List Nat) := do
  sendCounts me servers sib n
  readCounts me servers sib own

/-! ## Handlers -/

/-- `ParallelParty::SampleTag` (parallel_party_handlers.cc:13-25).  `NOISE_OFFSET` is
static and computed at the first call from members that do not change; its value is
never -1 afterwards since it is converted from a `uint32_t`.  Division by zero is
undefined; the last line is computed in `int64_t`. -/
def ParallelParty.sampleTag (p : ParallelParty box) (id : Nat) : Res (BitVec 64) :=
  let range := wrap32 (p.noiseEnd + 2 ^ 32 - p.noiseStart)
  if range = 0 then .error .ub
  else
    let perRow := p.noiseCount / range
    let total := wrap32 (perRow * p.db.size)
    let offset := wrap32 (total + 2 ^ 32 - wrap32 (p.noiseStart * perRow))
    .ok (BitVec.ofInt 64 ((p.totalBatchSize : Int) - offset + id))

/-! ## Initialization -/

/-- `ParallelParty::InitializeCounts` (parallel_party_initialization.cc:105-138). -/
def ParallelParty.initializeCounts (p : ParallelParty box) (back next : ι) (sib : Nat → ι) :
    PProg ι (ParallelParty box) := do
  let input ← PProc.ofProc (readCount back)
  let own := wrap32 (p.noiseCount + input)
  let counts ← PProc.ofProc (exchangeCounts p.serverId p.serverCount sib (fun _ => .ok own) own)
  let total := counts.foldl (fun a c => wrap32 (a + c)) 0
  let each := total / p.serverCount
  let shuffled := if p.serverId = p.serverCount - 1 then wrap32 (total + 2 ^ 32 - wrap32 (each * p.serverId)) else each
  PProc.ofProc (sendCount next shuffled)
  return { p with inputCount := input, atSiblingCounts := counts, totalBatchSize := total, shuffledCount := shuffled }

/-- `sum += counts[id]; prefix[id] = sum` (parallel_party_initialization.cc:166-167). -/
def runningSums : Nat → List Nat → List Nat
  | _, [] => []
  | acc, c :: cs => wrap32 (acc + c) :: runningSums (wrap32 (acc + c)) cs

/-- `ParallelParty::InitializeShufflers` (parallel_party_initialization.cc:141-171). -/
def ParallelParty.initializeShufflers (p : ParallelParty box) (rand : ParallelRand box) (sib : Nat → ι) :
    PProg ι (ParallelParty box) := do
  let ps ← PProc.lift (p.pshuffler.initialize rand.rand p.atSiblingCounts p.noiseCount)
  PProc.lift (assert (p.shuffledCount = ps.getServerSliceSize))
  let own ← PProc.lift (ps.countNoiseTo p.serverId)
  let counts ← PProc.ofProc (exchangeCounts p.serverId p.serverCount sib ps.countNoiseTo own)
  let ls ← PProc.lift (p.shuffler.initialize rand.rand p.shuffledCount)
  return { p with pshuffler := ps, noiseFrom := counts, noisePrefix := runningSums 0 counts, shuffler := ls }

/-- Outer loop body of `InitializeNoiseQueries` (parallel_party_initialization.cc:176-183);
the state carries `idx`. -/
def ParallelParty.noiseKeyStep (key : Nat) (st : Nat × Party box) : Res (Nat × Party box) := do
  let (idx, p) := st
  let sample ← p.noise.get (key - p.noiseStart)
  let stop := wrap32 (idx + sample)
  let p ← forRange idx stop (fun i p => p.makeNoiseQuery key i) p
  .ok (max idx stop, p)

/-- `ParallelParty::InitializeNoiseQueries` (parallel_party_initialization.cc:174-186). -/
def ParallelParty.initializeNoiseQueries (p : ParallelParty box) : Res (ParallelParty box) := do
  let (_, q) ← forRange p.noiseStart p.noiseEnd ParallelParty.noiseKeyStep (0, p.toParty)
  .ok (p.withParty { q with noise := Batch.free, noiseState := q.noiseState.free })

/-! ## Messages from siblings -/

/-- Where the next message from `source` goes (parallel_party_shuffle.cc:10-14 and
20-24). -/
def ParallelParty.place (p : ParallelParty box) (source : Nat) (received : List Nat) : Res (Nat × List Nat) := do
  let start ← p.pshuffler.prefixCountFrom source
  let count ← rd received source
  let received ← wr received source (wrap32 (count + 1))
  let target ← p.shuffler.shuffle (wrap32 (start + count))
  .ok (target, received)

/-- `FromSibling(source, cipher)` (parallel_party_shuffle.cc:8-16). -/
def ParallelParty.cipherFrom (source : Nat) (cipher : List Byte) (st : ParallelParty box × List Nat) :
    Res (ParallelParty box × List Nat) := do
  let (p, received) := st
  let (target, received) ← p.place source received
  let b ← p.outCiphers.setShort target cipher
  .ok ({ p with outCiphers := b }, received)

/-- `FromSibling(source, query)` (parallel_party_shuffle.cc:18-25). -/
def ParallelParty.queryFrom (source : Nat) (q : Query) (st : ParallelParty box × List Nat) :
    Res (ParallelParty box × List Nat) := do
  let (p, received) := st
  let (target, received) ← p.place source received
  let b ← p.outQueries.set target q
  .ok ({ p with outQueries := b }, received)

/-- The `do … while` loop (parallel_party_shuffle.cc:31-34).  The indices it gets are
pairwise different, so it finds one that is not of noise within `noise_count_ + 1`
rounds, or runs out of the map. -/
def skipNoise (noise source : Nat) : Nat → ParallelShuffler → Res (Nat × ParallelShuffler)
  | 0, _ => .error .hang
  | fuel + 1, s => do
    let (idx, s) ← s.deshuffleOne source
    if idx < noise then skipNoise noise source fuel s else .ok (idx, s)

/-- `FromSibling(source, response)` (parallel_party_shuffle.cc:27-38). -/
def ParallelParty.responseFrom (source : Nat) (r : Response) (st : ParallelParty box × List Nat) :
    Res (ParallelParty box × List Nat) := do
  let (p, received) := st
  let count ← rd received source
  let received ← wr received source (wrap32 (count + 1))
  let (idx, s) ← skipNoise p.noiseCount source (p.noiseCount + 1) p.pshuffler
  let idx := idx - p.noiseCount
  let tag ← p.tags.get idx
  let q ← p.handleResponse tag r idx
  .ok ({ p with toParty := q, pshuffler := s }, received)

/-! ## Exchanges -/

/-- The numbers of messages to read from each server, and from all siblings
(parallel_party_shuffle.cc:46-56, 100-110 and 154-165); the entry of this server is not
in the map of the code. -/
def ParallelParty.readPlan (p : ParallelParty box) (count : Nat → Res Nat) (total : Nat) : Res (List Nat × Nat) :=
  forRange 0 p.serverCount (fun id (st : List Nat × Nat) => do
    let c ← count id
    if id ≠ p.serverId then .ok (st.1 ++ [c], st.2)
    else .ok (st.1 ++ [0], wrap32 (st.2 + 2 ^ 32 - c))) ([], total)

/-- The send handler of the two forward shuffles (parallel_party_shuffle.cc:63-70,
117-124): `own` handles a message that stays here, `encode` gives its bytes. -/
def shuffleOut {τ : Type} (X : Exchange ι)
    (own : Nat → τ → ParallelParty box × List Nat → Res (ParallelParty box × List Nat)) (encode : τ → List Byte)
    (item : τ) (x : XState (ParallelParty box)) : Prog ι (XState (ParallelParty box)) := do
  let (target, s) ← lift x.st.pshuffler.shuffleOne
  let x := { x with st := { x.st with pshuffler := s } }
  if target = X.me then do
    let (p, received) ← lift (own target item (x.st, x.received))
    return { x with st := p, received := received }
  else x.sendTo X target (encode item)

/-- The two handlers of `ShuffleCiphers` (parallel_party_shuffle.cc:63-82). -/
def ParallelParty.cipherHandlers (X : Exchange ι) : Handlers ι (ParallelParty box) (List Byte) where
  send := shuffleOut X ParallelParty.cipherFrom id
  recv source m st := ParallelParty.cipherFrom source m st

/-- The two handlers of `ShuffleQueries` (parallel_party_shuffle.cc:117-136). -/
def ParallelParty.queryHandlers (X : Exchange ι) : Handlers ι (ParallelParty box) Query where
  send := shuffleOut X ParallelParty.queryFrom Query.encode
  recv source m st := ParallelParty.queryFrom source (Query.decode m) st

/-- `ParallelParty::ShuffleCiphers` (parallel_party_shuffle.cc:40-92).  Here as in the two
next ones, the code frees memory before the barrier, not after it. -/
def ParallelParty.shuffleCiphers (p : ParallelParty box) (sib : Nat → ι) : PProg ι (ParallelParty box) := do
  let p := { p with outCiphers := p.outCiphers.initialize p.shuffledCount 0 }
  let (counts, total) ← PProc.lift (p.readPlan p.pshuffler.countFrom p.shuffledCount)
  let items ← PProc.lift p.ciphers.elements
  let X := p.exchange sib p.ciphers.shortSize counts
  let p ← sendAndPoll X (ParallelParty.cipherHandlers X) items total p
  p.sync sib
  return { p with ciphers := p.ciphers.free, pshuffler := p.pshuffler.finishForward
                  shuffler := p.shuffler.finishForward }

/-- `ParallelParty::ShuffleQueries` (parallel_party_shuffle.cc:94-146). -/
def ParallelParty.shuffleQueries (p : ParallelParty box) (sib : Nat → ι) : PProg ι (ParallelParty box) := do
  let p := { p with outQueries := Batch.initialize p.shuffledCount ⟨0, 0⟩ }
  let (counts, total) ← PProc.lift (p.readPlan p.pshuffler.countFrom p.shuffledCount)
  let items ← PProc.lift p.queries.elements
  let X := p.exchange sib querySize counts
  let p ← sendAndPoll X (ParallelParty.queryHandlers X) items total p
  p.sync sib
  return { p with queries := Batch.free, pshuffler := p.pshuffler.finishForward, shuffler := p.shuffler.finishForward }

/-- State of `DeshuffleResponses`: the party and the captured locals `index`, `target`
and `target_end`. -/
structure DeshuffleState (box : SealedBox) where
  p : ParallelParty box
  index : Nat := 0
  target : Nat := 0
  stop : Nat

/-- `target_end` (parallel_party_shuffle.cc:172-173 and 182-183). -/
def ParallelParty.targetEnd (p : ParallelParty box) (target : Nat) : Res Nat := do
  let stop ← p.pshuffler.prefixCountFrom (target + 1)
  let noise ← rd p.noisePrefix target
  .ok (wrap32 (stop + 2 ^ 32 - noise))

/-- The `while` loop of the send handler (parallel_party_shuffle.cc:179-185); every
round advances `target`, below `server_count_`. -/
def ParallelParty.advance (p : ParallelParty box) (index : Nat) : Nat → Nat × Nat → Res (Nat × Nat)
  | 0, _ => .error .hang
  | fuel + 1, (target, stop) =>
    if index ≥ stop ∧ target < p.serverCount - 1 then do
      let target := target + 1
      let stop ← if target < p.serverCount - 1 then p.targetEnd target else .ok stop
      p.advance index fuel (target, stop)
    else .ok (target, stop)

/-- The send handler of `DeshuffleResponses` (parallel_party_shuffle.cc:178-192). -/
def ParallelParty.respond (X : Exchange ι) (r : Response) (x : XState (DeshuffleState box)) :
    Prog ι (XState (DeshuffleState box)) := do
  let (target, stop) ← lift (x.st.p.advance x.st.index x.st.p.serverCount (x.st.target, x.st.stop))
  let x := { x with st := { x.st with target := target, stop := stop, index := wrap32 (x.st.index + 1) } }
  if target = X.me then do
    let (p, received) ← lift (ParallelParty.responseFrom target r (x.st.p, x.received))
    return { x with st := { x.st with p := p }, received := received }
  else x.sendTo X target r.encode

/-- The two handlers of `DeshuffleResponses` (parallel_party_shuffle.cc:178-203). -/
def ParallelParty.responseHandlers (X : Exchange ι) : Handlers ι (DeshuffleState box) Response where
  send := ParallelParty.respond X
  recv source m st := do
    let (p, received) ← ParallelParty.responseFrom source (Response.decode m) (st.1.p, st.2)
    .ok ({ st.1 with p := p }, received)

/-- `ParallelParty::DeshuffleResponses` (parallel_party_shuffle.cc:148-213). -/
def ParallelParty.deshuffleResponses (p : ParallelParty box) (sib : Nat → ι) : PProg ι (ParallelParty box) := do
  let p := { p with responses := Batch.initialize p.inputCount ⟨0, fun _ => 0⟩ }
  let (counts, total) ← PProc.lift (p.readPlan (fun id => do
    let a ← p.pshuffler.countTo id
    let b ← p.pshuffler.countNoiseTo id
    .ok (wrap32 (a + 2 ^ 32 - b))) p.inputCount)
  let stop ← PProc.lift (p.targetEnd 0)
  let items ← PProc.lift p.inResponses.elements
  let X := p.exchange sib responseSize counts
  let st ← sendAndPoll X (ParallelParty.responseHandlers X) items total { p := p, stop := stop }
  st.p.sync sib
  return { st.p with inResponses := Batch.free, pshuffler := st.p.pshuffler.finishBackward }

/-- `BroadcastSecret` (parallel_socket.cc:208-218). -/
def broadcastSecret {σ : Type} (X : Exchange ι) (s : OfflineSecret) (x : XState σ) : Prog ι (XState σ) :=
  loop X.servers 0 (fun id x => if id ≠ X.me then x.sendTo X id s.encode else .done x) x

/-- `BroadcastSecrets` of `ParallelParty` (parallel_party_offline.cc:98-137) and of
`BackendParty` (backend_offline.cc:23-60): `items` are the secrets in the order of the
traversal of the map, `store` stores one.  The code adds the number of messages of one
read to `received_from_sibling_counts_[source]` at the end of the handler, here each
message adds one. -/
def broadcastSecrets {σ : Type} (me servers : Nat) (sib : Nat → ι) (items : List OfflineSecret)
    (store : OfflineSecret → σ → Res σ) (s : σ) : PProg ι σ := do
  let counts ← PProc.ofProc (exchangeCounts me servers sib (fun _ => .ok (wrap32 items.length)) 0)
  let total := counts.foldl (fun a c => wrap32 (a + c)) 0
  let X : Exchange ι := { me := me, servers := servers, sib := sib, unit := secretSize, counts := fun s => counts.getD s 0 }
  sendAndPoll X { send := broadcastSecret X
                  recv := fun source m st => do
                    let s ← store (OfflineSecret.decode m) st.1
                    let count ← rd st.2 source
                    let received ← wr st.2 source (wrap32 (count + 1))
                    .ok (s, received) } items total s

/-! ## Offline stage -/

/-- `ParallelParty::SendCiphers` (parallel_party_offline.cc:84-96). -/
def ParallelParty.sendCiphers (p : ParallelParty box) (next : ι) : Prog ι (ParallelParty box) := do
  let cs ← lift p.outCiphers.elements
  let w ← each (sendCipher next p.outCiphers.shortSize) cs {}
  flush next w
  return { p with outCiphers := p.outCiphers.free }

/-- `ParallelParty::BroadcastSecrets` (parallel_party_offline.cc:98-137). -/
def ParallelParty.broadcast (p : ParallelParty box) (rand : ParallelRand box) (sib : Nat → ι) :
    PProg ι (ParallelParty box) := do
  let items := (rand.order p.queriesState.secrets).map (fun s =>
    (⟨s.1, s.2.nextTag, s.2.incremental, s.2.preshare⟩ : OfflineSecret))
  let st ← broadcastSecrets p.serverId p.serverCount sib items (fun s st => st.store s) p.queriesState
  return { p with queriesState := st }

/-- The initialisation of the online stage (parallel_party_offline.cc:189-198, 238-247):
batches and noise queries. -/
def ParallelParty.prepareOnline (p : ParallelParty box) : Res (ParallelParty box) :=
  ParallelParty.initializeNoiseQueries
    { p with tags := Batch.initialize p.inputCount 0
             queries := Batch.initialize (wrap32 (p.inputCount + p.noiseCount)) ⟨0, 0⟩
             outQueries := Batch.initialize p.shuffledCount ⟨0, 0⟩ }

/-- `next_.WaitForReady(); siblings_.BroadcastReady(); siblings_.WaitForReady();
back_.SendReady();` (parallel_party_offline.cc:160-163, 201-206, 250-253). -/
def ParallelParty.relayReady (p : ParallelParty box) (back next : ι) (sib : Nat → ι) : PProg ι Unit := do
  PProc.ofProc (waitForReady next)
  p.sync sib
  PProc.ofProc (sendReady back)

/-- `ParallelParty::StartOffline` (parallel_party_offline.cc:139-212). -/
def ParallelParty.startOffline (p : ParallelParty box) (rand : ParallelRand box) (back next : ι) (sib : Nat → ι) :
    PProg ι (ParallelParty box) := do
  let q ← PProc.lift (p.toParty.initializeNoiseSamples rand.toPartyRand)
  let p ← (p.withParty q).initializeCounts back next sib
  let p := { p with queriesState := p.queriesState.initialize false
                    noiseState := p.noiseState.initialize (p.partyCount - p.partyId - 1) p.noiseCount true false }
  let q ← PProc.lift (p.toParty.createNoiseCiphersTagged p.sampleTag rand.toPartyRand)
  let p := p.withParty q
  p.relayReady back next sib
  let q ← PProc.ofProc (p.toParty.collectCiphers back)
  let p := p.withParty q
  p.sync sib
  let p ← p.initializeShufflers rand sib
  let q ← PProc.ofProc p.toParty.installSecrets
  let p ← (p.withParty q).shuffleCiphers sib
  let p ← PProc.ofProc (p.sendCiphers next)
  let p ← p.broadcast rand sib
  let p ← p.initializeShufflers rand sib
  let p ← PProc.lift p.prepareOnline
  p.relayReady back next sib
  return p

/-- `ParallelParty::SimulateOffline` (parallel_party_offline.cc:215-258). -/
def ParallelParty.simulateOffline (p : ParallelParty box) (rand : ParallelRand box) (back next : ι) (sib : Nat → ι) :
    PProg ι (ParallelParty box) := do
  let q ← PProc.lift (p.toParty.initializeNoiseSamples rand.toPartyRand)
  let p ← (p.withParty q).initializeCounts back next sib
  let p ← p.initializeShufflers rand sib
  let p := { p with queriesState := p.queriesState.initialize true
                    noiseState := p.noiseState.initialize (p.partyCount - p.partyId - 1) p.noiseCount true true }
  let p ← PProc.lift p.prepareOnline
  p.relayReady back next sib
  return p

/-! ## Online stage -/

/-- Loop body of `CollectQueries` (parallel_party_online.cc:22-28); `read` counts from
`noise_count_`. -/
def ParallelParty.collectQuery (back : ι) (read : Nat) (p : Party box) : Prog ι (Party box) := do
  let q ← recvQuery back
  let tags ← lift (p.tags.pushBack q.tag)
  lift (Party.handleQuery { p with tags := tags } q read)

/-- `ParallelParty::CollectQueries` (parallel_party_online.cc:16-31). -/
def ParallelParty.collectQueries (p : ParallelParty box) (back : ι) : Prog ι (ParallelParty box) := do
  let q ← loop (p.queries.capacity - p.noiseCount) p.noiseCount (ParallelParty.collectQuery back) p.toParty
  return p.withParty q

/-- `ParallelParty::SendQueries` (parallel_party_online.cc:33-40). -/
def ParallelParty.sendQueries (p : ParallelParty box) (next : ι) : Prog ι (ParallelParty box) := do
  let qs ← lift p.outQueries.elements
  let w ← each (sendQuery next) qs {}
  flush next w
  return { p with outQueries := Batch.free }

/-- Loop body of `CollectResponses` (parallel_party_online.cc:52-61). -/
def ParallelParty.collectResponse (next : ι) (read : Nat) (p : ParallelParty box) : Prog ι (ParallelParty box) := do
  let r ← recvResponse next
  let target ← lift (p.shuffler.deshuffle read)
  let source ← lift (p.pshuffler.findSourceOf target)
  let start ← lift (p.pshuffler.prefixCountFrom source)
  let noise ← lift (rd p.noiseFrom source)
  if target ≥ wrap32 (start + noise) then do
    let before ← lift (rd p.noisePrefix source)
    let b ← lift (p.inResponses.set (wrap32 (target + 2 ^ 32 - before)) r)
    return { p with inResponses := b }
  else return p

/-- `ParallelParty::CollectResponses` (parallel_party_online.cc:42-67). -/
def ParallelParty.collectResponses (p : ParallelParty box) (next : ι) : Prog ι (ParallelParty box) := do
  let noise ← lift (rd p.noisePrefix (p.serverCount - 1))
  let p ← loop p.shuffledCount 0 (ParallelParty.collectResponse next)
    { p with inResponses := Batch.initialize (wrap32 (p.shuffledCount + 2 ^ 32 - noise)) ⟨0, fun _ => 0⟩ }
  return { p with shuffler := p.shuffler.finishBackward }

/-- `ParallelParty::StartOnline` (parallel_party_online.cc:79-106); `SendResponses`
(parallel_party_online.cc:69-76) is the same as that of `Party`. -/
def ParallelParty.startOnline (p : ParallelParty box) (back next : ι) (sib : Nat → ι) : PProg ι (ParallelParty box) := do
  let p ← PProc.ofProc (p.collectQueries back)
  p.sync sib
  let p ← p.shuffleQueries sib
  let p ← PProc.ofProc (p.sendQueries next)
  let p ← PProc.ofProc (p.collectResponses next)
  let p ← p.deshuffleResponses sib
  p.sync sib
  let q ← PProc.ofProc (p.toParty.sendResponses back)
  return p.withParty q

/-- `ParallelParty::Start` (parallel_party/parallel_party.h:33-42). -/
def ParallelParty.start (p : ParallelParty box) (rand : ParallelRand box) (back next : ι) (sib : Nat → ι)
    (offline online : Bool) : PProg ι Unit := do
  let p ← if offline then p.startOffline rand back next sib else p.simulateOffline rand back next sib
  if online then
    let _ ← p.startOnline back next sib
    return ()
  else return ()

/-! ## The backend with several servers -/

/-- `BackendParty::BroadcastSecrets` (backend_offline.cc:23-60); `order` is the order of
the traversal of the map. -/
def Backend.broadcast (b : Backend box) (order : List (BitVec 64 × BackendSecret) → List (BitVec 64 × BackendSecret))
    (me servers : Nat) (sib : Nat → ι) : PProg ι (Backend box) := do
  let items := (order b.state.secrets).map (fun s => (⟨s.1, 0, s.2.incremental, s.2.preshare⟩ : OfflineSecret))
  let st ← broadcastSecrets me servers sib items (fun s st => st.store s) b.state
  return { b with state := st }

/-- `BackendParty::StartOffline` (backend_offline.cc:62-78) with more than one server. -/
def Backend.startOfflineParallel (b : Backend box)
    (order : List (BitVec 64 × BackendSecret) → List (BitVec 64 × BackendSecret)) (me servers : Nat) (back : ι)
    (sib : Nat → ι) : PProg ι (Backend box) := do
  let b ← PProc.ofProc (b.initializeBatch back)
  let b := { b with state := b.state.initialize false }
  PProc.ofProc (sendReady back)
  let b ← PProc.ofProc (b.collectAndInstallSecrets back)
  let b ← b.broadcast order me servers sib
  PProc.ofProc (barrier me servers sib)
  PProc.ofProc (sendReady back)
  return b

/-- `BackendParty::Start` (backend/backend.h:25-34) with more than one server. -/
def Backend.startParallel (b : Backend box)
    (order : List (BitVec 64 × BackendSecret) → List (BitVec 64 × BackendSecret)) (me servers : Nat) (back : ι)
    (sib : Nat → ι) (junk : Response) (offline online : Bool) : PProg ι Unit := do
  let b ← if offline then b.startOfflineParallel order me servers back sib else PProc.ofProc (b.simulateOffline back)
  if online then
    let _ ← PProc.ofProc (b.startOnline back junk)
    return ()
  else return ()

end DPPIR.Protocol
