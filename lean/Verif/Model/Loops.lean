import Verif.Model.Chain
import Verif.Model.Grid

/-!
# The receive loops (`DPPIR/protocol/*/*_offline.cc`, `*_online.cc`)

`Client`, `Party`, `Backend` and `ParallelParty` read messages byte by byte.  Here are
the same programs with the receive loops as they are in the code: one `read` takes what
is there, up to the room in the read buffer and the bytes still expected, and the
complete messages in the buffer are handled before the next `read`.  Only the functions
with such a loop, and those that call them, are repeated.  Every process uses every read
buffer in one loop only, so the buffers are local to the loops.
-/

namespace DPPIR.Protocol
open DPPIR Proc Onion Incremental Additive

variable {box : SealedBox} {ι σ : Type}

/-- The loop over the complete messages in the read buffer; `i` is the loop counter
(`read++`) where there is one. -/
def handleAll (f : Nat → List Byte → σ → Prog ι σ) : Nat → List (List Byte) → σ → Prog ι σ
  | _, [], s => .done s
  | i, m :: ms, s => (f i m s).bind (handleAll f (i + 1) ms)

/-- `while (remaining > 0) { buffer = ReadX(remaining); for (message : buffer) f(message);
remaining -= buffer.Size(); buffer.Clear(); }` (party_offline.cc:16-26,
party_online.cc:17-30 and 55-71, backend_offline.cc:12-20, backend_online.cc:12-20,
client_online.cc:33-49, parallel_party_offline.cc:16-26, parallel_party_online.cc:19-31
and 49-63).  `left` are the bytes of an incomplete message at the start of the buffer.
The limit of the `read` is computed by `Read` (sockets/common.h:31-37) from the capacity
of the buffer (types/containers.h:103-105) and the messages expected; `remaining` fits 32
bits, so the product does not overflow.  A round reads at least one byte; more than
`fuel` rounds mean that the loop does not end. -/
def receive (src : ι) (unit : Nat) (f : Nat → List Byte → σ → Prog ι σ) : Nat → Nat → Nat → List Byte → σ → PProg ι σ
  | 0, remaining, _, _, s => if remaining > 0 then .fault .hang else .done s
  | fuel + 1, remaining, i, left, s =>
    if remaining > 0 then do
      let cap := Sockets.bufferSize / unit * unit - left.length
      let count := remaining * unit - left.length
      let c ← PProc.readCall src (if cap < count then cap else count)
      let bytes := left ++ c
      let n := bytes.length / unit
      let s ← PProc.ofProc (handleAll f i (chunks unit n bytes) s)
      receive src unit f fuel (remaining - n) (i + n) (bytes.drop (n * unit)) s
    else .done s

/-- A receive loop for `n` messages, with loop counter from `i` on. -/
def receiveAll (src : ι) (unit n i : Nat) (f : Nat → List Byte → σ → Prog ι σ) (s : σ) : PProg ι σ :=
  receive src unit f (n * unit) n i [] s

/-! ## Client -/

/-- Body of the loop over the buffer in `StartOnline` (client_online.cc:35-47). -/
def Client.onResponse (queries : List Nat) (read : Nat) (m : List Byte) (c : Client box) : Prog ι (Client box) := do
  observe (.recvResponse (Response.decode m))
  let (c, r) ← lift (c.reconstructResponse (Response.decode m))
  observe (.result r)
  let key ← lift (rd queries read)
  let expected ← lift (c.db.lookup key)
  lift (assert (r.eq expected))
  return c

/-- `Client::StartOnline` (client_online.cc:11-50). -/
def Client.startOnlineLoops (c : Client box) (rand : ClientRand box) (next : ι) (count : Nat) : PProg ι (Client box) := do
  let c := { c with queriesCount := count }
  let (c, queries, w) ← PProc.ofProc (loop count 0 (Client.queryStep rand next) (c, [], {}))
  PProc.ofProc (flush next w)
  let c := { c with state := c.state.finishSharing }
  receiveAll next responseSize count 0 (Client.onResponse queries) c

/-- `Client::Start` (client/client.h:22-31). -/
def Client.startLoops (c : Client box) (rand : ClientRand box) (next : ι) (count : Nat) (offline online : Bool) :
    PProg ι Unit := do
  let c ← PProc.ofProc (if offline then c.startOffline rand next count else c.simulateOffline next count)
  if online then
    let _ ← c.startOnlineLoops rand next count
    return ()
  else return ()

/-! ## Party -/

/-- Body of the loop over the buffer in `CollectCiphers` (party_offline.cc:19-24). -/
def Party.onCipher (_ : Nat) (m : List Byte) (p : Party box) : Prog ι (Party box) := do
  observe (.recvCipher m)
  let b ← lift (p.ciphers.pushLong m)
  return { p with ciphers := b }

/-- `Party::CollectCiphers` (party_offline.cc:13-27).  The unit of the buffer is an
argument of the socket's constructor (party_initialization.cc:19). -/
def Party.collectCiphersLoops (p : Party box) (back : ι) : PProg ι (Party box) :=
  receiveAll back (cipherSize (p.partyCount - p.partyId)) p.inputCount 0 Party.onCipher p

/-- `Party::StartOffline` (party_offline.cc:112-177). -/
def Party.startOfflineLoops (p : Party box) (rand : PartyRand box) (back next : ι) : PProg ι (Party box) := do
  let p ← PProc.lift (p.initializeNoiseSamples rand)
  let p ← PProc.ofProc (p.initializeCounts back next)
  let p := { p with queriesState := p.queriesState.initialize false
                    noiseState := p.noiseState.initialize (p.partyCount - p.partyId - 1) p.noiseCount true false }
  let p ← PProc.lift (p.createNoiseCiphers rand)
  PProc.ofProc (waitForReady next)
  PProc.ofProc (sendReady back)
  let p ← p.collectCiphersLoops back
  let p ← PProc.lift (p.initializeShuffler rand)
  let p ← PProc.ofProc p.installSecrets
  let p ← PProc.ofProc (p.sendCiphers next)
  let p ← PProc.lift (p.initializeShuffler rand)
  let p ← PProc.lift p.prepareOnline
  PProc.ofProc (waitForReady next)
  PProc.ofProc (sendReady back)
  return p

/-- Body of the loop over the buffer in `CollectQueries` (party_online.cc:20-28). -/
def Party.onQuery (read : Nat) (m : List Byte) (p : Party box) : Prog ι (Party box) := do
  observe (.recvQuery (Query.decode m))
  let tags ← lift (p.tags.pushBack (Query.decode m).tag)
  let target ← lift (p.shuffler.shuffle read)
  lift (Party.handleQuery { p with tags := tags } (Query.decode m) target)

/-- `Party::CollectQueries` (party_online.cc:14-31). -/
def Party.collectQueriesLoops (p : Party box) (back : ι) : PProg ι (Party box) :=
  receiveAll back querySize (p.shuffledCount - p.noiseCount) p.noiseCount Party.onQuery p

/-- Body of the loop over the buffer in `CollectResponses` (party_online.cc:58-69). -/
def Party.onResponse (read : Nat) (m : List Byte) (p : Party box) : Prog ι (Party box) := do
  observe (.recvResponse (Response.decode m))
  let target ← lift (p.shuffler.deshuffle read)
  if target ≥ p.noiseCount then do
    let tag ← lift (p.tags.get (target - p.noiseCount))
    lift (p.handleResponse tag (Response.decode m) (target - p.noiseCount))
  else return p

/-- `Party::CollectResponses` (party_online.cc:49-76). -/
def Party.collectResponsesLoops (p : Party box) (next : ι) : PProg ι (Party box) := do
  let p ← receiveAll next responseSize p.shuffledCount 0 Party.onResponse
    { p with responses := Batch.initialize p.inputCount ⟨0, fun _ => 0⟩ }
  return { p with shuffler := p.shuffler.finishBackward, tags := Batch.free }

/-- `Party::StartOnline` (party_online.cc:90-109). -/
def Party.startOnlineLoops (p : Party box) (back next : ι) : PProg ι (Party box) := do
  let p ← p.collectQueriesLoops back
  let p ← PProc.ofProc (p.sendQueries next)
  let p ← p.collectResponsesLoops next
  PProc.ofProc (p.sendResponses back)

/-- `Party::Start` (party/party.h:31-40). -/
def Party.startLoops (p : Party box) (rand : PartyRand box) (back next : ι) (offline online : Bool) : PProg ι Unit := do
  let p ← if offline then p.startOfflineLoops rand back next else PProc.ofProc (p.simulateOffline rand back next)
  if online then
    let _ ← p.startOnlineLoops back next
    return ()
  else return ()

/-! ## Backend -/

/-- Body of the loop over the buffer in `CollectAndInstallSecrets`
(backend_offline.cc:15-17). -/
def Backend.onCipher (_ : Nat) (m : List Byte) (b : Backend box) : Prog ι (Backend box) := do
  observe (.recvCipher m)
  b.handleOnionCipher m

/-- `BackendParty::CollectAndInstallSecrets` (backend_offline.cc:8-21). -/
def Backend.collectAndInstallSecretsLoops (b : Backend box) (back : ι) : PProg ι (Backend box) :=
  receiveAll back (cipherSize 1) b.queries.capacity 0 Backend.onCipher b

/-- `BackendParty::StartOffline` (backend_offline.cc:62-78), one server. -/
def Backend.startOfflineLoops (b : Backend box) (back : ι) : PProg ι (Backend box) := do
  let b ← PProc.ofProc (b.initializeBatch back)
  let b := { b with state := b.state.initialize false }
  PProc.ofProc (sendReady back)
  let b ← b.collectAndInstallSecretsLoops back
  PProc.ofProc (sendReady back)
  return b

/-- Body of the loop over the buffer in `CollectQueries` (backend_online.cc:15-17). -/
def Backend.onQuery (_ : Nat) (m : List Byte) (b : Backend box) : Prog ι (Backend box) := do
  observe (.recvQuery (Query.decode m))
  let qs ← lift (b.queries.pushBack (Query.decode m))
  return { b with queries := qs }

/-- `BackendParty::CollectQueries` (backend_online.cc:8-21). -/
def Backend.collectQueriesLoops (b : Backend box) (back : ι) : PProg ι (Backend box) :=
  receiveAll back querySize b.queries.capacity 0 Backend.onQuery b

/-- `BackendParty::StartOnline` (backend_online.cc:33-36). -/
def Backend.startOnlineLoops (b : Backend box) (back : ι) (junk : Response) : PProg ι (Backend box) := do
  let b ← b.collectQueriesLoops back
  PProc.ofProc (b.sendResponses back junk)

/-- `BackendParty::Start` (backend/backend.h:25-34). -/
def Backend.startLoops (b : Backend box) (back : ι) (junk : Response) (offline online : Bool) : PProg ι Unit := do
  let b ← if offline then b.startOfflineLoops back else PProc.ofProc (b.simulateOffline back)
  if online then
    let _ ← b.startOnlineLoops back junk
    return ()
  else return ()

/-! ## Parties with several servers -/

/-- `ParallelParty::StartOffline` (parallel_party_offline.cc:139-212); `CollectCiphers`
(parallel_party_offline.cc:13-27) is the same as that of `Party`. -/
def ParallelParty.startOfflineLoops (p : ParallelParty box) (rand : ParallelRand box) (back next : ι) (sib : Nat → ι) :
    PProg ι (ParallelParty box) := do
  let q ← PProc.lift (p.toParty.initializeNoiseSamples rand.toPartyRand)
  let p ← (p.withParty q).initializeCounts back next sib
  let p := { p with queriesState := p.queriesState.initialize false
                    noiseState := p.noiseState.initialize (p.partyCount - p.partyId - 1) p.noiseCount true false }
  let q ← PProc.lift (p.toParty.createNoiseCiphersTagged p.sampleTag rand.toPartyRand)
  let p := p.withParty q
  p.relayReady back next sib
  let q ← p.toParty.collectCiphersLoops back
  let p := p.withParty q
  p.sync sib
  let p ← p.initializeShufflers rand sib
  let q ← PProc.ofProc p.toParty.installSecrets
  let p ← (p.withParty q).shuffleCiphers sib
  let p ← PProc.ofProc (p.sendCiphers next)
  let p ← p.broadcast rand sib
  let p ← p.initializeShufflers rand sib
  let p ← PProc.lift p.prepareOnline
  p.relayReady back next sib
  return p

/-- Body of the loop over the buffer in `CollectQueries` (parallel_party_online.cc:22-28). -/
def ParallelParty.onQuery (read : Nat) (m : List Byte) (p : Party box) : Prog ι (Party box) := do
  observe (.recvQuery (Query.decode m))
  let tags ← lift (p.tags.pushBack (Query.decode m).tag)
  lift (Party.handleQuery { p with tags := tags } (Query.decode m) read)

/-- `ParallelParty::CollectQueries` (parallel_party_online.cc:16-31). -/
def ParallelParty.collectQueriesLoops (p : ParallelParty box) (back : ι) : PProg ι (ParallelParty box) := do
  let q ← receiveAll back querySize (p.queries.capacity - p.noiseCount) p.noiseCount ParallelParty.onQuery p.toParty
  return p.withParty q

/-- Body of the loop over the buffer in `CollectResponses` (parallel_party_online.cc:52-61). -/
def ParallelParty.onResponse (read : Nat) (m : List Byte) (p : ParallelParty box) : Prog ι (ParallelParty box) := do
  observe (.recvResponse (Response.decode m))
  let target ← lift (p.shuffler.deshuffle read)
  let source ← lift (p.pshuffler.findSourceOf target)
  let start ← lift (p.pshuffler.prefixCountFrom source)
  let noise ← lift (rd p.noiseFrom source)
  if target ≥ wrap32 (start + noise) then do
    let before ← lift (rd p.noisePrefix source)
    let b ← lift (p.inResponses.set (wrap32 (target + 2 ^ 32 - before)) (Response.decode m))
    return { p with inResponses := b }
  else return p

/-- `ParallelParty::CollectResponses` (parallel_party_online.cc:42-67). -/
def ParallelParty.collectResponsesLoops (p : ParallelParty box) (next : ι) : PProg ι (ParallelParty box) := do
  let noise ← PProc.lift (rd p.noisePrefix (p.serverCount - 1))
  let p ← receiveAll next responseSize p.shuffledCount 0 ParallelParty.onResponse
    { p with inResponses := Batch.initialize (wrap32 (p.shuffledCount + 2 ^ 32 - noise)) ⟨0, fun _ => 0⟩ }
  return { p with shuffler := p.shuffler.finishBackward }

/-- `ParallelParty::StartOnline` (parallel_party_online.cc:79-106). -/
def ParallelParty.startOnlineLoops (p : ParallelParty box) (back next : ι) (sib : Nat → ι) : PProg ι (ParallelParty box) := do
  let p ← p.collectQueriesLoops back
  p.sync sib
  let p ← p.shuffleQueries sib
  let p ← PProc.ofProc (p.sendQueries next)
  let p ← p.collectResponsesLoops next
  let p ← p.deshuffleResponses sib
  p.sync sib
  let q ← PProc.ofProc (p.toParty.sendResponses back)
  return p.withParty q

/-- `ParallelParty::Start` (parallel_party/parallel_party.h:33-42). -/
def ParallelParty.startLoops (p : ParallelParty box) (rand : ParallelRand box) (back next : ι) (sib : Nat → ι)
    (offline online : Bool) : PProg ι Unit := do
  let p ← if offline then p.startOfflineLoops rand back next sib else p.simulateOffline rand back next sib
  if online then
    let _ ← p.startOnlineLoops back next sib
    return ()
  else return ()

/-- `BackendParty::StartOffline` (backend_offline.cc:62-78) with more than one server. -/
def Backend.startOfflineParallelLoops (b : Backend box)
    (order : List (BitVec 64 × BackendSecret) → List (BitVec 64 × BackendSecret)) (me servers : Nat) (back : ι)
    (sib : Nat → ι) : PProg ι (Backend box) := do
  let b ← PProc.ofProc (b.initializeBatch back)
  let b := { b with state := b.state.initialize false }
  PProc.ofProc (sendReady back)
  let b ← b.collectAndInstallSecretsLoops back
  let b ← b.broadcast order me servers sib
  PProc.ofProc (barrier me servers sib)
  PProc.ofProc (sendReady back)
  return b

/-- `BackendParty::Start` (backend/backend.h:25-34) with more than one server. -/
def Backend.startParallelLoops (b : Backend box)
    (order : List (BitVec 64 × BackendSecret) → List (BitVec 64 × BackendSecret)) (me servers : Nat) (back : ι)
    (sib : Nat → ι) (junk : Response) (offline online : Bool) : PProg ι Unit := do
  let b ← if offline then b.startOfflineParallelLoops order me servers back sib else PProc.ofProc (b.simulateOffline back)
  if online then
    let _ ← b.startOnlineLoops back junk
    return ()
  else return ()

/-! ## Deployments -/

/-- The client's main program (main.cc:78,95-97). -/
def Chain.clientLoops (c : Chain box) (offline online : Bool) : PProg Nat Unit := do
  let db ← PProc.lift (Database.new c.rows)
  let cl ← PProc.lift (Client.new 0 c.parties c.pkeys db)
  cl.startLoops c.clientRand 1 c.count offline online

/-- The main program of party `k` (main.cc:78,99-103), process `k + 1`. -/
def Chain.partyLoops (c : Chain box) (k : Nat) (offline online : Bool) : PProg Nat Unit := do
  let db ← PProc.lift (Database.new c.rows)
  let p ← PProc.lift (Party.new k 0 c.parties 1 (c.seed k) c.pkeys (c.pkey k) (c.skey k) db)
  p.startLoops (c.partyRand k) k (k + 2) offline online

/-- The backend's main program (main.cc:78,109-113), process `parties`. -/
def Chain.backendLoops (c : Chain box) (offline online : Bool) : PProg Nat Unit := do
  let db ← PProc.lift (Database.new c.rows)
  let b ← PProc.lift (Backend.new c.parties (c.pkey (c.parties - 1)) (c.skey (c.parties - 1)) db)
  b.startLoops (c.parties - 1) c.junk offline online

/-- The whole deployment, one server per party. -/
def Chain.progLoops (c : Chain box) (offline online : Bool) (i : Nat) : PProg Nat Unit :=
  if i = 0 then c.clientLoops offline online
  else if i < c.parties then c.partyLoops (i - 1) offline online
  else if i = c.parties then c.backendLoops offline online
  else .done ()

/-- The deployment before anything happened. -/
def Chain.netLoops (c : Chain box) (offline online : Bool) : PNet Nat Obs Unit := PNet.start (c.progLoops offline online)

/-- The main program of client `s` (main.cc:78,95-97). -/
def Grid.clientLoops (g : Grid box) (s : Nat) (offline online : Bool) : PProg Node Unit := do
  let db ← PProc.lift (Database.new g.rows)
  let cl ← PProc.lift (Client.new s g.parties g.pkeys db)
  cl.startLoops (g.clientRand s) (1, s) (g.count s) offline online

/-- The main program of server `s` of party `k` (main.cc:78,104-108). -/
def Grid.partyLoops (g : Grid box) (k s : Nat) (offline online : Bool) : PProg Node Unit := do
  let db ← PProc.lift (Database.new g.rows)
  let p ← PProc.lift (ParallelParty.new k s g.parties g.servers (g.sharedSeed k) (g.localSeed k s) g.pkeys (g.pkey k)
    (g.skey k) db)
  p.startLoops (g.choices k s) (k, s) (k + 2, s) (fun t => (k + 1, t)) offline online

/-- The main program of server `s` of the backend (main.cc:78,109-113). -/
def Grid.backendLoops (g : Grid box) (s : Nat) (offline online : Bool) : PProg Node Unit := do
  let db ← PProc.lift (Database.new g.rows)
  let _ ← PProc.lift (serverTable g.servers)
  let b ← PProc.lift (Backend.new g.parties (g.pkey (g.parties - 1)) (g.skey (g.parties - 1)) db)
  b.startParallelLoops (g.backendOrder s) s g.servers (g.parties - 1, s) (fun t => (g.parties, t)) g.junk offline online

/-- The whole deployment, several servers per party. -/
def Grid.progLoops (g : Grid box) (offline online : Bool) (i : Node) : PProg Node Unit :=
  if i.2 < g.servers then
    if i.1 = 0 then g.clientLoops i.2 offline online
    else if i.1 < g.parties then g.partyLoops (i.1 - 1) i.2 offline online
    else if i.1 = g.parties then g.backendLoops i.2 offline online
    else .done ()
  else .done ()

/-- The deployment before anything happened. -/
def Grid.netLoops (g : Grid box) (offline online : Bool) : PNet Node Obs Unit := PNet.start (g.progLoops offline online)

end DPPIR.Protocol
