import Verif.Model.Protocol

/-!
# The client (`DPPIR/protocol/client`)
-/

namespace DPPIR.Protocol
open DPPIR Proc Onion Incremental Additive

/-- `Client` (client/client.h:33-49); the socket is the name of the process it is
connected to. -/
structure Client (box : SealedBox) where
  serverId : Nat
  partyCount : Nat
  db : Database
  state : ClientState := {}
  pkeys : List box.PKey
  queriesCount : Nat := 0

/-- Random choices of a client: of the secret with each id, and the raw draws of
`RandomRow`. -/
structure ClientRand (box : SealedBox) where
  secret : Nat → SecretRand box
  row : Nat → Nat

variable {box : SealedBox} {ι : Type}

/-- Constructor (client_initialization.cc:11-34): `pkeys` are the configured public
keys.  Connecting is not modelled. -/
def Client.new (serverId partyCount : Nat) (pkeys : List box.PKey) (db : Database) : Res (Client box) := do
  assert (2 ≤ partyCount)
  .ok { serverId := serverId, partyCount := partyCount, db := db, pkeys := pkeys }

/-- `Client::SampleTag` (client_handlers.cc:13-18): `uint32_t` arithmetic. -/
def Client.sampleTag (c : Client box) (id : Nat) : BitVec 64 :=
  BitVec.ofNat 64 (wrap32 (c.serverId * c.queriesCount + id))

/-- `Client::MakeSecret` (client_handlers.cc:22-48). -/
def Client.makeSecret (c : Client box) (rand : SecretRand box) (id : Nat) :
    Res (Client box × List OfflineSecret) := do
  let incrementals := preIncrementalSecretShares rand.shares c.partyCount
  let preshares ← generateAdditiveSecretShares rand.preshares (c.partyCount + 1)
  let (secrets, tag) ← buildSecrets (c.sampleTag id) incrementals preshares c.partyCount 0 (c.sampleTag id)
  let own ← vecAt preshares c.partyCount
  let state ← c.state.addSecret tag incrementals own
  .ok ({ c with state := state }, secrets)

/-- `Client::MakeQuery` (client_handlers.cc:51-59). -/
def Client.makeQuery (c : Client box) (key : Nat) : Res (Client box × Query) := do
  let state := c.state.loadNext
  let tag ← state.getTag
  let shares ← state.getIncrementalShares
  let tally ← generateIncrementalTally (BitVec.ofNat 32 key) shares
  .ok ({ c with state := state }, ⟨tag, tally⟩)

/-- `Client::ReconstructResponse` (client_handlers.cc:62-67). -/
def Client.reconstructResponse (c : Client box) (r : Response) : Res (Client box × Response) := do
  let state := c.state.loadNext
  let pre ← state.getPreshare
  let r ← additiveReconstruct r pre
  .ok ({ c with state := state }, r)

/-- Loop body of `StartOffline` (client_offline.cc:22-32); the state carries the
socket's write buffer. -/
def Client.offlineStep (rand : ClientRand box) (next : ι) (i : Nat) (st : Client box × WBuf) :
    Prog ι (Client box × WBuf) := do
  let (c, w) := st
  let (c, secrets) ← lift (c.makeSecret (rand.secret i) i)
  let r := rand.secret i
  let cipher ← lift (onionEncrypt box r.coins r.junk r.junk' secrets 0 c.partyCount c.pkeys)
  let w ← sendCipher next (cipherSize c.partyCount) cipher w
  return (c, w)

/-- `Client::StartOffline` (client_offline.cc:10-37). -/
def Client.startOffline (c : Client box) (rand : ClientRand box) (next : ι) (count : Nat) : Prog ι (Client box) := do
  let c := { c with queriesCount := count }
  sendCount next count
  waitForReady next
  let c := { c with state := c.state.initialize c.partyCount count false false }
  let (c, w) ← loop count 0 (Client.offlineStep rand next) (c, {})
  flush next w
  waitForReady next
  return c

/-- `Client::SimulateOffline` (client_offline.cc:39-46). -/
def Client.simulateOffline (c : Client box) (next : ι) (count : Nat) : Prog ι (Client box) := do
  let c := { c with state := c.state.initialize c.partyCount count false true }
  sendCount next count
  waitForReady next
  return c

/-- First loop body of `StartOnline` (client_online.cc:20-26). -/
def Client.queryStep (rand : ClientRand box) (next : ι) (i : Nat) (st : Client box × List Nat × WBuf) :
    Prog ι (Client box × List Nat × WBuf) := do
  let (c, queries, w) := st
  let key := c.db.randomRow (rand.row i)
  observe (.want key)
  let (c, q) ← lift (c.makeQuery key)
  let w ← sendQuery next q w
  return (c, queries ++ [key], w)

/-- Second loop body of `StartOnline` (client_online.cc:35-47); `read` responses were
read before. -/
def Client.responseStep (next : ι) (queries : List Nat) (read : Nat) (c : Client box) : Prog ι (Client box) := do
  let r ← recvResponse next
  let (c, r) ← lift (c.reconstructResponse r)
  observe (.result r)
  let key ← lift (rd queries read)
  let expected ← lift (c.db.lookup key)
  lift (assert (r.eq expected))
  return c

/-- `Client::StartOnline` (client_online.cc:11-50). -/
def Client.startOnline (c : Client box) (rand : ClientRand box) (next : ι) (count : Nat) : Prog ι (Client box) := do
  let c := { c with queriesCount := count }
  let (c, queries, w) ← loop count 0 (Client.queryStep rand next) (c, [], {})
  flush next w
  let c := { c with state := c.state.finishSharing }
  loop count 0 (Client.responseStep next queries) c

/-- `Client::Start` (client/client.h:22-31). -/
def Client.start (c : Client box) (rand : ClientRand box) (next : ι) (count : Nat) (offline online : Bool) :
    Prog ι Unit := do
  let c ← if offline then c.startOffline rand next count else c.simulateOffline next count
  if online then
    let _ ← c.startOnline rand next count
    return ()
  else return ()

end DPPIR.Protocol
