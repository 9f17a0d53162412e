import Verif.Model.Protocol

/-!
# The last party, one server (`DPPIR/protocol/backend`)

`BroadcastSecrets` (backend_offline.cc:23-60) and the barrier among siblings
(backend_offline.cc:70-74), which only exist with several servers, are modelled with
the parallel parties.
-/

namespace DPPIR.Protocol
open DPPIR Proc Onion Incremental Additive

/-- `BackendParty` (backend/backend.h:38-58). -/
structure Backend (box : SealedBox) where
  db : Database
  queries : Batch Query := {}
  state : BackendState := {}
  pkey : box.PKey
  skey : box.SKey

variable {box : SealedBox} {ι : Type}

/-- Constructor (backend_initialization.cc:12-38).  Its assertion reads
`config.party_count` after `config` was moved from; moving leaves the integer
unchanged.  Connecting is not modelled. -/
def Backend.new (partyCount : Nat) (pkey : box.PKey) (skey : box.SKey) (db : Database) : Res (Backend box) := do
  assert (2 ≤ partyCount)
  .ok { db := db, pkey := pkey, skey := skey }

/-- `BackendParty::InitializeBatch` (backend_initialization.cc:40-43). -/
def Backend.initializeBatch (b : Backend box) (back : ι) : Prog ι (Backend box) := do
  let n ← readCount back
  return { b with queries := Batch.initialize n ⟨0, 0⟩ }

/-- `BackendParty::HandleOnionCipher` (backend_handlers.cc:9-17). -/
def Backend.handleOnionCipher (b : Backend box) (cipher : List Byte) : Prog ι (Backend box) := do
  let layer ← lift (onionDecrypt box cipher 1 b.pkey b.skey)
  let msg ← lift layer.msg
  observe (.store msg)
  let st ← lift (b.state.store msg)
  return { b with state := st }

/-- `BackendParty::HandleQuery` (backend_handlers.cc:19-35); `junk` is the content of
the uninitialised local `response`. -/
def Backend.handleQuery (b : Backend box) (junk : Response) (q : Query) : Prog ι (Backend box × Response) := do
  let st := b.state.loadSecret q.tag
  let share ← lift st.getIncremental
  let key := (incrementalReconstruct q.tally share).toNat
  observe (.lookup key)
  let value ← lift (b.db.lookup key)
  let pre ← lift st.getPreshare
  let r ← lift (additiveReconstructInto value pre junk)
  return ({ b with state := st }, r)

/-- Loop body of `CollectAndInstallSecrets` (backend_offline.cc:13-18). -/
def Backend.installStep (back : ι) (_ : Nat) (b : Backend box) : Prog ι (Backend box) := do
  let c ← recvCipher back (cipherSize 1)
  b.handleOnionCipher c

/-- `BackendParty::CollectAndInstallSecrets` (backend_offline.cc:8-21). -/
def Backend.collectAndInstallSecrets (b : Backend box) (back : ι) : Prog ι (Backend box) :=
  loop b.queries.capacity 0 (Backend.installStep back) b

/-- `BackendParty::StartOffline` (backend_offline.cc:62-78), one server. -/
def Backend.startOffline (b : Backend box) (back : ι) : Prog ι (Backend box) := do
  let b ← b.initializeBatch back
  let b := { b with state := b.state.initialize false }
  sendReady back
  let b ← b.collectAndInstallSecrets back
  sendReady back
  return b

/-- `BackendParty::SimulateOffline` (backend_offline.cc:80-89). -/
def Backend.simulateOffline (b : Backend box) (back : ι) : Prog ι (Backend box) := do
  let b ← b.initializeBatch back
  let b := { b with state := b.state.initialize true }
  sendReady back
  return b

/-- Loop body of `CollectQueries` (backend_online.cc:14-19). -/
def Backend.collectQuery (back : ι) (_ : Nat) (b : Backend box) : Prog ι (Backend box) := do
  let q ← recvQuery back
  let qs ← lift (b.queries.pushBack q)
  return { b with queries := qs }

/-- `BackendParty::CollectQueries` (backend_online.cc:8-21). -/
def Backend.collectQueries (b : Backend box) (back : ι) : Prog ι (Backend box) :=
  loop b.queries.capacity 0 (Backend.collectQuery back) b

/-- Loop body of `SendResponses` (backend_online.cc:26-29); the state carries the
socket's write buffer. -/
def Backend.respond (back : ι) (junk : Response) (q : Query) (st : Backend box × WBuf) :
    Prog ι (Backend box × WBuf) := do
  let (b, w) := st
  let (b, r) ← b.handleQuery junk q
  let w ← sendResponse back r w
  return (b, w)

/-- `BackendParty::SendResponses` (backend_online.cc:23-31). -/
def Backend.sendResponses (b : Backend box) (back : ι) (junk : Response) : Prog ι (Backend box) := do
  let qs ← lift b.queries.elements
  let (b, w) ← each (Backend.respond back junk) qs (b, {})
  flush back w
  return b

/-- `BackendParty::StartOnline` (backend_online.cc:33-36). -/
def Backend.startOnline (b : Backend box) (back : ι) (junk : Response) : Prog ι (Backend box) := do
  let b ← b.collectQueries back
  b.sendResponses back junk

/-- `BackendParty::Start` (backend/backend.h:25-34). -/
def Backend.start (b : Backend box) (back : ι) (junk : Response) (offline online : Bool) : Prog ι Unit := do
  let b ← if offline then b.startOffline back else b.simulateOffline back
  if online then
    let _ ← b.startOnline back junk
    return ()
  else return ()

end DPPIR.Protocol
