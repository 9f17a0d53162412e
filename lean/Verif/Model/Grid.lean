import Verif.Model.ParallelParty
import Verif.Model.Client

/-!
# A deployment with several servers per party (`DPPIR/main.cc`)

Process `(0, s)` is the client of server `s`, `(k + 1, s)` is server `s` of party `k`,
the last of which is the backend.  Server `s` of each party is connected to server `s`
of the next party, and all servers of a party are connected to each other.
-/

namespace DPPIR.Protocol
open DPPIR Proc Onion Shuffle

/-- Name of a process: level and server. -/
abbrev Node := Nat × Nat

/-- A deployment: configuration, command lines of the clients, and all random choices. -/
structure Grid (box : SealedBox) where
  parties : Nat
  servers : Nat
  rows : Nat
  pkeys : List box.PKey
  skey : Nat → box.SKey
  pkey : Nat → box.PKey
  sharedSeed : Nat → Int
  localSeed : Nat → Nat → Int
  /-- `--queries` of the client of each server -/
  count : Nat → Nat
  /-- the C library's generator, the same on all machines -/
  rand : RandGen
  clientRand : Nat → ClientRand box
  partyRand : Nat → Nat → ParallelRand box
  /-- order in which each backend server traverses its map of secrets -/
  backendOrder : Nat → List (BitVec 64 × BackendSecret) → List (BitVec 64 × BackendSecret)
  /-- content of the uninitialised local in the backend's `HandleQuery` -/
  junk : Response

variable {box : SealedBox}

/-- The choices of server `s` of party `k`. -/
def Grid.choices (g : Grid box) (k s : Nat) : ParallelRand box := { g.partyRand k s with rand := g.rand }

/-- The main program of client `s` (main.cc:78,95-97). -/
def Grid.client (g : Grid box) (s : Nat) (offline online : Bool) : PProg Node Unit := PProc.ofProc do
  let db ← lift (Database.new g.rows)
  let cl ← lift (Client.new s g.parties g.pkeys db)
  cl.start (g.clientRand s) (1, s) (g.count s) offline online

/-- The main program of server `s` of party `k` (main.cc:78,104-108). -/
def Grid.party (g : Grid box) (k s : Nat) (offline online : Bool) : PProg Node Unit := do
  let db ← PProc.lift (Database.new g.rows)
  let p ← PProc.lift (ParallelParty.new k s g.parties g.servers (g.sharedSeed k) (g.localSeed k s) g.pkeys (g.pkey k)
    (g.skey k) db)
  p.start (g.choices k s) (k, s) (k + 2, s) (fun t => (k + 1, t)) offline online

/-- The main program of server `s` of the backend (main.cc:78,109-113).  The map of
counts is built by the constructor (backend_initialization.cc:20). -/
def Grid.backend (g : Grid box) (s : Nat) (offline online : Bool) : PProg Node Unit := do
  let db ← PProc.lift (Database.new g.rows)
  let _ ← PProc.lift (serverTable g.servers)
  let b ← PProc.lift (Backend.new g.parties (g.pkey (g.parties - 1)) (g.skey (g.parties - 1)) db)
  b.startParallel (g.backendOrder s) s g.servers (g.parties - 1, s) (fun t => (g.parties, t)) g.junk offline online

/-- The whole deployment. -/
def Grid.prog (g : Grid box) (offline online : Bool) (i : Node) : PProg Node Unit :=
  if i.2 < g.servers then
    if i.1 = 0 then g.client i.2 offline online
    else if i.1 < g.parties then g.party (i.1 - 1) i.2 offline online
    else if i.1 = g.parties then g.backend i.2 offline online
    else .done ()
  else .done ()

/-- The deployment before anything happened. -/
def Grid.net (g : Grid box) (offline online : Bool) : PNet Node Obs Unit := PNet.start (g.prog offline online)

end DPPIR.Protocol
