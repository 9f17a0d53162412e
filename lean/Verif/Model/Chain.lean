import Verif.Model.Client
import Verif.Model.Party
import Verif.Model.Backend

/-!
# A deployment with one server per party (`DPPIR/main.cc`)

One client (process 0), the parties `0 .. parties-2` (processes `1 .. parties-1`) and
the backend (process `parties`), each connected to its neighbours.
-/

namespace DPPIR.Protocol
open DPPIR Proc Onion

/-- A deployment: configuration, command line of the client, and all random choices. -/
structure Chain (box : SealedBox) where
  parties : Nat
  rows : Nat
  pkeys : List box.PKey
  skey : Nat → box.SKey
  pkey : Nat → box.PKey
  seed : Nat → Int
  count : Nat
  clientRand : ClientRand box
  partyRand : Nat → PartyRand box
  /-- content of the uninitialised local in the backend's `HandleQuery` -/
  junk : Response

variable {box : SealedBox}

/-- The client's main program (main.cc:78,95-97). -/
def Chain.client (c : Chain box) (offline online : Bool) : Prog Nat Unit := do
  let db ← lift (Database.new c.rows)
  let cl ← lift (Client.new 0 c.parties c.pkeys db)
  cl.start c.clientRand 1 c.count offline online

/-- The main program of party `k` (main.cc:78,99-103), process `k + 1`. -/
def Chain.party (c : Chain box) (k : Nat) (offline online : Bool) : Prog Nat Unit := do
  let db ← lift (Database.new c.rows)
  let p ← lift (Party.new k 0 c.parties 1 (c.seed k) c.pkeys (c.pkey k) (c.skey k) db)
  p.start (c.partyRand k) k (k + 2) offline online

/-- The backend's main program (main.cc:78,109-113), process `parties`. -/
def Chain.backend (c : Chain box) (offline online : Bool) : Prog Nat Unit := do
  let db ← lift (Database.new c.rows)
  let b ← lift (Backend.new c.parties (c.pkey (c.parties - 1)) (c.skey (c.parties - 1)) db)
  b.start (c.parties - 1) c.junk offline online

/-- The whole deployment. -/
def Chain.prog (c : Chain box) (offline online : Bool) (i : Nat) : Prog Nat Unit :=
  if i = 0 then c.client offline online
  else if i < c.parties then c.party (i - 1) offline online
  else if i = c.parties then c.backend offline online
  else .done ()

/-- The deployment before anything happened. -/
def Chain.net (c : Chain box) (offline online : Bool) : Net Nat Obs := Net.start (c.prog offline online)

end DPPIR.Protocol
