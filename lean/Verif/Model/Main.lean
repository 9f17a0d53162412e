import Verif.Model.Config

/-!
# Program entry (`DPPIR/main.cc`)
-/

namespace DPPIR.Main
open DPPIR.Config

/-- Command line flags (main.cc:20-26); `int` and `int64_t` values as integers. -/
structure Flags where
  role : String
  stage : String
  config : String
  serverId : Int
  partyId : Int
  queries : Int

/-- What `main` does: exit with status 1, or start one protocol (main.cc:95-114). -/
inductive Action where
  | exit1
  | client (serverId : BitVec 8) (queries : BitVec 32) (offline online : Bool)
  | party (partyId serverId : BitVec 8) (offline online : Bool)
  | parallelParty (partyId serverId : BitVec 8) (offline online : Bool)
  | backend (serverId : BitVec 8) (offline online : Bool)
  deriving DecidableEq

/-- Flag validation (main.cc:41-72): `true` if the flags are refused. -/
def badFlags (f : Flags) : Bool :=
  if f.config = "" then true
  else if f.stage = "" then true
  else if f.stage ≠ "online" ∧ f.stage ≠ "offline" ∧ f.stage ≠ "all" then true
  else if f.role = "" then true
  else if f.role ≠ "client" ∧ f.role ≠ "party" then true
  else if f.role = "party" ∧ f.partyId < 0 then true
  else if f.role = "client" ∧ f.queries < 0 then true
  else if f.serverId < 0 then true
  else false

/-- Dispatch after reading the configuration (main.cc:80-114). -/
def dispatch (f : Flags) (c : Config) : Action :=
  if f.serverId ≥ c.serverCount.toNat then .exit1
  else if f.partyId ≥ c.partyCount.toNat then .exit1
  else
    let offline := f.stage = "offline" ∨ f.stage = "all"
    let online := f.stage = "online" ∨ f.stage = "all"
    if f.role = "client" then
      .client (BitVec.ofInt 8 f.serverId) (BitVec.ofInt 32 f.queries) offline online
    else if f.partyId < (c.partyCount.toNat : Int) - 1 then
      if c.serverCount.toNat = 1 then
        .party (BitVec.ofInt 8 f.partyId) (BitVec.ofInt 8 f.serverId) offline online
      else
        .parallelParty (BitVec.ofInt 8 f.partyId) (BitVec.ofInt 8 f.serverId) offline online
    else .backend (BitVec.ofInt 8 f.serverId) offline online

/-- `main` (main.cc:28-118); `file` gives the contents of a file if it exists.
Building the database (main.cc:78) is not an observable step. -/
def main (file : String → Option (List Byte)) (f : Flags) : Res Action :=
  if badFlags f then .ok .exit1
  else do
    let c ← readFile (file f.config)
    .ok (dispatch f c)

end DPPIR.Main
