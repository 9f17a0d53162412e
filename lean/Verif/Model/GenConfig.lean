import Verif.Model.Config

/-!
# The configuration generator (`DPPIR/config/gen_config.cc`)

Numbers are already parsed (`std::stoi`, `std::cin >>` give `int`s); a failing
parse is not modelled.  `keys i` is what `GenerateKeyPair` returned for party `i`.
-/

namespace DPPIR.Config

/-- "127.0.0.1". -/
def localhost : List Byte := [49, 50, 55, 46, 48, 46, 48, 46, 49]

/-- The body shared by the inner loops (gen_config.cc:43-52, 83-93); `i * server_count + j`
is computed in `int`. -/
def genServer (serverCount : BitVec 8) (i j : Nat) (ip : List Byte) : ServerConfig :=
  { localSeed := BitVec.ofNat 32 (i * serverCount.toNat + j)
    port := BitVec.ofNat 32 (3000 + (i * serverCount.toNat + j))
    parallelPort := BitVec.ofNat 32 (4000 + (i * serverCount.toNat + j))
    ip := ip }

/-- A default-constructed `ServerConfig` (uninitialised integers read as 0). -/
def emptyServer : ServerConfig := ⟨0, 0, 0, []⟩

/-- A value-initialised `PartyConfig`. -/
def emptyParty : PartyConfig := ⟨0, [], fun _ => 0, fun _ => 0⟩

/-- The IP given for server `j` of party `i` on the command line (gen_config.cc:89-93):
`argv[6 + i * server_count + j]`, or the default when `argc == 6`. -/
def argIp (ips : List (List Byte)) (serverCount : BitVec 8) (i j : Nat) : Res (List Byte) :=
  if ips = [] then .ok localhost else rd ips (i * serverCount.toNat + j)

/-- The inner loop: fills `party.servers[0..server_count)` (gen_config.cc:80-94). -/
def argServers (ips : List (List Byte)) (serverCount : BitVec 8) (i : Nat) : Res (List ServerConfig) :=
  forRange 0 serverCount.toNat (fun j servers => do
    let ip ← argIp ips serverCount i j
    wr servers j (genServer serverCount i j ip)) (List.replicate serverCount.toNat emptyServer)

/-- `FromArgs` (gen_config.cc:61-100).  `ips` are the arguments from `argv[6]` on, so
`argc = 6 + ips.length`. -/
def fromArgs (keys : Nat → (Fin keySize → Byte) × (Fin keySize → Byte)) (dbSize : Int) (epsilon delta : BitVec 64)
    (parties servers : Int) (ips : List (List Byte)) : Res Config := do
  let partyCount := BitVec.ofInt 8 parties
  let serverCount := BitVec.ofInt 8 servers
  if ips.length = partyCount.toNat * serverCount.toNat ∨ ips.length = 0 then do
    let ps ← forRange 0 partyCount.toNat (fun i ps => do
      let ss ← argServers ips serverCount i
      wr ps i { sharedSeed := BitVec.ofNat 32 (i + 1000), servers := ss, pkey := (keys i).1, skey := (keys i).2 })
      (List.replicate partyCount.toNat emptyParty)
    .ok { dbSize := BitVec.ofInt 32 dbSize, epsilon := epsilon, delta := delta
          partyCount := partyCount, serverCount := serverCount, parties := ps }
  else .error .assertFail

/-- The line typed for a server (gen_config.cc:49-52). -/
def typedIp (line : List Byte) : List Byte := if line = [] then localhost else line

/-- `vector<T>(n)` for an `int` `n`: a negative one throws. -/
def vectorOf {α : Type} (n : Int) (dflt : α) : Res (List α) :=
  if n < 0 then .error .exception else .ok (List.replicate n.toNat dflt)

/-- The inner loop of `Interactive` (gen_config.cc:39-53); `vector::at` throws out of
range. -/
def typedServers (lines : Nat → Nat → List Byte) (servers : Int) (serverCount : BitVec 8) (i : Nat) :
    Res (List ServerConfig) := do
  let v ← vectorOf servers emptyServer
  forRange 0 serverCount.toNat (fun j v =>
    if j < v.length then .ok (v.set j (genServer serverCount i j (typedIp (lines i j)))) else .error .exception) v

/-- `Interactive` (gen_config.cc:11-59); `lines i j` is the line typed for server `j`
of party `i`. -/
def interactive (keys : Nat → (Fin keySize → Byte) × (Fin keySize → Byte)) (dbSize : BitVec 32)
    (epsilon delta : BitVec 64) (parties servers : Int) (lines : Nat → Nat → List Byte) : Res Config := do
  let partyCount := BitVec.ofInt 8 parties
  let serverCount := BitVec.ofInt 8 servers
  let v ← vectorOf parties emptyParty
  let ps ← forRange 0 partyCount.toNat (fun i v => do
    let ss ← typedServers lines servers serverCount i
    if i < v.length then
      .ok (v.set i { sharedSeed := BitVec.ofNat 32 (i + 1000), servers := ss, pkey := (keys i).1, skey := (keys i).2 })
    else .error .exception) v
  .ok { dbSize := dbSize, epsilon := epsilon, delta := delta
        partyCount := partyCount, serverCount := serverCount, parties := ps }

end DPPIR.Config
