import Verif.Model.Types

/-!
# Configuration files (`DPPIR/config/config.{h,cc}`)

`double`s are kept as their 64-bit patterns.  Unaligned integer loads behave as on
the target machine.
-/

namespace DPPIR.Config

/-- `pkey_t` / `skey_t` (types/types.h:34-35): 32 bytes each (libsodium
`crypto_box_PUBLICKEYBYTES`, `crypto_box_SECRETKEYBYTES`). -/
abbrev keySize : Nat := 32

/-- `ServerConfig` (config/config.h:12-17). -/
structure ServerConfig where
  localSeed : BitVec 32
  port : BitVec 32
  parallelPort : BitVec 32
  ip : List Byte
  deriving DecidableEq

/-- `PartyConfig` (config/config.h:19-26). -/
structure PartyConfig where
  sharedSeed : BitVec 32
  servers : List ServerConfig
  pkey : Fin keySize → Byte
  skey : Fin keySize → Byte
  deriving DecidableEq

/-- `Config` (config/config.h:28-37). -/
structure Config where
  dbSize : BitVec 32
  epsilon : BitVec 64
  delta : BitVec 64
  partyCount : BitVec 8
  serverCount : BitVec 8
  parties : List PartyConfig
  deriving DecidableEq

/-! ## Writing -/

/-- `Int2Bin` (config/config.cc:12-14). -/
def int2bin (v : BitVec 32) : List Byte := natLE 4 v.toNat
/-- `Double2Bin` (config/config.cc:15-17). -/
def double2bin (v : BitVec 64) : List Byte := natLE 8 v.toNat

/-- The loop body over servers in `Serialize` (config/config.cc:74-80). -/
def serializeServer (s : ServerConfig) : List Byte :=
  int2bin s.localSeed ++ int2bin s.port ++ int2bin s.parallelPort ++ s.ip ++ [0]

/-- The loop body over parties in `Serialize` (config/config.cc:67-81). -/
def serializeParty (serverCount : BitVec 8) (p : PartyConfig) : Res (List Byte) :=
  if p.servers.length = serverCount.toNat then
    .ok (int2bin p.sharedSeed ++ List.ofFn p.pkey ++ List.ofFn p.skey ++ (p.servers.map serializeServer).flatten)
  else .error .assertFail

/-- `Serialize` (config/config.cc:57-84). -/
def serialize (c : Config) : Res (List Byte) := do
  let header := int2bin c.dbSize ++ double2bin c.epsilon ++ double2bin c.delta ++
    int2bin (c.partyCount.setWidth 32) ++ int2bin (c.serverCount.setWidth 32)
  if c.parties.length = c.partyCount.toNat then do
    let parties ← c.parties.mapM (serializeParty c.serverCount)
    .ok (header ++ parties.flatten)
  else .error .assertFail

/-! ## Reading -/

/-- Read position: the memory readable from `*data` on, and the counter `*n`. -/
structure Cursor where
  rest : List Byte
  n : Nat

/-- Moving the cursor by `k` bytes; `*n -= k` wraps. -/
def Cursor.skip (c : Cursor) (k : Nat) : Cursor := { rest := c.rest.drop k, n := wrap64 (c.n + 2 ^ 64 - k) }

/-- A parser: reads at the cursor and moves it. -/
abbrev Parser (α : Type) := Cursor → Res (α × Cursor)

/-- `Bin2Int` (config/config.cc:19-24): no bounds check; reading past the allocation
is undefined behaviour. -/
def bin2int : Parser (BitVec 32) := fun c =>
  if 4 ≤ c.rest.length then .ok (BitVec.ofNat 32 (natOfLE (c.rest.take 4)), c.skip 4) else .error .ub

/-- `Bin2Double` (config/config.cc:25-30). -/
def bin2double : Parser (BitVec 64) := fun c =>
  if 8 ≤ c.rest.length then .ok (BitVec.ofNat 64 (natOfLE (c.rest.take 8)), c.skip 8) else .error .ub

/-- The loop of `Bin2Str` from index `i` on (config/config.cc:32-40). -/
def bin2strFrom (c : Cursor) (i : Nat) : Res (List Byte × Cursor) :=
  if h : i < c.n then
    match rd c.rest i with
    | .error e => .error e
    | .ok b => if b = 0 then .ok (c.rest.take i, c.skip (i + 1)) else bin2strFrom c (i + 1)
  else .error .assertFail
termination_by c.n - i

/-- `Bin2Str` (config/config.cc:31-41). -/
def bin2str : Parser (List Byte) := fun c => bin2strFrom c 0

/-- `ReadIntoBuffer` with `SZ = 32` (config/config.cc:43-52). -/
def readKey : Parser (Fin keySize → Byte) := fun c =>
  if keySize ≤ c.n then
    if keySize ≤ c.rest.length then .ok (arrayOf keySize (c.rest.take keySize), c.skip keySize) else .error .ub
  else .error .assertFail

/-- Sequencing of parsers. -/
def Parser.bind {α β : Type} (p : Parser α) (q : α → Parser β) : Parser β := fun c =>
  match p c with
  | .error e => .error e
  | .ok (a, c) => q a c

/-- A parser that reads nothing. -/
def Parser.pure {α : Type} (a : α) : Parser α := fun c => .ok (a, c)

/-- One server (config/config.cc:103-108). -/
def readServer : Parser ServerConfig :=
  bin2int.bind fun localSeed => bin2int.bind fun port => bin2int.bind fun parallelPort =>
    bin2str.bind fun ip =>
      .pure { localSeed := localSeed, port := port, parallelPort := parallelPort, ip := ip }

/-- The loop over servers (config/config.cc:102-109). -/
def readServers : Nat → Parser (List ServerConfig)
  | 0 => .pure []
  | k + 1 => readServer.bind fun s => (readServers k).bind fun ss => .pure (s :: ss)

/-- One party (config/config.cc:98-110). -/
def readParty (serverCount : Nat) : Parser PartyConfig :=
  bin2int.bind fun sharedSeed => readKey.bind fun pkey => readKey.bind fun skey =>
    (readServers serverCount).bind fun servers =>
      .pure { sharedSeed := sharedSeed, servers := servers, pkey := pkey, skey := skey }

/-- The loop over parties (config/config.cc:97-111). -/
def readParties (serverCount : Nat) : Nat → Parser (List PartyConfig)
  | 0 => .pure []
  | k + 1 => (readParty serverCount).bind fun p => (readParties serverCount k).bind fun ps => .pure (p :: ps)

/-- All the reading done by `Deserialize` (config/config.cc:88-111).  `party_count`
and `server_count` keep the low 8 bits of the stored integers. -/
def readConfig : Parser Config :=
  bin2int.bind fun dbSize => bin2double.bind fun epsilon => bin2double.bind fun delta =>
    bin2int.bind fun pc => bin2int.bind fun sc =>
      (readParties (sc.setWidth 8).toNat (pc.setWidth 8).toNat).bind fun parties =>
        .pure { dbSize := dbSize, epsilon := epsilon, delta := delta, partyCount := pc.setWidth 8
                serverCount := sc.setWidth 8, parties := parties }

/-- `Deserialize(str, n)` (config/config.cc:87-115) on memory `mem` readable from
`str`. -/
def deserializeMem (mem : List Byte) (n : Nat) : Res Config :=
  match readConfig { rest := mem, n := n } with
  | .error e => .error e
  | .ok (c, cur) => if cur.n = 0 then .ok c else .error .assertFail

/-- `Deserialize(data.data(), data.size())` as `ReadFile` calls it
(config/config.cc:118-126): a `std::string` is followed in memory by one NUL. -/
def deserialize (data : List Byte) : Res Config := deserializeMem (data ++ [0]) data.length

/-- `ReadFile` (config/config.cc:118-126): a file that cannot be opened reads as
empty. -/
def readFile (contents : Option (List Byte)) : Res Config := deserialize (contents.getD [])

end DPPIR.Config
