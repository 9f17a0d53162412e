import Verif.Model.Types

/-!
# Offline state (`DPPIR/types/state.{h,cc}`) and database (`DPPIR/types/database.cc`)

`std::unordered_map<tag_t, secret>` is an association list without repeated keys;
its iteration order is not fixed (see the users of `entries`).
Null pointers are empty lists.
-/

namespace DPPIR

/-! ## Client state -/

/-- `ClientState` (types/state.h:13-52). -/
structure ClientState where
  simulated : Bool := false
  writeIdx : Nat := 0
  readIdx : Nat := 0
  size : Nat := 0
  tags : List (BitVec 64) := []
  incrementals : List (List Share) := []
  preshares : List Preshare := []

/-- `ClientState::Initialize` (types/state.cc:16-39). -/
def ClientState.initialize (s : ClientState) (partyCount secrets : Nat) (noise simulated : Bool) :
    ClientState :=
  let size := if simulated then 1 else secrets
  { simulated := simulated
    writeIdx := 0
    readIdx := 0
    size := size
    tags := List.replicate size 0
    incrementals := if simulated then [List.replicate partyCount ⟨0, 1⟩] else List.replicate size []
    preshares := if noise then s.preshares else List.replicate size (fun _ => 0) }

/-- `ClientState::AddNoiseSecret` (types/state.cc:42-47). -/
def ClientState.addNoiseSecret (s : ClientState) (tag : BitVec 64) (incrementals : List Share) :
    Res ClientState := do
  let tags ← wr s.tags s.writeIdx tag
  let incs ← wr s.incrementals s.writeIdx incrementals
  .ok { s with tags := tags, incrementals := incs, writeIdx := wrap32 (s.writeIdx + 1) }

/-- `ClientState::AddSecret` (types/state.cc:48-55). -/
def ClientState.addSecret (s : ClientState) (tag : BitVec 64) (incrementals : List Share)
    (preshare : Preshare) : Res ClientState := do
  let tags ← wr s.tags s.writeIdx tag
  let incs ← wr s.incrementals s.writeIdx incrementals
  let pres ← wr s.preshares s.writeIdx preshare
  .ok { s with tags := tags, incrementals := incs, preshares := pres,
               writeIdx := wrap32 (s.writeIdx + 1) }

/-- `ClientState::LoadNext` (types/state.cc:58). -/
def ClientState.loadNext (s : ClientState) : ClientState := { s with readIdx := wrap32 (s.readIdx + 1) }

/-- The index `read_idx_ - 1` in `uint32_t` (types/state.cc:63,69,75). -/
def ClientState.cur (s : ClientState) : Nat :=
  if s.simulated then 0 else wrap32 (s.readIdx + (2 ^ 32 - 1))

/-- `ClientState::GetTag` (types/state.cc:59-64). -/
def ClientState.getTag (s : ClientState) : Res (BitVec 64) := rd s.tags s.cur
/-- `ClientState::GetIncrementalShares` (types/state.cc:65-70). -/
def ClientState.getIncrementalShares (s : ClientState) : Res (List Share) := rd s.incrementals s.cur
/-- `ClientState::GetPreshare` (types/state.cc:71-76). -/
def ClientState.getPreshare (s : ClientState) : Res Preshare := rd s.preshares s.cur

/-- `ClientState::FinishSharing` (types/state.cc:79-83). -/
def ClientState.finishSharing (s : ClientState) : ClientState :=
  { s with readIdx := 0, tags := [], incrementals := [] }

/-- `ClientState::Free` (types/state.cc:85-92). -/
def ClientState.free (s : ClientState) : ClientState :=
  { s with writeIdx := 0, readIdx := 0, size := 0, tags := [], incrementals := [], preshares := [] }

/-! ## Party and backend state -/

/-- `PartyState::secret` (types/state.h:57-65). -/
structure PartySecret where
  nextTag : BitVec 64
  incremental : Share
  preshare : Preshare
  deriving DecidableEq

/-- `PartyState` (types/state.h:54-98).  `it` is the cached iterator: `none` when
it does not point to an entry. -/
structure PartyState where
  simulated : Bool := false
  secrets : List (BitVec 64 × PartySecret) := []
  it : Option PartySecret := none

/-- `PartyState::Initialize` (types/state.cc:101-109). -/
def PartyState.initialize (s : PartyState) (simulated : Bool) : PartyState :=
  let dflt : PartySecret := ⟨0, ⟨0, 1⟩, fun _ => 0⟩
  { s with
    simulated := simulated
    secrets := if simulated then (0, dflt) :: s.secrets.filter (fun e => e.1 ≠ 0) else s.secrets }

/-- `PartyState::Store` (types/state.cc:112-118).  Inserting may rehash, which
invalidates the cached iterator. -/
def PartyState.store (s : PartyState) (o : OfflineSecret) : Res PartyState :=
  match s.secrets.lookup o.tag with
  | some _ => .error .assertFail
  | none => .ok { s with secrets := s.secrets ++ [(o.tag, ⟨o.nextTag, o.share, o.preshare⟩)], it := none }

/-- `PartyState::LoadSecret` (types/state.cc:121-127). -/
def PartyState.loadSecret (s : PartyState) (tag : BitVec 64) : PartyState :=
  { s with it := s.secrets.lookup (if s.simulated then 0 else tag) }

/-- Dereferencing an iterator that may be `end()`. -/
def deref {α : Type} : Option α → Res α
  | some a => .ok a
  | none => .error .ub

/-- `PartyState::GetNextTag` (types/state.cc:128). -/
def PartyState.getNextTag (s : PartyState) : Res (BitVec 64) := do
  let e ← deref s.it
  .ok e.nextTag
/-- `PartyState::GetIncremental` (types/state.cc:129-131). -/
def PartyState.getIncremental (s : PartyState) : Res Share := do
  let e ← deref s.it
  .ok e.incremental
/-- `PartyState::GetPreshare` (types/state.cc:132-138): `at` throws on a missing
key. -/
def PartyState.getPreshare (s : PartyState) (tag : BitVec 64) : Res Preshare :=
  match s.secrets.lookup (if s.simulated then 0 else tag) with
  | some e => .ok e.preshare
  | none => .error .exception

/-- `BackendState::secret` (types/state.h:104-111). -/
structure BackendSecret where
  incremental : Share
  preshare : Preshare
  deriving DecidableEq

/-- `BackendState` (types/state.h:101-143). -/
structure BackendState where
  simulated : Bool := false
  secrets : List (BitVec 64 × BackendSecret) := []
  it : Option BackendSecret := none

/-- `BackendState::Initialize` (types/state.cc:147-154). -/
def BackendState.initialize (s : BackendState) (simulated : Bool) : BackendState :=
  let dflt : BackendSecret := ⟨⟨0, 1⟩, fun _ => 0⟩
  { s with
    simulated := simulated
    secrets := if simulated then (0, dflt) :: s.secrets.filter (fun e => e.1 ≠ 0) else s.secrets }

/-- `BackendState::Store` (types/state.cc:157-163). -/
def BackendState.store (s : BackendState) (o : OfflineSecret) : Res BackendState :=
  match s.secrets.lookup o.tag with
  | some _ => .error .assertFail
  | none => .ok { s with secrets := s.secrets ++ [(o.tag, ⟨o.share, o.preshare⟩)], it := none }

/-- `BackendState::LoadSecret` (types/state.cc:166-172). -/
def BackendState.loadSecret (s : BackendState) (tag : BitVec 64) : BackendState :=
  { s with it := s.secrets.lookup (if s.simulated then 0 else tag) }

/-- `BackendState::GetIncremental` (types/state.cc:173-175). -/
def BackendState.getIncremental (s : BackendState) : Res Share := do
  let e ← deref s.it
  .ok e.incremental
/-- `BackendState::GetPreshare` (types/state.cc:176-178). -/
def BackendState.getPreshare (s : BackendState) : Res Preshare := do
  let e ← deref s.it
  .ok e.preshare

/-! ## Database -/

/-- `Database` (types/database.h:10-27). -/
structure Database where
  size : Nat
  rows : List Response

/-- Row `i` as filled by the constructor (types/database.cc:11-13): `2 * i` in
`uint32_t`, signature bytes `i % 128`. -/
def Database.row (i : Nat) : Response :=
  { value := BitVec.ofNat 32 (wrap32 (2 * i)), sig := fun _ => BitVec.ofNat 8 (i % 128) }

/-- `Database::Database(rows)` (types/database.cc:8-14). -/
def Database.new (rows : Nat) : Res Database := do
  let db ← forRange 0 rows (fun i db => wr db i (Database.row i))
    (List.replicate rows ⟨0, fun _ => 0⟩)
  .ok { size := rows, rows := db }

/-- `Database::RandomRow` (types/database.cc:16): `raw` is libsodium's draw;
`randombytes_uniform(n)` is 0 for `n < 2`. -/
def Database.randomRow (d : Database) (raw : Nat) : Nat := if d.size < 2 then 0 else raw % d.size

/-- `Database::Lookup` (types/database.cc:18): unchecked array access. -/
def Database.lookup (d : Database) (key : Nat) : Res Response := rd d.rows key

end DPPIR
