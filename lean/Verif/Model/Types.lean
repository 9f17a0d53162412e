import Verif.Model.Base
import Mathlib.Data.Fintype.Basic

/-!
# Message types (`DPPIR/types/types.h`, `DPPIR/types/types.cc`)

Wire and stored integers are `BitVec`s of the C++ width.  The machine is
little-endian.
-/

namespace DPPIR

/-- `INCREMENTAL_PRIME` (types/types.h:16). -/
def incrementalPrime : Nat := 2147483647

/-- `SIG_T_SIZE` (types/types.h:14). -/
abbrev sigSize : Nat := 48
/-- `PRESHARE_T_SIZE` (types/types.h:15). -/
abbrev preshareSize : Nat := 52

/-- `sig_t` (types/types.h:28). -/
abbrev Sig := Fin sigSize → Byte

/-- `preshare_t` (types/types.h:48). -/
abbrev Preshare := Fin preshareSize → Byte

/-- `incremental_share_t` (types/types.h:42-45). -/
structure Share where
  x : BitVec 32
  y : BitVec 32
  deriving DecidableEq, Repr

/-- `OfflineSecret`, packed, 76 bytes (types/types.h:53-59). -/
structure OfflineSecret where
  tag : BitVec 64
  nextTag : BitVec 64
  share : Share
  preshare : Preshare
  deriving DecidableEq

/-- `Query`, packed, 12 bytes (types/types.h:62-66). -/
structure Query where
  tag : BitVec 64
  tally : BitVec 32
  deriving DecidableEq, Repr

/-- `Response`, packed, 52 bytes (types/types.h:69-75). -/
structure Response where
  value : BitVec 32
  sig : Sig
  deriving DecidableEq

/-- The `k` least significant bytes of an integer in little-endian order: its
memory image on the target machine. -/
def natLE : Nat → Nat → List Byte
  | 0, _ => []
  | k + 1, v => BitVec.ofNat 8 v :: natLE k (v / 256)

/-- Reading bytes of memory as a little-endian integer. -/
def natOfLE : List Byte → Nat
  | [] => 0
  | b :: t => b.toNat + 256 * natOfLE t

/-- `sizeof(Response)` (types/types.h:73). -/
abbrev responseSize : Nat := 52
/-- `sizeof(Query)` (types/types.h:66). -/
abbrev querySize : Nat := 12
/-- `sizeof(OfflineSecret)` (types/types.h:59). -/
abbrev secretSize : Nat := 76

/-- Memory image of a packed `Response` (types/types.h:69-72). -/
def Response.encode (r : Response) : List Byte :=
  natLE 4 r.value.toNat ++ List.ofFn r.sig

/-- Reading bytes of memory as a byte array of static size; bytes missing from
the list read as 0 (never used on short lists: see the callers). -/
def arrayOf (n : Nat) (l : List Byte) : Fin n → Byte := fun i => l.getD i 0

/-- Reinterpreting 52 bytes of memory as a `Response` (types/types.h:69-72). -/
def Response.decode (l : List Byte) : Response where
  value := BitVec.ofNat 32 (natOfLE (l.take 4))
  sig := arrayOf sigSize (l.drop 4)

/-- Memory image of a packed `Query` (types/types.h:62-65). -/
def Query.encode (q : Query) : List Byte :=
  natLE 8 q.tag.toNat ++ natLE 4 q.tally.toNat

/-- Reinterpreting 12 bytes of memory as a `Query` (types/types.h:62-65). -/
def Query.decode (l : List Byte) : Query where
  tag := BitVec.ofNat 64 (natOfLE (l.take 8))
  tally := BitVec.ofNat 32 (natOfLE ((l.drop 8).take 4))

/-- Memory image of a packed `OfflineSecret` (types/types.h:53-58). -/
def OfflineSecret.encode (s : OfflineSecret) : List Byte :=
  natLE 8 s.tag.toNat ++ natLE 8 s.nextTag.toNat ++
    natLE 4 s.share.x.toNat ++ natLE 4 s.share.y.toNat ++ List.ofFn s.preshare

/-- Reinterpreting 76 bytes of memory as an `OfflineSecret`
(types/types.h:53-58). -/
def OfflineSecret.decode (l : List Byte) : OfflineSecret where
  tag := BitVec.ofNat 64 (natOfLE (l.take 8))
  nextTag := BitVec.ofNat 64 (natOfLE ((l.drop 8).take 8))
  share :=
    { x := BitVec.ofNat 32 (natOfLE ((l.drop 16).take 4))
      y := BitVec.ofNat 32 (natOfLE ((l.drop 20).take 4)) }
  preshare := arrayOf preshareSize (l.drop 24)

/-- The loop of `operator==` over the signature bytes from index `i` on
(types/types.cc:24-29). -/
def Response.eqSigFrom (a b : Response) (i : Nat) : Bool :=
  if h : i < sigSize then
    if a.sig ⟨i, h⟩ ≠ b.sig ⟨i, h⟩ then false else Response.eqSigFrom a b (i + 1)
  else true
termination_by sigSize - i

/-- `operator==` on responses (types/types.cc:20-30). -/
def Response.eq (a b : Response) : Bool :=
  if a.value ≠ b.value then false else Response.eqSigFrom a b 0

end DPPIR
