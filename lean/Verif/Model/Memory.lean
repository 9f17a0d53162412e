import Verif.Model.Base

/-!
# Raw memory: block copies in bounds

`memcpy` and pointer ranges on byte arrays.  No file of /repo is modelled here.
-/

namespace DPPIR

/-- Reading `len` elements starting at `off`. -/
def slice {α : Type} (buf : List α) (off len : Nat) : Res (List α) :=
  if off + len ≤ buf.length then .ok ((buf.drop off).take len) else .error .ub

/-- Writing `bytes` starting at `off`. -/
def blit {α : Type} (buf : List α) (off : Nat) (bytes : List α) : Res (List α) :=
  if off + bytes.length ≤ buf.length then
    .ok (buf.take off ++ bytes ++ buf.drop (off + bytes.length))
  else .error .ub

/-- `a - b` on `size_t` offsets used as a pointer offset: a wrapped result points
outside every buffer. -/
def subOff (a b : Nat) : Res Nat := if b ≤ a then .ok (a - b) else .error .ub

end DPPIR
