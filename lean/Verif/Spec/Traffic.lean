import Verif.Model.Process

/-!
# What an observer of the network sees

Somebody who watches the connections without breaking the encryption sees when a
process sends a byte and to whom, and when it takes one and from whom.
-/

namespace DPPIR.Net

variable {ι O : Type} [DecidableEq ι]

/-- The bytes process `i` sends and takes when the processes of `n` take steps in the
order `s`: for each, in order, whether it was sent, and the other end. -/
def conversation (cap : ι × ι → Nat) (i : ι) : List ι → Net ι O → List (Bool × ι)
  | [], _ => []
  | j :: s, n =>
    (if j = i then
      match n.proc i with
      | .send d _ _ => [(true, d)]
      | .recv c _ => [(false, c)]
      | _ => []
    else []) ++
    match n.step cap j with
    | some m => conversation cap i s m
    | none => []

/-- How many bytes `i` sends to `j` meanwhile. -/
def traffic (cap : ι × ι → Nat) (i j : ι) (s : List ι) (n : Net ι O) : Nat := (conversation cap i s n).count (true, j)

end DPPIR.Net
