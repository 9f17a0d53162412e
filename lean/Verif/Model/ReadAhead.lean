import Verif.Model.Polling

/-!
# Reading ahead (`DPPIR/sockets/common.h:31-37`, `common.cc:127-131`)

The processes of `Net` and `PNet` take the bytes they wait for one by one from a
connection.  The receive loops of the code instead `read` as many bytes as there are
into a read buffer, and then go through the complete messages in it; a message is
handled, and perhaps answered, when later ones have already left the connection.  Here a
network has such read buffers.  `links` says which connections are read in this way: all
but those between siblings, where exact reads and the `read` of `PProc` model the code
as it is.  Simplification: how much one `read` takes is limited only by what is there, not also by
the 140000 bytes of the buffer and the bytes the loop still expects; that allows
more runs than the code has.  `Loops` has the loops with these limits.
-/

namespace DPPIR

/-- A network whose processes have read buffers: `ahead (s, i)` are the bytes process `i`
has read from the connection from `s` and not used yet. -/
structure RNet (ι O α : Type) extends PNet ι O α where
  ahead : ι × ι → List Byte

namespace RNet
variable {ι O α : Type} [DecidableEq ι]

/-- Nothing in transit, nothing observed, all buffers empty. -/
def start (proc : ι → PProc ι O α) : RNet ι O α := { PNet.start proc with ahead := fun _ => [] }

/-- The next step of process `i`, as in `PNet.Step`, except that a process waiting for a
byte on a connection with a read buffer takes it from there (common.h:31-37), and that a
`read` fills the buffer when it is empty (common.cc:127-131). -/
inductive Step (links : ι × ι → Prop) (cap : ι × ι → Nat) (i : ι) : RNet ι O α → RNet ι O α → Prop where
  /-- any step of a process that does not wait for a byte, or waits for one from a
  connection without a read buffer -/
  | plain {n : RNet ι O α} {m : PNet ι O α} (h : PNet.Step cap i n.toPNet m)
      (direct : ∀ s k, n.proc i = .recv s k → ¬ links (s, i)) :
      Step links cap i n { m with ahead := n.ahead }
  /-- the next byte is in the buffer -/
  | take {n : RNet ι O α} {s : ι} {k : Byte → PProc ι O α} {b : Byte} {rest : List Byte}
      (h : n.proc i = .recv s k) (link : links (s, i)) (data : n.ahead (s, i) = b :: rest) :
      Step links cap i n { n with proc := Function.update n.proc i (k b)
                                  ahead := Function.update n.ahead (s, i) rest }
  /-- the buffer is empty: read any number of the bytes in transit, at least one -/
  | fill {n : RNet ι O α} {s : ι} {k : Byte → PProc ι O α} {c rest : List Byte}
      (h : n.proc i = .recv s k) (link : links (s, i)) (empty : n.ahead (s, i) = [])
      (some : c ≠ []) (data : n.chan (s, i) = c ++ rest) :
      Step links cap i n { n with chan := Function.update n.chan (s, i) rest
                                  ahead := Function.update n.ahead (s, i) c }

/-- The networks that can be reached in any number of steps of any processes. -/
inductive Reach (links : ι × ι → Prop) (cap : ι × ι → Nat) (n : RNet ι O α) : RNet ι O α → Prop where
  | refl : Reach links cap n n
  | step {m m' : RNet ι O α} {i : ι} (h : Reach links cap n m) (s : Step links cap i m m') : Reach links cap n m'

/-- Some process can take a step. -/
def CanStep (links : ι × ι → Prop) (cap : ι × ι → Nat) (n : RNet ι O α) : Prop := ∃ i m, Step links cap i n m

end RNet

end DPPIR
