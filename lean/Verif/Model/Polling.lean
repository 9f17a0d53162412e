import Verif.Model.Process

/-!
# Processes that poll

Like `Verif.Model.Process`, with the two system calls the parallel servers need
besides: `poll` on several connections, and one `read` that returns however many
bytes there are.  Both have more than one possible result, so a step of the network is
a relation.  No file of /repo is modelled here.
-/

namespace DPPIR

/-- A program that may poll. -/
inductive PProc (ι O α : Type) where
  /-- returned normally -/
  | done (a : α)
  /-- stopped abnormally (or undefined behaviour) -/
  | fault (e : Fault)
  /-- write one byte to the connection to `dst` -/
  | send (dst : ι) (b : Byte) (k : PProc ι O α)
  /-- blocking read of one byte from the connection from `src` -/
  | recv (src : ι) (k : Byte → PProc ι O α)
  /-- an observable call -/
  | obs (o : O) (k : PProc ι O α)
  /-- `poll` on the connections from `srcs`, with timeout -1 (`block`) or 0; the
  continuation gets the connections reported as readable -/
  | poll (srcs : List ι) (block : Bool) (k : (ι → Bool) → PProc ι O α)
  /-- one `read` of at most `n` bytes (`n > 0`) from the connection from `src` -/
  | read (src : ι) (n : Nat) (k : List Byte → PProc ι O α)

namespace PProc
variable {ι O α β : Type}

/-- Sequencing of statements. -/
def bind : PProc ι O α → (α → PProc ι O β) → PProc ι O β
  | done a, f => f a
  | fault e, _ => fault e
  | send d b k, f => send d b (k.bind f)
  | recv s k, f => recv s (fun b => (k b).bind f)
  | obs o k, f => obs o (k.bind f)
  | poll ss bl k, f => poll ss bl (fun r => (k r).bind f)
  | read s n k, f => read s n (fun c => (k c).bind f)

instance : Monad (PProc ι O) where
  pure := done
  bind := bind

/-- A program that does not poll. -/
def ofProc : Proc ι O α → PProc ι O α
  | .done a => done a
  | .fault e => fault e
  | .send d b k => send d b (ofProc k)
  | .recv s k => recv s (fun b => ofProc (k b))
  | .obs o k => obs o (ofProc k)

/-- A local computation. -/
def lift (x : Res α) : PProc ι O α := ofProc (Proc.lift x)

/-- `poll` (sockets/common.cc:146): which of the connections `srcs` are readable. -/
def pollCall (srcs : List ι) (block : Bool) : PProc ι O (ι → Bool) := poll srcs block done

/-- `read(fd, buf, n)` (sockets/common.cc:128): nothing is read when nothing is asked
for. -/
def readCall (src : ι) (n : Nat) : PProc ι O (List Byte) := if n = 0 then done [] else read src n done

end PProc

/-- A network of such programs (see `Net`). -/
structure PNet (ι O α : Type) where
  proc : ι → PProc ι O α
  chan : ι × ι → List Byte
  seen : ι → List O

namespace PNet
variable {ι O α : Type} [DecidableEq ι]

/-- Nothing in transit, nothing observed. -/
def start (proc : ι → PProc ι O α) : PNet ι O α := ⟨proc, fun _ => [], fun _ => []⟩

/-- Process `i` may go from `n` to the second network in one step.  A `poll` may
report any selection of the connections that have bytes in transit, because bytes may
not have arrived yet; it reports at least one if it is a blocking one.  A `read` returns
any number of the bytes in transit, but at least one. -/
inductive Step (cap : ι × ι → Nat) (i : ι) : PNet ι O α → PNet ι O α → Prop where
  | send {n : PNet ι O α} {d : ι} {b : Byte} {k : PProc ι O α} (h : n.proc i = .send d b k)
      (room : (n.chan (i, d)).length < cap (i, d)) :
      Step cap i n { n with proc := Function.update n.proc i k
                            chan := Function.update n.chan (i, d) (n.chan (i, d) ++ [b]) }
  | recv {n : PNet ι O α} {s : ι} {k : Byte → PProc ι O α} {b : Byte} {rest : List Byte}
      (h : n.proc i = .recv s k) (data : n.chan (s, i) = b :: rest) :
      Step cap i n { n with proc := Function.update n.proc i (k b)
                            chan := Function.update n.chan (s, i) rest }
  | obs {n : PNet ι O α} {o : O} {k : PProc ι O α} (h : n.proc i = .obs o k) :
      Step cap i n { n with proc := Function.update n.proc i k
                            seen := Function.update n.seen i (n.seen i ++ [o]) }
  | poll {n : PNet ι O α} {srcs : List ι} {block : Bool} {k : (ι → Bool) → PProc ι O α} (ready : ι → Bool)
      (h : n.proc i = .poll srcs block k)
      (sound : ∀ j, ready j = true → j ∈ srcs ∧ n.chan (j, i) ≠ [])
      (some : block = true → ∃ j, ready j = true) :
      Step cap i n { n with proc := Function.update n.proc i (k ready) }
  | read {n : PNet ι O α} {s : ι} {m : Nat} {k : List Byte → PProc ι O α} {c rest : List Byte}
      (h : n.proc i = .read s m k) (some : c ≠ []) (fits : c.length ≤ m) (data : n.chan (s, i) = c ++ rest) :
      Step cap i n { n with proc := Function.update n.proc i (k c)
                            chan := Function.update n.chan (s, i) rest }

/-- The networks that can be reached in any number of steps of any processes. -/
inductive Reach (cap : ι × ι → Nat) (n : PNet ι O α) : PNet ι O α → Prop where
  | refl : Reach cap n n
  | step {m m' : PNet ι O α} {i : ι} (h : Reach cap n m) (s : Step cap i m m') : Reach cap n m'

/-- Some process can take a step. -/
def CanStep (cap : ι × ι → Nat) (n : PNet ι O α) : Prop := ∃ i m, Step cap i n m

/-- Process `i` stopped abnormally. -/
def Faulted (n : PNet ι O α) (i : ι) : Prop := ∃ e, n.proc i = .fault e

/-- Process `i` returned normally, with the result `a`. -/
def Returned (n : PNet ι O α) (i : ι) (a : α) : Prop := n.proc i = .done a

end PNet

end DPPIR
