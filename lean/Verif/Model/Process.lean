import Verif.Model.Base
import Mathlib.Logic.Function.Basic

/-!
# Processes and networks

A process is a C++ program seen from outside: it computes, writes bytes to a
connection, or blocks in a read until the next byte of a connection is there.
`obs` marks a call of an API function (no code of its own), so that properties can
talk about calls.  A network is a set of processes with one FIFO byte queue of
bounded capacity per ordered pair.  No file of /repo is modelled here; the
behaviour of TCP connections and of blocking `read`/`send` is.
-/

namespace DPPIR

/-- A program communicating with the processes named by `ι`, with observable calls `O`. -/
inductive Proc (ι O α : Type) where
  /-- returned normally -/
  | done (a : α)
  /-- stopped abnormally (or undefined behaviour) -/
  | fault (e : Fault)
  /-- write one byte to the connection to `dst` -/
  | send (dst : ι) (b : Byte) (k : Proc ι O α)
  /-- blocking read of one byte from the connection from `src` -/
  | recv (src : ι) (k : Byte → Proc ι O α)
  /-- an observable call -/
  | obs (o : O) (k : Proc ι O α)

namespace Proc
variable {ι O α β : Type}

/-- Sequencing of statements. -/
def bind : Proc ι O α → (α → Proc ι O β) → Proc ι O β
  | done a, f => f a
  | fault e, _ => fault e
  | send d b k, f => send d b (k.bind f)
  | recv s k, f => recv s (fun b => (k b).bind f)
  | obs o k, f => obs o (k.bind f)

instance : Monad (Proc ι O) where
  pure := done
  bind := bind

/-- A local computation. -/
def lift : Res α → Proc ι O α
  | .ok a => done a
  | .error e => fault e

/-- `Send(fd, buf, size)` (sockets/common.cc:133-140). -/
def sendBytes (dst : ι) : List Byte → Proc ι O Unit
  | [] => done ()
  | b :: l => send dst b (sendBytes dst l)

/-- `Read(fd, buf, size)`, exact (sockets/common.cc:118-125); `got` are the bytes read
so far. -/
def recvBytesFrom (src : ι) : Nat → List Byte → Proc ι O (List Byte)
  | 0, got => done got
  | n + 1, got => recv src (fun b => recvBytesFrom src n (got ++ [b]))

/-- Reading `n` bytes (sockets/common.cc:118-125). -/
def recvBytes (src : ι) (n : Nat) : Proc ι O (List Byte) := recvBytesFrom src n []

/-- An observable call. -/
def observe (o : O) : Proc ι O Unit := obs o (done ())

/-- `n` iterations of a counting loop, the first with counter `i`. -/
def loop {σ : Type} : Nat → Nat → (Nat → σ → Proc ι O σ) → σ → Proc ι O σ
  | 0, _, _, s => done s
  | n + 1, i, f, s => (f i s).bind (loop n (i + 1) f)

/-- Range-based `for` over a list, carrying a state. -/
def each {σ γ : Type} (f : γ → σ → Proc ι O σ) : List γ → σ → Proc ι O σ
  | [], s => done s
  | c :: cs, s => (f c s).bind (each f cs)

end Proc

/-- A network: the program each process still has to run, the bytes in transit from
`i` to `j`, and the calls each process has made. -/
structure Net (ι O : Type) where
  proc : ι → Proc ι O Unit
  chan : ι × ι → List Byte
  seen : ι → List O

namespace Net
variable {ι O : Type} [DecidableEq ι]

/-- Nothing in transit, nothing observed. -/
def start (proc : ι → Proc ι O Unit) : Net ι O := ⟨proc, fun _ => [], fun _ => []⟩

/-- Process `i` takes its next step, if it can: a write needs room in the queue
(`cap (i, j)` bytes), a read needs a byte in it. -/
def step (cap : ι × ι → Nat) (i : ι) (n : Net ι O) : Option (Net ι O) :=
  match n.proc i with
  | .done _ => none
  | .fault _ => none
  | .send d b k =>
    if (n.chan (i, d)).length < cap (i, d) then
      some { n with proc := Function.update n.proc i k
                    chan := Function.update n.chan (i, d) (n.chan (i, d) ++ [b]) }
    else none
  | .recv s k =>
    match n.chan (s, i) with
    | [] => none
    | b :: rest =>
      some { n with proc := Function.update n.proc i (k b)
                    chan := Function.update n.chan (s, i) rest }
  | .obs o k =>
    some { n with proc := Function.update n.proc i k
                  seen := Function.update n.seen i (n.seen i ++ [o]) }

/-- The processes take steps in the order of the schedule. -/
def run (cap : ι × ι → Nat) : List ι → Net ι O → Option (Net ι O)
  | [], n => some n
  | i :: s, n => (n.step cap i).bind (run cap s)

/-- Some process can take a step. -/
def CanStep (cap : ι × ι → Nat) (n : Net ι O) : Prop := ∃ i, (n.step cap i).isSome

/-- Process `i` stopped abnormally. -/
def Faulted (n : Net ι O) (i : ι) : Prop := ∃ e, n.proc i = .fault e

/-- Process `i` returned normally. -/
def Finished (n : Net ι O) (i : ι) : Prop := n.proc i = .done ()

end Net

end DPPIR
