import Verif.Model.Connect
import Verif.Model.Polling

/-!
# Deployments from the first `listen` to the last `read`

Every process first runs its constructor (`Connect.setup`) and then, on the sockets it got
there, the protocol.  Processes may still be connecting while others already run the
protocol; both use the same sockets.
-/

namespace DPPIR.Joint
open DPPIR.Connect
open DPPIR.Protocol (Node)

variable {ι A O : Type}

/-- The socket with which process `i` reaches process `j`: `next_`, `back_` or an entry of
`siblings_` (the programs of Model/Protocol.lean and the following name their peers by
process, the code by these members). -/
def socket (w : Wiring Node) (i j : Node) : Option (Sock Node) :=
  if j = (i.1 + 1, i.2) then w.next
  else if i = (j.1 + 1, j.2) then w.back
  else if j.1 = i.1 then w.sib j.2 else none

/-- The other end of a connection. -/
def other (s : Sock Node) : Sock Node := ⟨s.conn, !s.server⟩

/-- Processes that connect, and what they run afterwards. -/
structure JNet (ι A O : Type) where
  /-- connection set-up, and all bytes in transit -/
  net : CNet Node A (Wiring Node)
  /-- the protocol -/
  run : ι → PProc ι O Unit
  seen : ι → List O

namespace JNet
variable [DecidableEq ι] [DecidableEq A]

/-- Nothing has happened. -/
def start (setup : Node → CProc Node A (Wiring Node)) (prog : ι → PProc ι O Unit) : JNet ι A O :=
  ⟨CNet.start setup, prog, fun _ => []⟩

/-- One step of some process; `pos` is the place of a process in the deployment, `cap` how
many bytes can be on the way to a socket.  A process runs the protocol when its
constructor has connected (`main.cc:95-113`: the constructor, then `Start`; of the local
computations of the constructor that come before it connects, those that can fail are part
of `run` here).  To use a socket that does not exist is undefined behaviour; a `poll` does
not report anything for it. -/
inductive Step (pos : ι → Node) (cap : Sock Node → Nat) : JNet ι A O → JNet ι A O → Prop where
  /-- a step of connection set-up -/
  | setup {n : JNet ι A O} {j : Node} {m : CNet Node A (Wiring Node)} (h : CNet.Step j n.net m) :
      Step pos cap n { n with net := m }
  | send {n : JNet ι A O} {i d : ι} {w : Wiring Node} {b : Byte} {k : PProc ι O Unit} {s : Sock Node}
      (ready : n.net.Returned (pos i) w) (h : n.run i = .send d b k) (hs : socket w (pos i) (pos d) = some s)
      (room : (n.net.chan (other s)).length < cap (other s)) :
      Step pos cap n { n with run := Function.update n.run i k
                              net := { n.net with chan := Function.update n.net.chan (other s) (n.net.chan (other s) ++ [b]) } }
  | recv {n : JNet ι A O} {i d : ι} {w : Wiring Node} {b : Byte} {k : Byte → PProc ι O Unit} {s : Sock Node} {rest : List Byte}
      (ready : n.net.Returned (pos i) w) (h : n.run i = .recv d k) (hs : socket w (pos i) (pos d) = some s)
      (data : n.net.chan s = b :: rest) :
      Step pos cap n { n with run := Function.update n.run i (k b)
                              net := { n.net with chan := Function.update n.net.chan s rest } }
  | obs {n : JNet ι A O} {i : ι} {w : Wiring Node} {o : O} {k : PProc ι O Unit}
      (ready : n.net.Returned (pos i) w) (h : n.run i = .obs o k) :
      Step pos cap n { n with run := Function.update n.run i k, seen := Function.update n.seen i (n.seen i ++ [o]) }
  | poll {n : JNet ι A O} {i : ι} {w : Wiring Node} {srcs : List ι} {block : Bool} {k : (ι → Bool) → PProc ι O Unit} (r : ι → Bool)
      (ready : n.net.Returned (pos i) w) (h : n.run i = .poll srcs block k)
      (sound : ∀ j, r j = true → j ∈ srcs ∧ ∃ s, socket w (pos i) (pos j) = some s ∧ n.net.chan s ≠ [])
      (some : block = true → ∃ j, r j = true) :
      Step pos cap n { n with run := Function.update n.run i (k r) }
  | read {n : JNet ι A O} {i d : ι} {w : Wiring Node} {m : Nat} {k : List Byte → PProc ι O Unit} {s : Sock Node} {c rest : List Byte}
      (ready : n.net.Returned (pos i) w) (h : n.run i = .read d m k) (hs : socket w (pos i) (pos d) = some s)
      (some : c ≠ []) (fits : c.length ≤ m) (data : n.net.chan s = c ++ rest) :
      Step pos cap n { n with run := Function.update n.run i (k c)
                              net := { n.net with chan := Function.update n.net.chan s rest } }
  | noSocket {n : JNet ι A O} {i d : ι} {w : Wiring Node}
      (ready : n.net.Returned (pos i) w)
      (h : (∃ b k, n.run i = .send d b k) ∨ (∃ k, n.run i = .recv d k) ∨ ∃ m k, n.run i = .read d m k)
      (hs : socket w (pos i) (pos d) = none) :
      Step pos cap n { n with run := Function.update n.run i (.fault .ub) }

/-- What can be reached in any number of steps of any processes. -/
inductive Reach (pos : ι → Node) (cap : Sock Node → Nat) (n : JNet ι A O) : JNet ι A O → Prop where
  | refl : Reach pos cap n n
  | step {m m' : JNet ι A O} (h : Reach pos cap n m) (s : Step pos cap m m') : Reach pos cap n m'

/-- Some process can take a step. -/
def CanStep (pos : ι → Node) (cap : Sock Node → Nat) (n : JNet ι A O) : Prop := ∃ m, Step pos cap n m

/-- Process `i` stopped abnormally, while connecting or later. -/
def Faulted (pos : ι → Node) (n : JNet ι A O) (i : ι) : Prop := n.net.Faulted (pos i) ∨ ∃ e, n.run i = .fault e

/-- Process `i` has connected and the protocol has ended. -/
def Returned (pos : ι → Node) (n : JNet ι A O) (i : ι) : Prop := (∃ w, n.net.Returned (pos i) w) ∧ n.run i = .done ()

end JNet

end DPPIR.Joint
