import Verif.Model.Joint
import Verif.Spec.Start
import Verif.Spec.Connect

/-!
# A deployment that connects and then answers
-/

namespace DPPIR.Joint
open DPPIR.Connect DPPIR.Protocol DPPIR.Main

variable {ι A : Type} [DecidableEq ι] [DecidableEq A]

/-- The processes connect with `setup`, then run `prog`, and answer the clients
`client s`, `s < S`, as in `Main.Answers`.  Whatever the order in which they start and
proceed, the capacities of the connections (at least a byte), and what each `read` and
`poll` returns: no process ever stops abnormally; the results a client has got are the
rows it asked for, in order, none missing when it has returned; there is no infinite run;
and if the connections are large enough, some process can move until all have connected
and returned and all bytes are read. -/
def ConnectsAndAnswers (pos : ι → Node) (setup : Node → CProc Node A (Wiring Node)) (prog : ι → PProg ι Unit) (capacity S : Nat)
    (client : Nat → ι) (count : Nat → Nat) (rows : Nat) (row : Nat → Nat → Nat) : Prop :=
  ∀ cap : Sock Node → Nat, (∀ s, 0 < cap s) →
    (∀ n, JNet.Reach pos cap (JNet.start setup prog) n →
      (∀ i, ¬ n.Faulted pos i) ∧ (∀ j, ¬ n.net.Faulted j) ∧
      ((∀ s, capacity ≤ cap s) →
        n.CanStep pos cap ∨ (∀ i, n.Returned pos i) ∧ (∀ j, ∃ w, n.net.Returned j w) ∧ ∀ s, n.net.chan s = []) ∧
      ∀ s < S, ∀ d, Database.new rows = .ok d →
        (results (n.seen (client s))).map Except.ok <+: (List.range (count s)).map (fun j => d.lookup (row s j)) ∧
        (n.Returned pos (client s) →
          (results (n.seen (client s))).map Except.ok = (List.range (count s)).map (fun j => d.lookup (row s j)))) ∧
    ¬ ∃ f : Nat → JNet ι A Obs, f 0 = JNet.start setup prog ∧ ∀ k, JNet.Step pos cap (f k) (f (k + 1))

end DPPIR.Joint
