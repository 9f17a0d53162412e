import Verif.Model.Loops
import Verif.Spec.Chain
import Verif.Spec.Grid

/-!
# Deployments whose processes have the receive loops of the code
-/

namespace DPPIR.Protocol
open DPPIR Onion

variable {box : SealedBox}

/-- Whatever the schedule, the capacities of the connections between consecutive processes
(at least a byte), and how many bytes each `read` returns: no process ever stops
abnormally, some process can move until all have returned and nothing is left in a
connection, no run is infinite, and the responses of the client are always the rows of
its keys, in order, none missing when it has returned. -/
def Chain.ServesLoops (c : Chain box) (offline : Bool) : Prop :=
  ∀ cap : Nat × Nat → Nat, (∀ k < c.parties, 0 < cap (k, k + 1) ∧ 0 < cap (k + 1, k)) →
    (∀ n, PNet.Reach cap (c.netLoops offline true) n →
      (∀ i, ¬ n.Faulted i) ∧
      (n.CanStep cap ∨ (∀ i, n.Returned i ()) ∧ ∀ x, n.chan x = []) ∧
      ∀ d, Database.new c.rows = .ok d →
        wants (n.seen 0) <+: (List.range c.count).map c.wanted ∧
        (results (n.seen 0)).map Except.ok <+: ((List.range c.count).map c.wanted).map d.lookup ∧
        (n.Returned 0 () → wants (n.seen 0) = (List.range c.count).map c.wanted ∧
          (results (n.seen 0)).map Except.ok = (wants (n.seen 0)).map d.lookup)) ∧
    ¬ ∃ f : Nat → PNet Nat Obs Unit, f 0 = c.netLoops offline true ∧ ∀ k, ∃ i, PNet.Step cap i (f k) (f (k + 1))

/-- The same for several servers per party, where connections between siblings must hold
the messages of one exchange for all to return. -/
def Grid.ServesLoops (g : Grid box) (offline : Bool) : Prop :=
  ∀ cap : Node × Node → Nat,
    (∀ n, PNet.Reach cap (g.netLoops offline true) n →
      (∀ i, ¬ n.Faulted i) ∧
      (g.Roomy cap → n.CanStep cap ∨ (∀ i, n.Returned i ()) ∧ ∀ x, n.chan x = []) ∧
      ∀ s < g.servers, ∀ d, Database.new g.rows = .ok d →
        wants (n.seen (0, s)) <+: (List.range (g.count s)).map (g.wanted s) ∧
        (results (n.seen (0, s))).map Except.ok <+: ((List.range (g.count s)).map (g.wanted s)).map d.lookup ∧
        (n.Returned (0, s) () → wants (n.seen (0, s)) = (List.range (g.count s)).map (g.wanted s) ∧
          (results (n.seen (0, s))).map Except.ok = (wants (n.seen (0, s))).map d.lookup)) ∧
    ¬ ∃ f : Nat → PNet Node Obs Unit, f 0 = g.netLoops offline true ∧ ∀ k, ∃ i, PNet.Step cap i (f k) (f (k + 1))

end DPPIR.Protocol
