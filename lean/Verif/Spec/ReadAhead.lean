import Verif.Model.ReadAhead
import Verif.Spec.Chain
import Verif.Spec.Grid

/-!
# Deployments whose processes read ahead

As `Chain.Serves` and `Grid.Serves`, for networks with read buffers.  On a connection
between neighbours in the chain every process reads as far ahead as it likes; on a
connection between servers of the same party the reads are those of the model of the
exchange.
-/

namespace DPPIR.Protocol
open DPPIR Onion

variable {box : SealedBox}

/-- The deployment with read buffers, before anything happened. -/
def Chain.bufferedNet (c : Chain box) (offline online : Bool) : RNet Nat Obs Unit :=
  RNet.start (fun i => PProc.ofProc (c.prog offline online i))

/-- Whatever the schedule, the capacities of the connections, and how far ahead each read
goes: no process ever stops abnormally, some process can move until all have returned
and nothing is left in a connection or a read buffer, no run is infinite, and the
responses of the client are always the rows of its keys, in order, none missing when it
has returned. -/
def Chain.ServesBuffered (c : Chain box) (offline : Bool) : Prop :=
  ∀ cap : Nat × Nat → Nat, (∀ x, 0 < cap x) →
    (∀ n, RNet.Reach (fun _ => True) cap (c.bufferedNet offline true) n →
      (∀ i, ¬ n.Faulted i) ∧
      (n.CanStep (fun _ => True) cap ∨ (∀ i, n.Returned i ()) ∧ (∀ x, n.chan x = []) ∧ ∀ x, n.ahead x = []) ∧
      ∀ d, Database.new c.rows = .ok d →
        wants (n.seen 0) <+: (List.range c.count).map c.wanted ∧
        (results (n.seen 0)).map Except.ok <+: ((List.range c.count).map c.wanted).map d.lookup ∧
        (n.Returned 0 () → wants (n.seen 0) = (List.range c.count).map c.wanted ∧
          (results (n.seen 0)).map Except.ok = (wants (n.seen 0)).map d.lookup)) ∧
    ¬ ∃ f : Nat → RNet Nat Obs Unit, f 0 = c.bufferedNet offline true ∧
      ∀ k, ∃ i, RNet.Step (fun _ => True) cap i (f k) (f (k + 1))

/-- The connections between neighbours in the chain: the processes have different
positions. -/
def Grid.chainLink (x : Node × Node) : Prop := x.1.1 ≠ x.2.1

/-- The deployment with read buffers, before anything happened. -/
def Grid.bufferedNet (g : Grid box) (offline online : Bool) : RNet Node Obs Unit := RNet.start (g.prog offline online)

/-- The same for several servers per party, where connections between siblings must hold
the messages of one exchange for all to return. -/
def Grid.ServesBuffered (g : Grid box) (offline : Bool) : Prop :=
  ∀ cap : Node × Node → Nat,
    (∀ n, RNet.Reach Grid.chainLink cap (g.bufferedNet offline true) n →
      (∀ i, ¬ n.Faulted i) ∧
      (g.Roomy cap → n.CanStep Grid.chainLink cap ∨
        (∀ i, n.Returned i ()) ∧ (∀ x, n.chan x = []) ∧ ∀ x, n.ahead x = []) ∧
      ∀ s < g.servers, ∀ d, Database.new g.rows = .ok d →
        wants (n.seen (0, s)) <+: (List.range (g.count s)).map (g.wanted s) ∧
        (results (n.seen (0, s))).map Except.ok <+: ((List.range (g.count s)).map (g.wanted s)).map d.lookup ∧
        (n.Returned (0, s) () → wants (n.seen (0, s)) = (List.range (g.count s)).map (g.wanted s) ∧
          (results (n.seen (0, s))).map Except.ok = (wants (n.seen (0, s))).map d.lookup)) ∧
    ¬ ∃ f : Nat → RNet Node Obs Unit, f 0 = g.bufferedNet offline true ∧
      ∀ k, ∃ i, RNet.Step Grid.chainLink cap i (f k) (f (k + 1))

end DPPIR.Protocol
