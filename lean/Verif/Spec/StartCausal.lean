import Verif.Model.Joint
import Verif.Spec.Grid

/-!
# What is seen at one moment of a run and later in it
-/

namespace DPPIR.Props
open DPPIR Proc Protocol Connect Joint

variable {ι A : Type} [DecidableEq ι] [DecidableEq A]

/-- At some moment of some run of the connected processes `prog` they have seen `seen`, at
the same moment or later in that run `later`. -/
def Moments (prog : ι → PProg ι Unit) (seen later : ι → List Obs) : Prop :=
  ∃ (cap : ι × ι → Nat) (n m : PNet ι Obs Unit), PNet.Reach cap (PNet.start prog) n ∧ PNet.Reach cap n m ∧ n.seen = seen ∧ m.seen = later

/-- The same for processes that connect with `setup` first. -/
def ConnectingMoments (pos : ι → Node) (setup : Node → CProc Node A (Wiring Node)) (prog : ι → PProg ι Unit)
    (seen later : ι → List Obs) : Prop :=
  ∃ (cap : Sock Node → Nat) (n m : JNet ι A Obs), JNet.Reach pos cap (JNet.start setup prog) n ∧ JNet.Reach pos cap n m ∧
    n.seen = seen ∧ m.seen = later

/-- Batches are complete before any of them goes on.  Once any server `t` of party `k` has
sent a query on, no server of that party or of a party before it reads another query; once
any server of the backend has looked a key up, no server of a party before it does, nor
that server.  Once any server of party `k` has sent a response back, no server of that
party or of a party after it reads another response; once any client has read one, no
server of any party does. -/
structure Batches (P S : Nat) (seen later : Nat → Nat → List Obs) : Prop where
  queries : ∀ k t, 1 ≤ k → k < P → t < S → queriesSent (seen k t) ≠ [] →
    ∀ j s, 1 ≤ j → j ≤ k → s < S → queriesRead (later j s) = queriesRead (seen j s)
  lookups : ∀ t < S, lookups (seen P t) ≠ [] → queriesRead (later P t) = queriesRead (seen P t) ∧
    ∀ j s, 1 ≤ j → j < P → s < S → queriesRead (later j s) = queriesRead (seen j s)
  responses : ∀ k t, 1 ≤ k → k < P → t < S → responsesSent (seen k t) ≠ [] →
    ∀ j s, k ≤ j → j < P → s < S → responsesRead (later j s) = responsesRead (seen j s)
  results : ∀ t < S, responsesRead (seen 0 t) ≠ [] →
    ∀ j s, 1 ≤ j → j < P → s < S → responsesRead (later j s) = responsesRead (seen j s)

end DPPIR.Props
