import Verif.Spec.Hiding
import Verif.Spec.StartHiding

/-!
# Vocabulary: clients that do not trust each other
-/

namespace DPPIR.Protocol
open DPPIR Proc Onion

variable {box : SealedBox}

/-- Two deployments in which client `s` is the same: the number of parties, the public
keys and the size of the database are the same, and this client's number of queries and
random choices, among them the rows it asks for.  Everything else may be different: the
other clients, their numbers of queries and keys, the noise, seeds and shuffles of the
parties, the secret keys, even the number of servers. -/
structure Grid.SameClient (g g' : Grid box) (s : Nat) : Prop where
  parties : g'.parties = g.parties
  rows : g'.rows = g.rows
  pkeys : g'.pkeys = g.pkeys
  count : g'.count s = g.count s
  rand : g'.clientRand s = g.clientRand s

/-- A deployment with the choices of rows `row` and the draws `d` of client `t`. -/
def Grid.withDrawsOf (g : Grid box) (t : Nat) (row : Nat → Nat) (d : Draws (g.count t) g.parties) : Grid box :=
  { g with clientRand := Function.update g.clientRand t ((g.clientRand t).withDraws row d) }

/-- In some complete run of the deployment everybody but client `t` and the backend sees
`v`: all servers of the parties before the backend as in `Grid.PartiesSee`, the other
clients all their calls. -/
def Grid.OthersSee (g : Grid box) (t : Nat) (v : Node → List Obs) : Prop :=
  ∃ cap n, PNet.Reach cap (g.net true true) n ∧ (∀ i, n.Returned i ()) ∧
    (∀ i s, 1 ≤ i → i < g.parties → s < g.servers → (n.seen (i, s)).map Obs.sealed = v (i, s)) ∧
    ∀ s, s < g.servers → s ≠ t → n.seen (0, s) = v (0, s)

end DPPIR.Protocol

namespace DPPIR.Main
open DPPIR.Protocol DPPIR.Onion

/-- The same machines when client `t` chooses the rows `row` and its generator gives the
draws `x` behind its secrets. -/
def World.withDrawsOf {box : SealedBox} (w : World box) (t : Nat) {count parties : Nat} (row : Nat → Nat)
    (x : Protocol.Draws count parties) : World box :=
  { w with clientRand := Function.update w.clientRand t ((w.clientRand t).withDraws row x) }

/-- Everybody but client `t` and the backend, of `P` parties with `S` servers each: the
other clients and all servers of the other parties. -/
def Others (P S t : Nat) (i : Node) : Prop := i.1 < P ∧ i.2 < S ∧ i ≠ (0, t)

end DPPIR.Main
