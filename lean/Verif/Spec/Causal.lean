import Verif.Spec.Grid

/-!
# What "nothing is read before it was sent" means
-/

namespace DPPIR.Props
open DPPIR Proc Protocol

/-- What the client (0), the parties (1, 2, ...) and the backend (`P`) of one chain have
seen is in order: the queries each has read are the first ones of those the one before it
has sent, the responses each has read are the first ones of those the one after it has
sent, the backend has looked up a key for every response it has sent, and the client has
read a response for every result it has. -/
structure InOrder (P : Nat) (seen : Nat → List Obs) : Prop where
  queries : ∀ k < P, queriesRead (seen (k + 1)) <+: queriesSent (seen k)
  responses : ∀ k < P, responsesRead (seen k) <+: responsesSent (seen (k + 1))
  lookups : (responsesSent (seen P)).length ≤ (lookups (seen P)).length
  results : (results (seen 0)).length ≤ (responsesRead (seen 0)).length

/-- Nothing goes on in a chain behind the first party: no party has sent a query, the
backend has looked nothing up, nobody has sent or read a response, the client has no
result. -/
structure Waiting (P : Nat) (seen : Nat → List Obs) : Prop where
  queries : ∀ k, 1 ≤ k → k < P → queriesSent (seen k) = []
  lookups : lookups (seen P) = []
  sent : ∀ k, 1 ≤ k → k ≤ P → responsesSent (seen k) = []
  read : ∀ k < P, responsesRead (seen k) = []
  results : results (seen 0) = []

end DPPIR.Props
