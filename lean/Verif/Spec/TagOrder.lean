import Verif.Spec.Chain

/-!
# What it means that tags tell the order of a client's queries
-/

namespace DPPIR.Props
open DPPIR Proc Protocol

/-- What the `S` servers of the backend have seen tells which of their look-ups is for which
of the `q` queries of a client: the one for a query with tag `tag j` is for query `j`, whose
key is `row j`.  As soon as the client has a result, there is such a look-up for each of
its queries. -/
structure TagsTell (S q : Nat) (tag : Nat → BitVec 64) (row : Nat → Nat) (client : List Obs) (backend : Nat → List Obs) : Prop where
  tells : ∀ t < S, ∀ (i : Nat) (qu : Query) (key j : Nat), j < q → (queriesRead (backend t))[i]? = some qu →
    (lookups (backend t))[i]? = some key → qu.tag = tag j → key = row j
  all : results client ≠ [] → ∀ j < q, ∃ t < S, ∃ (i : Nat) (qu : Query), (queriesRead (backend t))[i]? = some qu ∧
    (lookups (backend t))[i]? = some (row j) ∧ qu.tag = tag j

end DPPIR.Props
