import Verif.Spec.StartCausal

/-!
# What it means that queries and responses are not hidden
-/

namespace DPPIR.Props
open DPPIR Proc Protocol

/-- What the parties (1, 2, ...) and the backend (`P`) of one chain have seen shows the
keys and rows: the queries that the first party has read carry the first ones of `keys` as
plain numbers, all of them once it has sent a query on; the responses it has sent back are
the first ones of the rows with these keys; and at every other hop, too, a query carries
the number of the row which its response is. -/
structure InClear (rows P : Nat) (keys : List Nat) (seen : Nat → List Obs) : Prop where
  queries : (queriesRead (seen 1)).map (fun q : Query => q.tally.toNat) <+: keys
  all : queriesSent (seen 1) ≠ [] → (queriesRead (seen 1)).map (fun q : Query => q.tally.toNat) = keys
  responses : ∀ db, Database.new rows = .ok db → (responsesSent (seen 1)).map Except.ok <+: keys.map db.lookup
  hops : ∀ db, Database.new rows = .ok db → ∀ k < P, ∀ (j : Nat) (q : Query) (r : Response),
    (queriesRead (seen (k + 1)))[j]? = some q → (responsesSent (seen (k + 1)))[j]? = some r → db.lookup q.tally.toNat = .ok r

end DPPIR.Props
