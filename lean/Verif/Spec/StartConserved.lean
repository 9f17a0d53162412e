import Verif.Spec.Grid

/-!
# What it means that counts are conserved at a moment of a run
-/

namespace DPPIR.Props
open DPPIR Proc Protocol

/-- The clients ask for `asked` rows in all, and party `j` makes `noise j r` queries for row
`r < R`: so many queries leave level `k` (the clients are level 0, party `j` is level
`j + 1`). -/
def leaving (R asked : Nat) (noise : Nat → Nat → Nat) (k : Nat) : Nat :=
  asked + ((List.range k).map fun j => ((List.range R).map (noise j)).sum).sum

/-- What the `S` clients (0), the servers of the parties (1, 2, ...) and of the backend
(`P`) have seen: nobody sends more queries, or reads more responses, than it announced; no
level sends more queries on, or gets more responses, than leave it.  Once any client has a
result, everybody has sent as many queries as it announced, all queries of all levels have
been sent and read, and all responses to parties. -/
structure Conserved (P S R asked : Nat) (noise : Nat → Nat → Nat) (seen : Nat → Nat → List Obs) : Prop where
  announced : ∀ k < P, ∀ s < S, ∀ n ∈ countsSent (seen k s),
    (queriesSent (seen k s)).length ≤ n.toNat ∧ (responsesRead (seen k s)).length ≤ n.toNat
  atMost : ∀ k < P, ((List.range S).map fun s => (queriesSent (seen k s)).length).sum ≤ leaving R asked noise k ∧
    ((List.range S).map fun s => (responsesSent (seen (k + 1) s)).length).sum ≤ leaving R asked noise k
  asAnnounced : ∀ t < S, results (seen 0 t) ≠ [] → ∀ k < P, ∀ s < S, ∀ n ∈ countsSent (seen k s),
    (queriesSent (seen k s)).length = n.toNat
  queries : ∀ t < S, results (seen 0 t) ≠ [] → ∀ k < P,
    ((List.range S).map fun s => (queriesSent (seen k s)).length).sum = leaving R asked noise k ∧
    ((List.range S).map fun s => (queriesRead (seen (k + 1) s)).length).sum = leaving R asked noise k
  responses : ∀ t < S, results (seen 0 t) ≠ [] → ∀ k, 1 ≤ k → k < P →
    ((List.range S).map fun s => (responsesSent (seen (k + 1) s)).length).sum = leaving R asked noise k ∧
    ((List.range S).map fun s => (responsesRead (seen k s)).length).sum = leaving R asked noise k

end DPPIR.Props
