import Verif.Spec.Grid

/-!
# What it means that the backend looks up what was asked for and the noise
-/

namespace DPPIR.Props
open DPPIR Proc Protocol

/-- What the `S` servers of the backend have looked up together, given the database has `R`
rows, client `s` asks for the rows `asked s`, and party `k` (of `0, ..., P - 2`; party
`P - 1` is the backend and makes no noise) makes `noise k r` queries of its own for row `r`:
only rows of the database; each of them at most as often as it was asked for by the clients
and by the noise; and exactly as often once any client has a result. -/
structure ExactNoise (P S R : Nat) (asked : Nat → List Nat) (noise : Nat → Nat → Nat) (client backend : Nat → List Obs) : Prop where
  rows : ∀ s < S, ∀ r ∈ lookups (backend s), r < R
  atMost : ∀ r < R, ((List.range S).map fun s => (lookups (backend s)).count r).sum ≤
    ((List.range S).map fun s => (asked s).count r).sum + ((List.range (P - 1)).map fun k => noise k r).sum
  exact : ∀ s < S, results (client s) ≠ [] → ∀ r < R, ((List.range S).map fun s => (lookups (backend s)).count r).sum =
    ((List.range S).map fun s => (asked s).count r).sum + ((List.range (P - 1)).map fun k => noise k r).sum

end DPPIR.Props
