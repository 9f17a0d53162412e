import Verif.Spec.Generator

/-!
# Where the queries that reach the backend come from
-/

namespace DPPIR.Main

/-- A party made the query up for a row, or it is the `j`-th query of client `s`. -/
inductive Origin where
  | noise (row : Nat)
  | query (s j : Nat)
  deriving DecidableEq

/-- The row of the query, when the `j`-th query of client `s` is for `asked s j`. -/
def Origin.row (asked : Nat → Nat → Nat) : Origin → Nat
  | .noise row => row
  | .query s j => asked s j

end DPPIR.Main
