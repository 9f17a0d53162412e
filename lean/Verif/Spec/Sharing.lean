import Verif.Model.Incremental

/-!
# Vocabulary for the secret-sharing properties
-/

namespace DPPIR.Spec
open DPPIR.Incremental

/-- The sharing prime. -/
def p : Nat := 2 ^ 31 - 1

/-- A pair that may be handed to a party: `0 ≤ x < p` and `1 ≤ y < p`. -/
def IsShare (s : Share) : Prop :=
  s.x.toNat < p ∧ 0 < s.y.toNat ∧ s.y.toNat < p

/-- What the parties do to a tally, one after the other in the given order. -/
def applyAll (shares : List Share) (tally : BitVec 32) : BitVec 32 :=
  shares.foldl incrementalReconstruct tally

end DPPIR.Spec
