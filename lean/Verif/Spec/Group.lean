import Verif.Spec.StartPrivate
import Mathlib.Algebra.BigOperators.Intervals

/-!
# Vocabulary for changing several queries
-/

namespace DPPIR.Main
open DPPIR.Onion

variable {box : SealedBox}

/-- The same machines with other draws behind the keys of all clients: `row s i` is behind
the `i`-th query of the client of server `s`. -/
def World.askingAll (w : World box) (row : Nat → Nat → Nat) : World box :=
  { w with clientRand := fun s => { w.clientRand s with row := row s } }

/-- The failure probability for `m` changes, when it is `delta` for one:
`delta * (1 + e^epsilon + ... + e^((m-1) epsilon))`. -/
noncomputable def groupDelta (epsilon delta : ℝ) (m : Nat) : ℝ := delta * ∑ i ∈ Finset.range m, Real.exp (i * epsilon)

end DPPIR.Main
