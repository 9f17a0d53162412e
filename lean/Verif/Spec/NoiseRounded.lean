import Verif.Spec.Noise
import Mathlib.MeasureTheory.Measure.Count

/-!
# Vocabulary for the noise as the machine computes it
-/

open MeasureTheory

namespace DPPIR.Spec
open DPPIR.Noise

/-- What is needed of IEEE 754 doubles and of libm, overflow excluded: rounding is
monotone, symmetric and leaves doubles alone; integers up to `2^53` and `1/2` are
doubles, and so is twice a double; a result is off by at most the distance of two
doubles, in any rounding mode; the
`log` of a double is off by at most two. -/
structure IsDouble (A : FloatOps) : Prop where
  mono : Monotone A.rnd
  odd : ∀ x, A.rnd (-x) = -A.rnd x
  idem : ∀ x, A.rnd (A.rnd x) = A.rnd x
  nat : ∀ n : ℕ, n ≤ 2 ^ 53 → A.rnd n = n
  half : A.rnd (1 / 2) = 1 / 2
  twice : ∀ x, A.rnd (2 * A.rnd x) = 2 * A.rnd x
  close : ∀ x, |A.rnd x - x| ≤ (1 / 2) ^ 52 * |x| + (1 / 2) ^ 1074
  log : ∀ x, 0 < x → A.rnd x = x → |A.log x - Real.log x| ≤ (1 / 2) ^ 51 * |Real.log x|

/-- The number `SampleReal` returns when its two calls to `rand()` return `v` and `u`;
0 if it does not return. -/
noncomputable def codeSample (A : FloatOps) (d : Dist) (v u : ℕ) : ℕ :=
  match d.sampleReal A (randUniform A v) (randUniform A u) with
  | .ok k => k
  | .error _ => 0

/-- The distribution of one real noise sample when every call to `rand()` returns each of
its `2^31` results with the same probability, independently. -/
noncomputable def codeLaw (A : FloatOps) (d : Dist) : Measure ℕ :=
  ((2 : ENNReal) ^ 62)⁻¹ • (Measure.count : Measure (Fin (2 ^ 31) × Fin (2 ^ 31))).map (fun r => codeSample A d r.1 r.2)

/-- The `delta` of the noise as the machine computes it, for cutoff `c`: to the term of
exact arithmetic come errors of the order of `2^-47`, of the computed cutoff, and of
`c * 2^-31`, of the draws from `rand()`. -/
noncomputable def roundedDelta (epsilon delta c : ℝ) : ℝ :=
  2 * Real.exp (epsilon / 2) * (delta + (1 / 2) ^ 47) +
    4 * (1 + Real.exp epsilon) * c * ((1 / 2) ^ 31 + (1 / 2) ^ 48 * (1 + epsilon * c))

end DPPIR.Spec
