import Verif.Model.Noise

/-!
# What is needed of floating-point division
-/

namespace DPPIR.Noise

/-- What is needed of the rounding of a quotient of integers: it is monotone and
leaves alone the quotients by 256 that are doubles. -/
structure IsDivRounding (rnd : ℚ → ℚ) : Prop where
  mono : Monotone rnd
  exact : ∀ k : ℕ, k ≤ 2 ^ 53 → rnd (k / 256) = k / 256

end DPPIR.Noise
