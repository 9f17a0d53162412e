import Verif.Model.Noise
import Mathlib.MeasureTheory.Constructions.Pi
import Mathlib.MeasureTheory.Measure.Lebesgue.Basic
import Mathlib.MeasureTheory.Measure.Haar.OfBasis

/-!
# Vocabulary for the statistical properties of the noise
-/

open MeasureTheory

namespace DPPIR.Spec

/-- A uniformly distributed number in [0, 1]. -/
noncomputable def uniform : Measure ℝ := volume.restrict (Set.Icc 0 1)

/-- Two independent uniform numbers, the draws behind one Laplace sample. -/
noncomputable def uniform2 : Measure (ℝ × ℝ) := uniform.prod uniform

/-- `x ≤ t` for a double `x`. -/
def AtMost (t : ℝ) : Noise.Dbl → Prop
  | .fin a => a ≤ t
  | .ninf => True
  | _ => False

/-- `t < x` for a double `x`. -/
def Exceeds (t : ℝ) : Noise.Dbl → Prop
  | .fin a => t < a
  | .pinf => True
  | _ => False

/-- `x < t` for a double `x`. -/
def Below (t : ℝ) : Noise.Dbl → Prop
  | .fin a => a < t
  | .ninf => True
  | _ => False

/-- Probability of an event about the value the code's `Laplace(0, b)` returns when
its two uniform draws are really uniform. -/
noncomputable def laplaceProb (b : ℝ) (E : Noise.Dbl → Prop) : ENNReal :=
  uniform2 {w | E (Noise.laplace .exact (.fin 0) (.fin b) (.fin w.1) (.fin w.2))}

/-- The distribution function of the Laplace distribution with mean 0 and scale `b`. -/
noncomputable def laplaceCDF (b t : ℝ) : ℝ :=
  if 0 ≤ t then 1 - Real.exp (-(t / b)) / 2 else Real.exp (t / b) / 2

/-- The number `SampleReal` returns; 0 if it does not return. -/
noncomputable def sampleValue (d : Noise.Dist) (w : ℝ × ℝ) : ℕ :=
  match d.sampleReal .exact (.fin w.1) (.fin w.2) with
  | .ok k => k
  | .error _ => 0

/-- The distribution of one real noise sample for the given parameters. -/
noncomputable def noiseLaw (epsilon delta : ℝ) : Measure ℕ :=
  uniform2.map (sampleValue (Noise.fields .exact (.fin epsilon) (.fin delta)))

/-- The distribution of the per-key counts after independent noise with law `μ` has
been added to the histogram `h` of queries. -/
noncomputable def release {ι : Type} [Fintype ι] (μ : Measure ℕ) (h : ι → ℕ) : Measure (ι → ℕ) :=
  Measure.pi (fun i => μ.map (fun n => h i + n))

/-- The histograms differ by moving one query from key `a` to key `b`. -/
def Neighbours {ι : Type} (h h' : ι → ℕ) : Prop :=
  ∃ a b, a ≠ b ∧ h a = h' a + 1 ∧ h' b = h b + 1 ∧ ∀ i, i ≠ a → i ≠ b → h i = h' i

/-- (ε, δ) differential privacy of the released counts. -/
def DP (μ : Measure ℕ) (epsilon delta : ℝ) : Prop :=
  ∀ (ι : Type) [Fintype ι] (h h' : ι → ℕ), Neighbours h h' → ∀ T : Set (ι → ℕ),
    release μ h T ≤ ENNReal.ofReal (Real.exp epsilon) * release μ h' T + ENNReal.ofReal delta

end DPPIR.Spec
