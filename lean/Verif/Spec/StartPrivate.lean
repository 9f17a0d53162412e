import Verif.Spec.Start
import Verif.Spec.Joint
import Verif.Spec.PrivateRun
import Verif.Spec.NoiseRounded

/-!
# Vocabulary for the privacy of deployments started from the command line
-/

open MeasureTheory

namespace DPPIR.Main
open DPPIR.Protocol DPPIR.Onion DPPIR.Connect DPPIR.Joint

variable {box : SealedBox} {ι A : Type} [DecidableEq ι] [DecidableEq A]

/-- The same machines with other draws behind the keys of the client of server `s`. -/
def World.asking (w : World box) (s : Nat) (row : Nat → Nat) : World box :=
  { w with clientRand := Function.update w.clientRand s { w.clientRand s with row := row } }

/-- Two results of `rand()`. -/
abbrev Draws := Fin (2 ^ 31) × Fin (2 ^ 31)

/-- The law of two independent calls of `rand()` that return each of their results with
the same probability. -/
noncomputable def uniformDraws : Measure Draws := ((2 : ENNReal) ^ 62)⁻¹ • Measure.count

/-- The same machines when `rand()` returns `r` to party `k`, which has `S` servers: two
results for each row.  The servers make noise for equal shares of the rows (rounded up),
in order. -/
def World.drawing {rows : Nat} (w : World box) (k S : Nat) (r : Fin rows → Draws) : World box :=
  { w with draw := Function.update w.draw k (fun s i =>
      if h : s * ((rows + S - 1) / S) + i < rows then
        ((r ⟨s * ((rows + S - 1) / S) + i, h⟩).1.val, (r ⟨s * ((rows + S - 1) / S) + i, h⟩).2.val)
      else (0, 0)) }

/-- In some complete run of the connected processes `prog`, the processes `backends`
together look up each row as often as `x` says. -/
def LooksUp (prog : ι → PProg ι Unit) (backends : List ι) {rows : Nat} (x : Fin rows → Nat) : Prop :=
  ∃ (cap : ι × ι → Nat) (n : PNet ι Obs Unit), PNet.Reach cap (PNet.start prog) n ∧ (∀ i, n.Returned i ()) ∧
    lookupCounts rows (backends.flatMap n.seen) = x

/-- The same for processes that connect with `setup` first. -/
def ConnectsAndLooksUp (pos : ι → Node) (setup : Node → CProc Node A (Wiring Node)) (prog : ι → PProg ι Unit) (backends : List ι)
    {rows : Nat} (x : Fin rows → Nat) : Prop :=
  ∃ (cap : Sock Node → Nat) (n : JNet ι A Obs), JNet.Reach pos cap (JNet.start setup prog) n ∧ (∀ i, n.Returned pos i) ∧
    lookupCounts rows (backends.flatMap n.seen) = x

/-- Two experiments with independent uniform draws for each row, of which `sees r x` tells
that `x` is seen in some run with the draws `r`: for every set `T` of what can be seen,
the probability that some run of the one shows something in `T` is at most `e^epsilon`
times the probability that every run of the other does, plus `delta`. -/
def NoBetterThan {rows : Nat} (epsilon delta : ℝ) (sees sees' : (Fin rows → Draws) → (Fin rows → Nat) → Prop) : Prop :=
  ∀ T : Set (Fin rows → Nat),
    (Measure.pi fun _ : Fin rows => uniformDraws) {r | ∃ x ∈ T, sees r x} ≤
      ENNReal.ofReal (Real.exp epsilon) *
        (Measure.pi fun _ : Fin rows => uniformDraws) {r | (∃ x, sees' r x) ∧ ∀ x, sees' r x → x ∈ T} +
      ENNReal.ofReal delta

end DPPIR.Main
