import Verif.Model.ParallelShuffle

/-!
# Vocabulary for the cross-server shuffle properties

Sequences of API calls and their results; nothing here refers to the arrays the
shuffler keeps.
-/

namespace DPPIR.Spec
open DPPIR.Shuffle

/-- `r` is the (0-based) `k`-th position at which `t` occurs in `l`. -/
def IsKthOcc (l : List Nat) (t k r : Nat) : Prop := l[r]? = some t ∧ (l.take r).count t = k

/-- `k` consecutive `ShuffleOne()` calls. -/
def shuffleCalls : Nat → ParallelShuffler → Res (List Nat × ParallelShuffler)
  | 0, s => .ok ([], s)
  | k + 1, s => do
    let (t, s) ← s.shuffleOne
    let (ts, s) ← shuffleCalls k s
    .ok (t :: ts, s)

/-- A sequence of `DeshuffleOne(t)` calls, one for every `t` of the list. -/
def deshuffleCalls : List Nat → ParallelShuffler → Res (List Nat × ParallelShuffler)
  | [], s => .ok ([], s)
  | t :: ts, s => do
    let (r, s) ← s.deshuffleOne t
    let (rs, s) ← deshuffleCalls ts s
    .ok (r :: rs, s)

/-- Server `me` of `counts.length` siblings, freshly constructed with `seed` and
initialised with the same `counts` as everyone else. -/
def IsPlan (rand : RandGen) (seed : Int) (counts : List Nat) (me noise : Nat) (s : ParallelShuffler) : Prop :=
  (ParallelShuffler.new me counts.length seed).initialize rand counts noise = .ok s

end DPPIR.Spec
