import Verif.Model.Base

/-!
# Shuffling (`DPPIR/shuffle`)

`RandGen` is the C library generator: `rand seed k` is what the k-th call of
`rand()` after `srand(seed)` returns.
-/

namespace DPPIR.Shuffle

/-- Output of `rand()` as a function of the seed and of the number of calls since
`srand` (shuffle/util.cc:7,12). -/
abbrev RandGen := Int → Nat → Nat

/-- `RAND_MAX` of glibc: the largest value `rand()` returns. -/
def randMax : Nat := 2 ^ 31 - 1

/-- `random_bounded(range)` (shuffle/util.cc:10-15), given the raw value of
`rand()`. -/
def randomBounded (raw range : Nat) : Nat :=
  let random32bit := wrap32 raw
  let multiresult := wrap64 (random32bit * wrap32 range)
  wrap32 (multiresult / 2 ^ 32)

/-- `std::swap(arr[i], arr[j])`. -/
def swap {α : Type} (arr : List α) (i j : Nat) : Res (List α) := do
  let a ← rd arr i
  let b ← rd arr j
  let arr ← wr arr i b
  wr arr j a

/-- The loop of `util::shuffle` (shuffle/util.h:17-23) at counter value `i`;
`k` calls of `rand()` have been made before. -/
def shuffleLoop {α : Type} (rng : Nat → Nat) : Nat → Nat → List α → Res (List α)
  | _, 0, arr => .ok arr
  | _, 1, arr => .ok arr
  | k, i + 2, arr => do
    let p := randomBounded (rng k) (i + 2)
    let arr' ← swap arr (i + 1) p
    shuffleLoop rng (k + 1) (i + 1) arr'

/-- `util::shuffle(arr, n)` (shuffle/util.h:17-23). -/
def shuffle {α : Type} (rng : Nat → Nat) (arr : List α) (n : Nat) : Res (List α) :=
  shuffleLoop rng 0 n arr

/-- `LocalShuffler` (shuffle/local_shuffle.h); a null map is the empty list. -/
structure LocalShuffler where
  seed : Int
  forward : List Nat
  backward : List Nat

/-- Constructor (shuffle/local_shuffle.cc:9-10). -/
def LocalShuffler.new (seed : Int) : LocalShuffler := ⟨seed, [], []⟩

/-- `LocalShuffler::Initialize(local_count)` (shuffle/local_shuffle.cc:12-32). -/
def LocalShuffler.initialize (rand : RandGen) (s : LocalShuffler) (n : Nat) :
    Res LocalShuffler := do
  -- forward_map_[i] = i
  let fwd ← forRange 0 n (fun i m => wr m i i) (List.replicate n 0)
  let fwd ← shuffle (rand s.seed) fwd n
  -- backward_map_[forward_map_[i]] = i
  let bwd ← forRange 0 n (fun i m => do
    let j ← rd fwd i
    wr m j i) (List.replicate n 0)
  .ok { s with forward := fwd, backward := bwd }

/-- `Shuffle(idx)` (shuffle/local_shuffle.cc:35). -/
def LocalShuffler.shuffle (s : LocalShuffler) (idx : Nat) : Res Nat := rd s.forward idx

/-- `Deshuffle(idx)` (shuffle/local_shuffle.cc:36-38). -/
def LocalShuffler.deshuffle (s : LocalShuffler) (idx : Nat) : Res Nat := rd s.backward idx

/-- `FinishForward()` (shuffle/local_shuffle.cc:41). -/
def LocalShuffler.finishForward (s : LocalShuffler) : LocalShuffler := { s with forward := [] }

/-- `FinishBackward()` (shuffle/local_shuffle.cc:42). -/
def LocalShuffler.finishBackward (s : LocalShuffler) : LocalShuffler := { s with backward := [] }

end DPPIR.Shuffle
