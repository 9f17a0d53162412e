import Verif.Model.Types

/-!
# Incremental secret sharing (`DPPIR/sharing/incremental.cc`)
-/

namespace DPPIR.Incremental

/-- `GcdExtended` (sharing/incremental.cc:12-21).  The C++ function returns the
coefficients through `*x` and `*y`; the recursive call passes them swapped.
Arguments are `uint32_t`; the coefficients are `int64_t`, whose overflow is
undefined behaviour: both the product and the difference on line 20 are
checked. -/
def gcdExtended (a b : Nat) : Res (Int × Int) :=
  if h : a = 0 then .ok (0, 1)
  else do
    -- inner call writes its `*x` into our `*y` and its `*y` into our `*x`
    let (y, x) ← gcdExtended (b % a) a
    let prod ← int64 ((b / a : Nat) * y)
    let x' ← int64 (x - prod)
    .ok (x', y)
termination_by a
decreasing_by exact Nat.mod_lt _ (Nat.pos_of_ne_zero h)

/-- `ModInverse` (sharing/incremental.cc:24-28).  `x + m` is an `int64_t`
addition; `%` on `int64_t` truncates; a zero modulus is undefined behaviour; the
result is converted to `uint32_t`. -/
def modInverse (a m : Nat) : Res Nat := do
  let (x, _) ← gcdExtended a m
  let s ← if x < 0 then int64 (x + m) else .ok x
  if m = 0 then .error .ub
  else .ok (Int.toNat ((s.tmod m) % (2 ^ 32)))

/-- `randombytes_uniform(upper_bound)` of libsodium: 0 for bounds below 2, else
any value below the bound (the rejection loop is abstracted into the raw
draw). -/
def randombytesUniform (raw upperBound : Nat) : Nat :=
  if upperBound < 2 then 0 else raw % upperBound

/-- Loop of `PreIncrementalSecretShares` from iteration `i`
(sharing/incremental.cc:34-38); `rng k` is the k-th raw draw.  The first draw of
an iteration makes `x`, the second makes `y`. -/
def preSharesFrom (rng : Nat → Nat) : Nat → Nat → List Share
  | _, 0 => []
  | i, n + 1 =>
    { x := BitVec.ofNat 32 (randombytesUniform (rng (2 * i)) incrementalPrime)
      y := BitVec.ofNat 32
        (randombytesUniform (rng (2 * i + 1)) (incrementalPrime - 1) + 1) }
      :: preSharesFrom rng (i + 1) n

/-- `PreIncrementalSecretShares(n)` (sharing/incremental.cc:32-40).
Simplification: the loop counter is a `uint32_t`, so `n ≥ 2^32` would never
terminate; callers pass at most 255 (a party count). -/
def preIncrementalSecretShares (rng : Nat → Nat) (n : Nat) : List Share :=
  preSharesFrom rng 0 n

/-- `uint64_t` arithmetic of the machine: every result is reduced modulo 2^64. -/
def machine (z : Int) : Int := z % 2 ^ 64

/-- Exact integer arithmetic (no reduction), for comparison. -/
def exact (z : Int) : Int := z

/-- Body of the loop of `GenerateIncrementalTally`
(sharing/incremental.cc:47-49).  `w` is the reduction applied to every `uint64_t`
result: `machine`, or `exact` for ideal integers. -/
def tallyStep (w : Int → Int) (t : Int) (s : Share) : Res Int := do
  let sum := w (t + (if t < s.x.toNat then (incrementalPrime : Int) else 0))
  let diff := w (sum - s.x.toNat)
  let inv ← modInverse s.y.toNat incrementalPrime
  .ok (w (diff * inv) % incrementalPrime)

/-- The loop of `GenerateIncrementalTally` (sharing/incremental.cc:46-50): it
visits the shares from the last to the first. -/
def tallyLoop (w : Int → Int) (t : Int) : List Share → Res Int
  | [] => .ok t
  | s :: rest => do
    let t' ← tallyLoop w t rest
    tallyStep w t' s

/-- `GenerateIncrementalTally` (sharing/incremental.cc:42-52), with the
reduction of `uint64_t` results as a parameter.  The return converts to
`uint32_t`. -/
def generateIncrementalTallyWith (w : Int → Int) (query : BitVec 32)
    (shares : List Share) : Res (BitVec 32) := do
  let t ← tallyLoop w query.toNat shares
  .ok (BitVec.ofInt 32 t)

/-- `GenerateIncrementalTally` on the machine. -/
def generateIncrementalTally (query : BitVec 32) (shares : List Share) :
    Res (BitVec 32) :=
  generateIncrementalTallyWith machine query shares

/-- `IncrementalReconstruct` (sharing/incremental.cc:54-57), with the reduction
of `uint64_t` results as a parameter. -/
def incrementalReconstructWith (w : Int → Int) (tally : BitVec 32) (s : Share) :
    BitVec 32 :=
  BitVec.ofInt 32 (w (w (tally.toNat * s.y.toNat) + s.x.toNat) % incrementalPrime)

/-- `IncrementalReconstruct` on the machine. -/
def incrementalReconstruct (tally : BitVec 32) (s : Share) : BitVec 32 :=
  incrementalReconstructWith machine tally s

end DPPIR.Incremental
