import Verif.Model.Base
import Mathlib.Analysis.SpecialFunctions.Log.Basic

/-!
# Noise (`DPPIR/noise/noise.{h,cc}`)

Doubles are real numbers, the two infinities and NaN; signed zeros, denormals and
overflow of finite results to infinity are not distinguished.  The rounding of each
operation and the values of `log` are parameters (`FloatOps`), so that statements can
be made for every rounding, or for exact real arithmetic (`FloatOps.exact`).
-/

namespace DPPIR.Noise

/-- A `double`. -/
inductive Dbl where
  | fin (r : ℝ)
  | pinf
  | ninf
  | nan

/-- Rounding of exact results, and libm's `log` on positive finite arguments. -/
structure FloatOps where
  rnd : ℝ → ℝ
  log : ℝ → ℝ

/-- Real arithmetic without rounding. -/
noncomputable def FloatOps.exact : FloatOps := ⟨id, Real.log⟩

namespace Dbl

/-- `-a` -/
noncomputable def neg : Dbl → Dbl
  | fin a => fin (-a)
  | pinf => ninf
  | ninf => pinf
  | nan => nan

/-- `a + b` (IEEE 754). -/
noncomputable def add (A : FloatOps) : Dbl → Dbl → Dbl
  | fin a, fin b => fin (A.rnd (a + b))
  | nan, _ => nan
  | _, nan => nan
  | pinf, ninf => nan
  | ninf, pinf => nan
  | pinf, _ => pinf
  | _, pinf => pinf
  | ninf, _ => ninf
  | _, ninf => ninf

/-- `a - b` -/
noncomputable def sub (A : FloatOps) (a b : Dbl) : Dbl := add A a (neg b)

/-- `r * inf`: NaN for 0. -/
noncomputable def scaleInf (r : ℝ) : Dbl := if 0 < r then pinf else if r < 0 then ninf else nan

/-- `a * b` -/
noncomputable def mul (A : FloatOps) : Dbl → Dbl → Dbl
  | fin a, fin b => fin (A.rnd (a * b))
  | nan, _ => nan
  | _, nan => nan
  | fin a, pinf => scaleInf a
  | fin a, ninf => neg (scaleInf a)
  | pinf, fin b => scaleInf b
  | ninf, fin b => neg (scaleInf b)
  | pinf, pinf => pinf
  | ninf, ninf => pinf
  | pinf, ninf => ninf
  | ninf, pinf => ninf

/-- `a / b` -/
noncomputable def div (A : FloatOps) : Dbl → Dbl → Dbl
  | fin a, fin b => if b = 0 then scaleInf a else fin (A.rnd (a / b))
  | fin _, pinf => fin 0
  | fin _, ninf => fin 0
  | pinf, fin b => if b = 0 then pinf else scaleInf b
  | ninf, fin b => if b = 0 then ninf else neg (scaleInf b)
  | _, _ => nan

/-- `std::abs` -/
noncomputable def abs : Dbl → Dbl
  | fin a => fin |a|
  | pinf => pinf
  | ninf => pinf
  | nan => nan

/-- `std::log`: `-inf` at 0, NaN below. -/
noncomputable def log (A : FloatOps) : Dbl → Dbl
  | fin a => if 0 < a then fin (A.log a) else if a = 0 then ninf else nan
  | pinf => pinf
  | ninf => nan
  | nan => nan

/-- `a < b` -/
noncomputable def lt : Dbl → Dbl → Prop
  | fin a, fin b => a < b
  | ninf, fin _ => True
  | ninf, pinf => True
  | fin _, pinf => True
  | _, _ => False

/-- `a == 0` -/
def isZero : Dbl → Prop
  | fin a => a = 0
  | _ => False

open Classical in
/-- `std::fmin`: the other argument if one is NaN. -/
noncomputable def fmin (a b : Dbl) : Dbl :=
  match a, b with
  | nan, _ => b
  | _, nan => a
  | _, _ => if lt b a then b else a

open Classical in
/-- `std::fmax`: the other argument if one is NaN. -/
noncomputable def fmax (a b : Dbl) : Dbl :=
  match a, b with
  | nan, _ => b
  | _, nan => a
  | _, _ => if lt a b then b else a

/-- `std::floor` -/
noncomputable def floor : Dbl → Dbl
  | fin a => fin ⌊a⌋
  | d => d

/-- Conversion to a 32-bit unsigned type truncates; undefined if the truncated value
does not fit ([conv.fpint]). -/
noncomputable def toU32 : Dbl → Res Nat
  | fin a => if -1 < a ∧ a < 2 ^ 32 then .ok ⌊a⌋.toNat else .error .ub
  | _ => .error .ub

end Dbl

open Dbl

open Classical in
/-- `mean - sign * span * log(1 - 2 * abs(p - 0.5))`, the expression shared by
`Laplace` (noise.cc:18) and `InvCDF` (noise.cc:24). -/
noncomputable def laplaceExpr (A : FloatOps) (mean span p : Dbl) (sign : ℝ) : Dbl :=
  sub A mean (mul A (mul A (fin sign) span)
    (log A (sub A (fin 1) (mul A (fin 2) (abs (sub A p (fin (1 / 2))))))))

open Classical in
/-- `Laplace(mean, span)` (noise.cc:15-19); `v` and `u` are the results of the two
calls to `RandUniform`. -/
noncomputable def laplace (A : FloatOps) (mean span v u : Dbl) : Dbl :=
  laplaceExpr A mean span u (if lt v (fin (1 / 2)) then -1 else 1)

open Classical in
/-- `InvCDF(mean, span, prob)` (noise.cc:22-25). -/
noncomputable def invCDF (A : FloatOps) (mean span prob : Dbl) : Dbl :=
  laplaceExpr A mean span prob (if lt (fin (1 / 2)) prob then -1 else 1)

/-- `RandUniform` (noise.cc:30): `r` is the result of `rand()`, at most
`RAND_MAX = 2^31 - 1`. -/
noncomputable def randUniform (A : FloatOps) (r : Nat) : Dbl :=
  div A (fin (A.rnd r)) (fin (A.rnd (2 ^ 31 - 1)))

/-- `NoiseDistribution` (noise.h:25-47). -/
structure Dist where
  debug : Bool
  span : Dbl
  cutoff : Dbl

open Classical in
/-- The fields set by the constructor (noise.cc:47-57). -/
noncomputable def fields (A : FloatOps) (epsilon delta : Dbl) : Dist :=
  if isZero epsilon ∨ isZero delta then ⟨true, fin 0, fin 0⟩
  else
    let span := div A (fin 2) epsilon
    ⟨false, span, invCDF A (fin 0) span (div A delta (fin 2))⟩

/-- The noise domain check (noise.cc:58-63): `sample_t` and `index_t` are both
`uint32_t`, so the cast changes nothing. -/
noncomputable def domainCheck (A : FloatOps) (cutoff : Dbl) : Res Unit := do
  let max ← toU32 (floor (mul A (fin 2) cutoff))
  if max ≠ wrap32 max then .error .assertFail else .ok ()

/-- `NoiseDistribution::NoiseDistribution` (noise.cc:46-64). -/
noncomputable def Dist.new (A : FloatOps) (epsilon delta : Dbl) : Res Dist := do
  let d := fields A epsilon delta
  let _ ← domainCheck A d.cutoff
  .ok d

/-- `NoiseDistribution::SampleReal` (noise.cc:66-71). -/
noncomputable def Dist.sampleReal (A : FloatOps) (d : Dist) (v u : Dbl) : Res Nat :=
  toU32 (floor (fmax (fin 0) (add A d.cutoff (fmin d.cutoff (laplace A (fin 0) d.span v u)))))

/-- `Sample()` when `DPPIR_SAMPLE` is not defined, the default (noise.h:28-29). -/
noncomputable def Dist.sampleDefault (d : Dist) : Res Nat := toU32 d.cutoff

/-- `FindRange` (noise.cc:33-43).  `rnd` rounds the exact quotient
`1.0 * db_size / servers_count` to a double.  Dividing by 0 gives an infinity, whose
conversion is undefined.  `server_id * range_size` and the sum are computed in
`uint32_t`; `servers_count - 1` is an `int`. -/
def findRange (rnd : ℚ → ℚ) (serverId serversCount : BitVec 8) (dbSize : Nat) : Res (Nat × Nat) :=
  if serversCount.toNat ≤ dbSize then
    let ceil := ⌈rnd (dbSize / serversCount.toNat)⌉
    if serversCount = 0 ∨ ceil < 0 ∨ 2 ^ 32 ≤ ceil then .error .ub
    else
      let rangeSize := ceil.toNat
      let rangeStart := wrap32 (serverId.toNat * rangeSize)
      let rangeEnd := wrap32 (rangeStart + rangeSize)
      .ok (rangeStart, if (serverId.toNat : Int) = serversCount.toNat - 1 then dbSize else rangeEnd)
  else .error .assertFail

end DPPIR.Noise
