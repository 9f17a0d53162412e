/-!
# Base conventions of the model

Outcomes of C++ code that does not return normally, checked memory accesses and
fixed-width integers.  No file of /repo is modelled here.
-/

namespace DPPIR

/-- The ways in which a call can fail to return normally.

* `ub`: undefined behaviour (out-of-bounds access, signed overflow, dereferencing
  an end iterator or null pointer, ...).
* `assertFail`: a failed `assert` (abort), or libsodium's/`exit(1)`-style stop.
* `exception`: a C++ exception escapes (`std::terminate`).
* `hang`: the call never returns. -/
inductive Fault where
  | ub
  | assertFail
  | exception
  | hang
  deriving DecidableEq, Repr

/-- Result of a modelled call. -/
abbrev Res (α : Type) := Except Fault α

/-- `assert(b)` with assertions enabled. -/
def assert (b : Bool) : Res Unit := if b then .ok () else .error .assertFail

/-- Read `p[i]` from an array; out of range is undefined behaviour. -/
def rd {α : Type} (p : List α) (i : Nat) : Res α :=
  match p[i]? with
  | some a => .ok a
  | none => .error .ub

/-- Write `p[i] = v` into an array; out of range is undefined behaviour. -/
def wr {α : Type} (p : List α) (i : Nat) (v : α) : Res (List α) :=
  if i < p.length then .ok (p.set i v) else .error .ub

/-- Reduction of an unsigned result to 8 bits. -/
def wrap8 (n : Nat) : Nat := n % 2 ^ 8
/-- Reduction of an unsigned result to 32 bits (`uint32_t`, `index_t`, ...). -/
def wrap32 (n : Nat) : Nat := n % 2 ^ 32
/-- Reduction of an unsigned result to 64 bits (`uint64_t`, `size_t`). -/
def wrap64 (n : Nat) : Nat := n % 2 ^ 64

/-- Result of a signed 64-bit operation: overflow is undefined behaviour. -/
def int64 (z : Int) : Res Int :=
  if -(2 ^ 63) ≤ z ∧ z < 2 ^ 63 then .ok z else .error .ub

/-- `n` iterations of a counting loop, the first with counter `i`. -/
def forUp {σ : Type} : Nat → Nat → (Nat → σ → Res σ) → σ → Res σ
  | 0, _, _, s => .ok s
  | n + 1, i, f, s => do
    let s' ← f i s
    forUp n (i + 1) f s'

/-- `for (i = a; i < b; i++) s = f(i, s)`. -/
def forRange {σ : Type} (a b : Nat) (f : Nat → σ → Res σ) (s : σ) : Res σ :=
  forUp (b - a) a f s

/-- A byte of memory. -/
abbrev Byte := BitVec 8

end DPPIR
