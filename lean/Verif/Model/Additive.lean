import Verif.Model.Types

/-!
# Additive (XOR) secret sharing of responses (`DPPIR/sharing/additive.cc`)
-/

namespace DPPIR.Additive

/-- Reading the `i`-th `uint32_t` of a byte array (sharing/additive.cc:13-14,18). -/
def loadWord {n : Nat} (m : Fin n → Byte) (i : Nat) : Res (BitVec 32) :=
  if h : 4 * i + 3 < n then
    .ok (BitVec.ofNat 32 (natOfLE
      [m ⟨4 * i, by omega⟩, m ⟨4 * i + 1, by omega⟩, m ⟨4 * i + 2, by omega⟩, m ⟨4 * i + 3, h⟩]))
  else .error .ub

/-- Writing the `i`-th `uint32_t` of a byte array (sharing/additive.cc:15,18). -/
def storeWord {n : Nat} (m : Fin n → Byte) (i : Nat) (w : BitVec 32) : Res (Fin n → Byte) :=
  if 4 * i + 3 < n then
    .ok (fun j => if j.val / 4 = i then BitVec.ofNat 8 (w.toNat / 256 ^ (j.val % 4)) else m j)
  else .error .ub

/-- The loop of `XOR` from word `i`, `k` words to go (sharing/additive.cc:17-19).
`tally dst` is the current content of the memory `tally` points to: constant when
it does not overlap `dst`, and `dst` itself when the caller passes the same
pointer twice. -/
def xorLoop {n : Nat} (tally : (Fin n → Byte) → (Fin n → Byte)) (share : Fin n → Byte) :
    Nat → Nat → (Fin n → Byte) → Res (Fin n → Byte)
  | _, 0, dst => .ok dst
  | i, k + 1, dst => do
    let a ← loadWord (tally dst) i
    let b ← loadWord share i
    let dst' ← storeWord dst i (a ^^^ b)
    xorLoop tally share (i + 1) k dst'

/-- `XOR(tally, share, dst, sz)` (sharing/additive.cc:12-20) on arrays of `n`
bytes. -/
def xor {n : Nat} (tally : (Fin n → Byte) → (Fin n → Byte)) (share : Fin n → Byte)
    (dst : Fin n → Byte) (sz : Nat) : Res (Fin n → Byte) :=
  xorLoop tally share 0 (sz / 4) dst

/-- The loop of `GenerateAdditiveSecretShares` (sharing/additive.cc:28-33) with
`k` iterations to go; `rng i` are the bytes `randombytes_buf` delivers in
iteration `i`.  Line 32 passes `acc` both as tally and destination. -/
def sharesLoop (rng : Nat → Preshare) : Nat → Nat → List Preshare → Preshare →
    Res (List Preshare × Preshare)
  | _, 0, shares, acc => .ok (shares, acc)
  | i, k + 1, shares, acc => do
    let share := rng i
    let acc' ← xor id share acc preshareSize
    sharesLoop rng (i + 1) k (shares ++ [share]) acc'

/-- `GenerateAdditiveSecretShares(n)` (sharing/additive.cc:24-37).  The bound
`n - 1` is a `size_t` subtraction, so `n = 0` asks for 2^64-1 iterations.  A
vector cannot hold more than 2^63-1 bytes, so its growth then throws. -/
def generateAdditiveSecretShares (rng : Nat → Preshare) (n : Nat) : Res (List Preshare) :=
  let iterations := wrap64 (n + 2 ^ 64 - 1)
  if 2 ^ 63 ≤ (iterations + 1) * preshareSize then .error .exception
  else do
    let (shares, acc) ← sharesLoop rng 0 iterations [] (fun _ => 0)
    .ok (shares ++ [acc])

/-- The 52 bytes of a response in memory (types/types.h:69-75). -/
def Response.mem (r : Response) : Fin 52 → Byte := arrayOf 52 r.encode

/-- The response stored in 52 bytes of memory (types/types.h:69-75). -/
def Response.ofMem (m : Fin 52 → Byte) : Response := Response.decode (List.ofFn m)

/-- `AdditiveReconstruct(tally, share, target)` (sharing/additive.cc:39-44);
`target` is the previous content of the target, which may or may not be the
tally itself. -/
def additiveReconstructInto (tally : Response) (share : Preshare) (target : Response) :
    Res Response := do
  let m ← xor (fun _ => Response.mem tally) share (Response.mem target) preshareSize
  .ok (Response.ofMem m)

/-- `AdditiveReconstruct(r, share, &r)`: target and tally are the same object, as
in the callers `HandleQuery`, `HandleResponse` and `ReconstructResponse`
(sharing/additive.cc:39-44). -/
def additiveReconstruct (tally : Response) (share : Preshare) : Res Response := do
  let m ← xor id share (Response.mem tally) preshareSize
  .ok (Response.ofMem m)

end DPPIR.Additive
