import Verif.Model.Additive
import Verif.Proofs.Types

namespace DPPIR.Additive

theorem add_mul_xor (a b s t : Nat) (ha : a < 256) (hb : b < 256) :
    (a + 256 * s) ^^^ (b + 256 * t) = (a ^^^ b) + 256 * (s ^^^ t) := by
  have hab : a ^^^ b < 256 := Nat.xor_lt_two_pow (n := 8) ha hb
  have h1 : ((a + 256 * s) ^^^ (b + 256 * t)) % 2 ^ 8 = a ^^^ b := by
    rw [Nat.xor_mod_two_pow]
    congr 1 <;> omega
  have h2 : ((a + 256 * s) ^^^ (b + 256 * t)) / 2 ^ 8 = s ^^^ t := by
    rw [← Nat.shiftRight_eq_div_pow, Nat.shiftRight_xor_distrib, Nat.shiftRight_eq_div_pow,
      Nat.shiftRight_eq_div_pow]
    congr 1 <;> omega
  omega

theorem natOfLE_xor4 (a0 a1 a2 a3 b0 b1 b2 b3 : Byte) :
    natOfLE [a0, a1, a2, a3] ^^^ natOfLE [b0, b1, b2, b3] =
      natOfLE [a0 ^^^ b0, a1 ^^^ b1, a2 ^^^ b2, a3 ^^^ b3] := by
  simp only [natOfLE]
  rw [add_mul_xor _ _ _ _ a0.isLt b0.isLt, add_mul_xor _ _ _ _ a1.isLt b1.isLt,
    add_mul_xor _ _ _ _ a2.isLt b2.isLt, add_mul_xor _ _ _ _ a3.isLt b3.isLt]
  simp [BitVec.toNat_xor]

theorem byte_of_natOfLE4 (c0 c1 c2 c3 : Byte) (j : Nat) (hj : j < 4) :
    BitVec.ofNat 8 (natOfLE [c0, c1, c2, c3] / 256 ^ j) = [c0, c1, c2, c3][j]'(by simpa using hj) := by
  have h0 := c0.isLt
  have h1 := c1.isLt
  have h2 := c2.isLt
  have h3 := c3.isLt
  apply BitVec.eq_of_toNat_eq
  rw [BitVec.toNat_ofNat]
  have : j = 0 ∨ j = 1 ∨ j = 2 ∨ j = 3 := by omega
  rcases this with rfl | rfl | rfl | rfl <;> simp [natOfLE] <;> omega

theorem natOfLE4_lt (c0 c1 c2 c3 : Byte) : natOfLE [c0, c1, c2, c3] < 2 ^ 32 := by
  have h := natOfLE_lt [c0, c1, c2, c3]
  simp only [List.length_cons, List.length_nil] at h
  omega

/-- The loop XORs whole words; on the words it visits this is the bytewise XOR. -/
theorem xorLoop_spec {n : Nat} (tally : (Fin n → Byte) → (Fin n → Byte)) (t0 share : Fin n → Byte)
    (i k : Nat) (dst : Fin n → Byte) (hk : 4 * (i + k) ≤ n)
    (hal : ∀ (d : Fin n → Byte) (j : Fin n), 4 * i ≤ j.val → d j = dst j → tally d j = t0 j) :
    xorLoop tally share i k dst =
      .ok (fun j => if 4 * i ≤ j.val ∧ j.val < 4 * (i + k) then t0 j ^^^ share j else dst j) := by
  induction k generalizing i dst with
  | zero =>
    simp only [xorLoop]
    congr 1
    funext j
    rw [if_neg (by omega)]
  | succ k ih =>
    have hi : 4 * i + 3 < n := by omega
    simp only [xorLoop, loadWord, storeWord, hi, dif_pos, if_true]
    show xorLoop tally share (i + 1) k _ = _
    rw [ih]
    · congr 1
      funext j
      have hd := fun j h => hal dst j h rfl
      by_cases hj : j.val / 4 = i
      · rw [if_neg (by omega), if_pos hj, if_pos (by omega)]
        rw [hd ⟨4 * i, by omega⟩ (by simp), hd ⟨4 * i + 1, by omega⟩ (by simp),
          hd ⟨4 * i + 2, by omega⟩ (by simp), hd ⟨4 * i + 3, by omega⟩ (by simp)]
        rw [← BitVec.ofNat_xor, BitVec.toNat_ofNat, natOfLE_xor4, Nat.mod_eq_of_lt (natOfLE4_lt _ _ _ _),
          byte_of_natOfLE4 _ _ _ _ _ (Nat.mod_lt _ (by decide))]
        have hjm : j.val = 4 * i + j.val % 4 := by omega
        have hm : j.val % 4 = 0 ∨ j.val % 4 = 1 ∨ j.val % 4 = 2 ∨ j.val % 4 = 3 := by omega
        rcases hm with h | h | h | h <;> simp only [h] <;> rw [h] at hjm
        · have : j = ⟨4 * i, by omega⟩ := Fin.ext hjm
          exact congrArg (fun q => t0 q ^^^ share q) this.symm
        · have : j = ⟨4 * i + 1, by omega⟩ := Fin.ext hjm
          exact congrArg (fun q => t0 q ^^^ share q) this.symm
        · have : j = ⟨4 * i + 2, by omega⟩ := Fin.ext hjm
          exact congrArg (fun q => t0 q ^^^ share q) this.symm
        · have : j = ⟨4 * i + 3, by omega⟩ := Fin.ext hjm
          exact congrArg (fun q => t0 q ^^^ share q) this.symm
      · by_cases hin : 4 * (i + 1) ≤ j.val ∧ j.val < 4 * (i + 1 + k)
        · rw [if_pos hin, if_pos (by omega)]
        · rw [if_neg hin, if_neg hj, if_neg (by omega)]
    · omega
    · intro d j hj hdj
      refine hal d j (by omega) ?_
      rw [hdj, if_neg (by omega)]

/-- `XOR` on 52-byte objects is the bytewise XOR, aliased or not. -/
theorem xor_ok (tally : Preshare → Preshare) (t0 share dst : Preshare)
    (hal : ∀ (d : Preshare) (j : Fin 52), d j = dst j → tally d j = t0 j) :
    xor tally share dst preshareSize = .ok (fun j => t0 j ^^^ share j) := by
  unfold xor
  rw [xorLoop_spec tally t0 share 0 _ dst (by decide) (fun d j _ h => hal d j h)]
  congr 1
  funext j
  rw [if_pos ⟨by omega, by have := j.isLt; simp only [preshareSize]; omega⟩]

/-- Bytewise XOR of 52-byte objects. -/
def bx (a b : Preshare) : Preshare := fun j => a j ^^^ b j

theorem bx_comm (a b : Preshare) : bx a b = bx b a := by
  funext j; exact BitVec.xor_comm _ _
theorem bx_assoc (a b c : Preshare) : bx (bx a b) c = bx a (bx b c) := by
  funext j; exact BitVec.xor_assoc _ _ _
theorem bx_self (a : Preshare) : bx a a = fun _ => 0 := by
  funext j; simp [bx]
theorem bx_zero (a : Preshare) : bx a (fun _ => 0) = a := by
  funext j; simp [bx]
theorem zero_bx (a : Preshare) : bx (fun _ => 0) a = a := by
  funext j; simp [bx]
theorem bx_cancel (a b : Preshare) : bx (bx a b) b = a := by
  rw [bx_assoc, bx_self, bx_zero]

theorem bx_right_comm (a b c : Preshare) : bx (bx a b) c = bx (bx a c) b := by
  rw [bx_assoc, bx_comm b c, ← bx_assoc]

theorem mem_ofMem (m : Fin 52 → Byte) : Response.mem (Response.ofMem m) = m := by
  unfold Response.mem Response.ofMem
  rw [Response.encode_decode _ (by simp), arrayOf_ofFn]

theorem ofMem_mem (r : Response) : Response.ofMem (Response.mem r) = r := by
  unfold Response.mem Response.ofMem
  rw [ofFn_arrayOf _ _ (by simp), Response.decode_encode]

theorem mem_inj {r r' : Response} (h : Response.mem r = Response.mem r') : r = r' := by
  rw [← ofMem_mem r, h, ofMem_mem]

/-- In-place reconstruction is the bytewise XOR. -/
theorem additiveReconstruct_ok (r : Response) (s : Preshare) :
    additiveReconstruct r s = .ok (Response.ofMem (bx (Response.mem r) s)) := by
  unfold additiveReconstruct
  rw [xor_ok id (Response.mem r) s _ (fun d j h => h)]
  rfl

theorem additiveReconstructInto_ok (r : Response) (s : Preshare) (t : Response) :
    additiveReconstructInto r s t = .ok (Response.ofMem (bx (Response.mem r) s)) := by
  unfold additiveReconstructInto
  rw [xor_ok (fun _ => Response.mem r) (Response.mem r) s _ (fun d j h => rfl)]
  rfl

/-- XOR of a list. -/
def bxAll (l : List Preshare) (a : Preshare) : Preshare := l.foldl bx a

theorem bxAll_zero (l : List Preshare) (a : Preshare) : bxAll l a = bx a (bxAll l (fun _ => 0)) := by
  induction l generalizing a with
  | nil => exact (bx_zero a).symm
  | cons s l ih =>
    show bxAll l (bx a s) = bx a (bxAll l (bx _ s))
    rw [ih (bx a s), ih (bx _ s), zero_bx, bx_assoc]

theorem bxAll_append (l l' : List Preshare) (a : Preshare) :
    bxAll (l ++ l') a = bxAll l' (bxAll l a) := List.foldl_append

theorem bxAll_perm {l l' : List Preshare} (h : l.Perm l') (a : Preshare) : bxAll l a = bxAll l' a :=
  h.foldl_eq' (fun x _ y _ z => bx_right_comm z x y) a

theorem sharesLoop_ok (rng : Nat → Preshare) (i k : Nat) (sh : List Preshare) (acc : Preshare) :
    sharesLoop rng i k sh acc =
      .ok (sh ++ (List.range' i k).map rng, bxAll ((List.range' i k).map rng) acc) := by
  induction k generalizing i sh acc with
  | zero => simp [sharesLoop, bxAll]
  | succ k ih =>
    simp only [sharesLoop]
    rw [xor_ok id acc (rng i) acc (fun d j h => h)]
    show sharesLoop rng (i + 1) k (sh ++ [rng i]) (bx acc (rng i)) = _
    rw [ih, List.range'_succ]
    simp [bxAll]

/-- Result of share generation. -/
theorem generate_ok (rng : Nat → Preshare) (n : Nat) (h1 : 1 ≤ n) (h2 : n < 2 ^ 57) :
    generateAdditiveSecretShares rng n =
      .ok ((List.range (n - 1)).map rng ++ [bxAll ((List.range (n - 1)).map rng) (fun _ => 0)]) := by
  have hw : wrap64 (n + 2 ^ 64 - 1) = n - 1 := by
    unfold wrap64
    rw [show n + 2 ^ 64 - 1 = (n - 1) + 2 ^ 64 by omega, Nat.add_mod_right]
    apply Nat.mod_eq_of_lt; omega
  unfold generateAdditiveSecretShares
  simp only [hw]
  rw [if_neg (by simp only [preshareSize]; omega), sharesLoop_ok]
  simp [List.range_eq_range']
  rfl

theorem reconstruct_all_ok (l : List Preshare) (r : Response) :
    l.foldlM additiveReconstruct r = .ok (Response.ofMem (bxAll l (Response.mem r))) := by
  induction l generalizing r with
  | nil => simp [bxAll, ofMem_mem]; rfl
  | cons s l ih =>
    rw [List.foldlM_cons, additiveReconstruct_ok]
    show List.foldlM additiveReconstruct _ l = _
    rw [ih, mem_ofMem]; rfl

end DPPIR.Additive
