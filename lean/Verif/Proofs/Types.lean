import Verif.Model.Types
import Mathlib.Tactic.Linarith
import Mathlib.Data.Nat.Bitwise
import Mathlib.Data.List.OfFn

namespace DPPIR

@[simp] theorem natLE_length (k v : Nat) : (natLE k v).length = k := by
  induction k generalizing v with
  | zero => rfl
  | succ k ih => simp [natLE, ih]

theorem natOfLE_natLE (k v : Nat) : natOfLE (natLE k v) = v % 256 ^ k := by
  induction k generalizing v with
  | zero => simp [natLE, natOfLE, Nat.mod_one]
  | succ k ih =>
    simp only [natLE, natOfLE, ih, BitVec.toNat_ofNat]
    have e : (256 : Nat) ^ (k + 1) = 2 ^ 8 * 256 ^ k := by rw [pow_succ, mul_comm]; rfl
    rw [e, Nat.mod_mul]; rfl

theorem natOfLE_lt (l : List Byte) : natOfLE l < 256 ^ l.length := by
  induction l with
  | nil => simp [natOfLE]
  | cons b t ih =>
    simp only [natOfLE, List.length_cons, pow_succ]
    have := b.isLt
    omega

theorem natLE_natOfLE (l : List Byte) : natLE l.length (natOfLE l) = l := by
  induction l with
  | nil => rfl
  | cons b t ih =>
    simp only [List.length_cons, natLE, natOfLE]
    have hb := b.isLt
    have h1 : (b.toNat + 256 * natOfLE t) / 256 = natOfLE t := by omega
    rw [h1, ih]
    congr 1
    apply BitVec.eq_of_toNat_eq
    rw [BitVec.toNat_ofNat]
    omega

theorem ofNat_natOfLE_natLE (w k : Nat) (v : BitVec w) (h : w = 8 * k) :
    BitVec.ofNat w (natOfLE (natLE k v.toNat)) = v := by
  rw [natOfLE_natLE, Nat.mod_eq_of_lt]
  · simp
  · have := v.isLt
    have e : (256 : Nat) ^ k = 2 ^ (8 * k) := by rw [Nat.pow_mul]
    rw [e, ← h]; exact this

theorem arrayOf_ofFn (n : Nat) (f : Fin n → Byte) : arrayOf n (List.ofFn f) = f := by
  funext i
  simp [arrayOf]

theorem ofFn_arrayOf (n : Nat) (l : List Byte) (h : l.length = n) : List.ofFn (arrayOf n l) = l := by
  apply List.ext_getElem
  · simp [h]
  · intro i h1 h2
    simp [arrayOf, h2]

@[simp] theorem Response.encode_length (r : Response) : r.encode.length = 52 := by
  simp [Response.encode]
@[simp] theorem Query.encode_length (q : Query) : q.encode.length = 12 := by
  simp [Query.encode]
@[simp] theorem OfflineSecret.encode_length (s : OfflineSecret) : s.encode.length = 76 := by
  simp [OfflineSecret.encode]

theorem Response.decode_encode (r : Response) : Response.decode r.encode = r := by
  cases r with
  | mk v s =>
    simp only [Response.decode, Response.encode]
    rw [List.take_left' (by simp), List.drop_left' (by simp),
      ofNat_natOfLE_natLE 32 4 v rfl, arrayOf_ofFn]

theorem Query.decode_encode (q : Query) : Query.decode q.encode = q := by
  cases q with
  | mk t v =>
    simp only [Query.decode, Query.encode]
    rw [List.take_left' (by simp), List.drop_left' (by simp), List.take_of_length_le (by simp),
      ofNat_natOfLE_natLE 64 8 t rfl, ofNat_natOfLE_natLE 32 4 v rfl]

theorem OfflineSecret.decode_encode (s : OfflineSecret) : OfflineSecret.decode s.encode = s := by
  cases s with
  | mk t n sh pr =>
    cases sh with
    | mk x y =>
      simp only [OfflineSecret.decode, OfflineSecret.encode]
      have e : natLE 8 t.toNat ++ natLE 8 n.toNat ++ natLE 4 x.toNat ++ natLE 4 y.toNat ++ List.ofFn pr
        = natLE 8 t.toNat ++ (natLE 8 n.toNat ++ (natLE 4 x.toNat ++ (natLE 4 y.toNat ++ List.ofFn pr))) := by
        simp
      rw [e]
      have d1 : (natLE 8 t.toNat ++ (natLE 8 n.toNat ++ (natLE 4 x.toNat ++ (natLE 4 y.toNat ++ List.ofFn pr)))).drop 8
        = natLE 8 n.toNat ++ (natLE 4 x.toNat ++ (natLE 4 y.toNat ++ List.ofFn pr)) := List.drop_left' (by simp)
      have d2 : (natLE 8 t.toNat ++ (natLE 8 n.toNat ++ (natLE 4 x.toNat ++ (natLE 4 y.toNat ++ List.ofFn pr)))).drop 16
        = natLE 4 x.toNat ++ (natLE 4 y.toNat ++ List.ofFn pr) := by
        rw [← List.drop_drop (i := 8) (j := 8), d1]; exact List.drop_left' (by simp)
      have d3 : (natLE 8 t.toNat ++ (natLE 8 n.toNat ++ (natLE 4 x.toNat ++ (natLE 4 y.toNat ++ List.ofFn pr)))).drop 20
        = natLE 4 y.toNat ++ List.ofFn pr := by
        rw [← List.drop_drop (i := 4) (j := 16), d2]; exact List.drop_left' (by simp)
      have d4 : (natLE 8 t.toNat ++ (natLE 8 n.toNat ++ (natLE 4 x.toNat ++ (natLE 4 y.toNat ++ List.ofFn pr)))).drop 24
        = List.ofFn pr := by
        rw [← List.drop_drop (i := 4) (j := 20), d3]; exact List.drop_left' (by simp)
      rw [d1, d2, d3, d4, List.take_left' (by simp), List.take_left' (by simp), List.take_left' (by simp),
        List.take_left' (by simp),
        ofNat_natOfLE_natLE 64 8 t rfl, ofNat_natOfLE_natLE 64 8 n rfl,
        ofNat_natOfLE_natLE 32 4 x rfl, ofNat_natOfLE_natLE 32 4 y rfl, arrayOf_ofFn]

theorem Response.encode_decode (l : List Byte) (h : l.length = 52) :
    (Response.decode l).encode = l := by
  simp only [Response.decode, Response.encode]
  have hl : (l.take 4).length = 4 := by simp [h]
  have hb : natOfLE (l.take 4) < 2 ^ 32 := by
    have := natOfLE_lt (l.take 4); rw [hl] at this; exact this
  rw [BitVec.toNat_ofNat, Nat.mod_eq_of_lt hb]
  have e := natLE_natOfLE (l.take 4)
  rw [hl] at e
  rw [e, ofFn_arrayOf _ _ (by simp [h]), List.take_append_drop]

theorem natLE_ofNat (w k : Nat) (l : List Byte) (h : l.length = k) (hw : 256 ^ k = 2 ^ w) :
    natLE k (BitVec.ofNat w (natOfLE l)).toNat = l := by
  subst h
  have hb := natOfLE_lt l
  rw [hw] at hb
  rw [BitVec.toNat_ofNat, Nat.mod_eq_of_lt hb, natLE_natOfLE]

theorem Query.encode_decode (l : List Byte) (h : l.length = 12) : (Query.decode l).encode = l := by
  simp only [Query.decode, Query.encode]
  rw [natLE_ofNat 64 8 _ (by simp [h]) (by norm_num), natLE_ofNat 32 4 _ (by simp [h]) (by norm_num),
    List.take_of_length_le (l := l.drop 8) (by simp [h]), List.take_append_drop]

theorem OfflineSecret.encode_decode (l : List Byte) (h : l.length = 76) : (OfflineSecret.decode l).encode = l := by
  simp only [OfflineSecret.decode, OfflineSecret.encode]
  rw [natLE_ofNat 64 8 _ (by simp [h]) (by norm_num), natLE_ofNat 64 8 _ (by simp [h]) (by norm_num),
    natLE_ofNat 32 4 _ (by simp [h]) (by norm_num), natLE_ofNat 32 4 _ (by simp [h]) (by norm_num), ofFn_arrayOf _ _ (by simp [h])]
  have e : ∀ (a b : Nat), (l.drop a).take b ++ l.drop (a + b) = l.drop a := by
    intro a b
    rw [← List.drop_drop, List.take_append_drop]
  rw [List.append_assoc, List.append_assoc, List.append_assoc, e 20 4, e 16 4, e 8 8, List.take_append_drop]

end DPPIR
