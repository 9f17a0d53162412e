import Verif.Model.Sockets
import Verif.Proofs.Base
import Verif.Proofs.Memory
import Mathlib.Tactic.Ring

/-!
# Lemmas on containers
-/

namespace DPPIR

/-- `n` consecutive blocks of `U` bytes. -/
def chunks (U n : Nat) (bytes : List Byte) : List (List Byte) :=
  (List.range n).map (fun i => (bytes.drop (i * U)).take U)

theorem chunks_length (U n : Nat) (bytes : List Byte) : (chunks U n bytes).length = n := by simp [chunks]

theorem mapM_ok {α β : Type} (l : List α) (f : α → Res β) (g : α → β) (h : ∀ a ∈ l, f a = .ok (g a)) :
    l.mapM f = .ok (l.map g) := by
  induction l with
  | nil => rfl
  | cons a t ih =>
    rw [List.mapM_cons, h a (by simp), ih (fun b hb => h b (by simp [hb]))]
    rfl

theorem readUnits_ok {mem : List Byte} {U n : Nat} (h : n * U ≤ mem.length) :
    readUnits mem U n = .ok (chunks U n mem) := by
  unfold readUnits chunks
  apply mapM_ok
  intro i hi
  rw [List.mem_range] at hi
  apply slice_ok
  have : (i + 1) * U ≤ n * U := Nat.mul_le_mul_right _ hi
  have h2 : (i + 1) * U = i * U + U := by ring
  omega

theorem chunks_succ (U n : Nat) (bytes : List Byte) :
    chunks U (n + 1) bytes = chunks U n bytes ++ [(bytes.drop (n * U)).take U] := by
  simp [chunks, List.range_succ]

theorem chunks_add (U a b : Nat) (bytes : List Byte) :
    chunks U (a + b) bytes = chunks U a bytes ++ chunks U b (bytes.drop (a * U)) := by
  induction b with
  | zero => simp [chunks]
  | succ b ih =>
    rw [← Nat.add_assoc, chunks_succ, ih, chunks_succ, List.append_assoc, List.drop_drop]
    congr 4
    ring

/-- The blocks only depend on the first `n * U` bytes. -/
theorem chunks_take (U n m : Nat) (bytes : List Byte) (h : n * U ≤ m) :
    chunks U n (bytes.take m) = chunks U n bytes := by
  unfold chunks
  apply List.map_congr_left
  intro i hi
  rw [List.mem_range] at hi
  have : (i + 1) * U ≤ n * U := Nat.mul_le_mul_right _ hi
  have h2 : (i + 1) * U = i * U + U := by ring
  rw [List.drop_take, List.take_take]
  congr 1
  omega

theorem chunks_flatten (U : Nat) (msgs : List (List Byte)) (rest : List Byte) (h : ∀ m ∈ msgs, m.length = U) :
    chunks U msgs.length (msgs.flatten ++ rest) = msgs := by
  induction msgs with
  | nil => rfl
  | cons m t ih =>
    have hm : m.length = U := h m (by simp)
    have := chunks_add U 1 t.length ((m :: t).flatten ++ rest)
    rw [List.length_cons, Nat.add_comm, this]
    simp only [List.flatten_cons, List.append_assoc, Nat.one_mul]
    rw [List.drop_left' hm, ih (fun x hx => h x (by simp [hx]))]
    simp [chunks, List.take_left' hm]

theorem flatten_length (U : Nat) (msgs : List (List Byte)) (h : ∀ m ∈ msgs, m.length = U) :
    msgs.flatten.length = msgs.length * U := by
  induction msgs with
  | nil => simp
  | cons m t ih =>
    simp only [List.flatten_cons, List.length_append, List.length_cons]
    rw [h m (by simp), ih (fun x hx => h x (by simp [hx]))]
    ring

theorem take_blit {buf : List Byte} {off : Nat} {bytes : List Byte} (h : off + bytes.length ≤ buf.length) :
    (buf.take off ++ bytes ++ buf.drop (off + bytes.length)).take (off + bytes.length) = buf.take off ++ bytes := by
  apply List.take_left'
  simp; omega

theorem memcpyWithin_ok {mem : List Byte} {src len : Nat} (hov : len ≤ src) (h : src + len ≤ mem.length) :
    ∃ mem', memcpyWithin mem 0 src len = .ok mem' ∧ mem'.length = mem.length ∧
      mem'.take len = (mem.drop src).take len := by
  unfold memcpyWithin
  by_cases h0 : len = 0
  · subst h0
    exact ⟨mem, by simp, rfl, by simp⟩
  · have hb : ((mem.drop src).take len).length = len := by simp; omega
    have hle : 0 + ((mem.drop src).take len).length ≤ mem.length := by rw [hb]; omega
    refine ⟨mem.take 0 ++ (mem.drop src).take len ++ mem.drop (0 + ((mem.drop src).take len).length), ?_, ?_, ?_⟩
    · rw [if_neg h0, if_pos (by left; omega), slice_ok h, bind_ok, blit_ok hle]
    · simp
      try omega
    · have := take_blit hle
      rw [hb, Nat.zero_add] at this
      rw [hb, Nat.zero_add, this]
      simp

/-! ## A common view of the two kinds of buffer -/

/-- `V b U C e l`: unit size `U`, capacity `C` units, `e` complete units held,
`l` bytes left over. -/
class LawfulBuffer (β : Type) [Buffer β] where
  V : β → Nat → Nat → Nat → Nat → Prop
  full {b : β} {U C e l : Nat} : V b U C e l → 0 < U → Buffer.full b = decide (e = C)
  unitSize {b : β} {U C e l : Nat} : V b U C e l → Buffer.unitSize b = U
  leftover {b : β} {U C e l : Nat} : V b U C e l → Buffer.leftover b = l
  toBuffer {b : β} {U C e l : Nat} : V b U C e l → Buffer.toBuffer b = l
  bufferSize {b : β} {U C e l : Nat} : V b U C e l → Buffer.bufferSize b = e * U
  bufferCapacity {b : β} {U C e l : Nat} : V b U C e l → C * U < 2 ^ 64 → l ≤ C * U →
    Buffer.bufferCapacity b = C * U - l
  update {b : β} {U C e l : Nat} {n : Nat} : V b U C e l → 0 < U → (n + l) / U < 2 ^ 32 →
    V (Buffer.update b n) U C ((n + l) / U) ((n + l) % U)
  clear {b : β} {U C e l : Nat} {mem : List Byte} : V b U C e l → 0 < U → l < U → e * U + l ≤ mem.length →
    ∃ b' mem', Buffer.clear b mem = .ok (b', mem') ∧ V b' U C 0 l ∧ mem'.length = mem.length ∧
      mem'.take l = (mem.drop (e * U)).take l
  pushBack {b : β} {U C e l : Nat} {mem v : List Byte} : V b U C e l → v.length = U →
    (e + 1) * U ≤ mem.length → e + 1 < 2 ^ 32 →
    ∃ b' mem', Buffer.pushBack b mem v = .ok (b', mem') ∧ V b' U C (e + 1) l ∧ mem'.length = mem.length ∧
      mem'.take ((e + 1) * U) = mem.take (e * U) ++ v
  elements {b : β} {U C e l : Nat} {mem : List Byte} : V b U C e l → 0 < U → e * U ≤ mem.length →
    Buffer.elements b mem = .ok (chunks U e mem)

theorem wrap64_sub {a b : Nat} (h : b ≤ a) (ha : a < 2 ^ 64) : wrap64 (a + 2 ^ 64 - b) = a - b := by
  unfold wrap64
  have : a + 2 ^ 64 - b = (a - b) + 2 ^ 64 := by omega
  rw [this, Nat.add_mod_right, Nat.mod_eq_of_lt (by omega)]

theorem pushAt {mem v : List Byte} {U e : Nat} (hv : v.length = U) (h : (e + 1) * U ≤ mem.length) :
    ∃ mem', (do let v ← slice v 0 U; blit mem (e * U) v) = .ok mem' ∧ mem'.length = mem.length ∧
      mem'.take ((e + 1) * U) = mem.take (e * U) ++ v := by
  have h2 : (e + 1) * U = e * U + U := by ring
  have hle : e * U + v.length ≤ mem.length := by rw [hv]; omega
  refine ⟨mem.take (e * U) ++ v ++ mem.drop (e * U + v.length), ?_, ?_, ?_⟩
  · rw [slice_ok (by omega), List.drop_zero, List.take_of_length_le (by omega), bind_ok, blit_ok hle]
  · simp; omega
  · have := take_blit hle
    rw [hv] at this ⊢
    rw [h2, this]

instance : LawfulBuffer LogicalBuffer where
  V b U C e l := b.unit = U ∧ b.capacity = C ∧ b.stop = e ∧ b.leftover = l
  full := by rintro b U C e l ⟨rfl, rfl, rfl, rfl⟩ _; rfl
  unitSize := by rintro b U C e l ⟨rfl, rfl, rfl, rfl⟩; rfl
  leftover := by rintro b U C e l ⟨rfl, rfl, rfl, rfl⟩; rfl
  toBuffer := by rintro b U C e l ⟨rfl, rfl, rfl, rfl⟩; rfl
  bufferSize := by rintro b U C e l ⟨rfl, rfl, rfl, rfl⟩; rfl
  bufferCapacity := by
    rintro b U C e l ⟨rfl, rfl, rfl, rfl⟩ h1 h2
    exact wrap64_sub h2 h1
  update := by
    rintro b U C e l n ⟨rfl, rfl, rfl, rfl⟩ _ h
    refine ⟨rfl, rfl, ?_, rfl⟩
    exact Nat.mod_eq_of_lt h
  clear := by
    rintro b U C e l mem ⟨rfl, rfl, rfl, rfl⟩ hU hl hm
    show ∃ b' mem', LogicalBuffer.clear b mem = .ok (b', mem') ∧ _
    unfold LogicalBuffer.clear
    by_cases h0 : b.stop > 0
    · have : 1 * b.unit ≤ b.stop * b.unit := Nat.mul_le_mul_right _ h0
      obtain ⟨mem', h1, h2, h3⟩ := memcpyWithin_ok (mem := mem) (src := b.stop * b.unit) (len := b.leftover)
        (by omega) hm
      exact ⟨{ b with stop := 0 }, mem', by rw [if_pos h0, h1]; rfl, ⟨rfl, rfl, rfl, rfl⟩, h2, h3⟩
    · have h0' : b.stop = 0 := by omega
      exact ⟨{ b with stop := 0 }, mem, by rw [if_neg h0], ⟨rfl, rfl, rfl, rfl⟩, rfl, by simp [h0']⟩
  pushBack := by
    rintro b U C e l mem v ⟨rfl, rfl, rfl, rfl⟩ hv hm he
    obtain ⟨mem', h1, h2, h3⟩ := pushAt hv hm
    refine ⟨{ b with stop := wrap32 (b.stop + 1) }, mem', ?_, ?_, h2, h3⟩
    · show LogicalBuffer.pushBack b mem v = _
      unfold LogicalBuffer.pushBack
      rw [bind_eq_ok] at h1
      obtain ⟨w, hw1, hw2⟩ := h1
      rw [hw1, bind_ok, hw2, bind_ok]
    · exact ⟨rfl, rfl, Nat.mod_eq_of_lt he, rfl⟩
  elements := by
    rintro b U C e l mem ⟨rfl, rfl, rfl, rfl⟩ _ h
    exact readUnits_ok h

instance : LawfulBuffer CipherLogicalBuffer where
  V b U C e l := b.cipherSize = U ∧ b.capacity = C * U ∧ b.stop = e * U ∧ b.leftover = l
  full := by
    rintro b U C e l ⟨h1, h2, h3, h4⟩ hU
    show decide (b.stop = b.capacity) = _
    rw [h2, h3]
    congr 1
    simp only [eq_iff_iff]
    constructor
    · intro h; exact Nat.eq_of_mul_eq_mul_right hU h
    · rintro rfl; rfl
  unitSize := by rintro b U C e l ⟨h1, h2, h3, h4⟩; exact h1
  leftover := by rintro b U C e l ⟨h1, h2, h3, h4⟩; exact h4
  toBuffer := by rintro b U C e l ⟨h1, h2, h3, h4⟩; exact h4
  bufferSize := by rintro b U C e l ⟨h1, h2, h3, h4⟩; exact h3
  bufferCapacity := by
    rintro b U C e l ⟨h1, h2, h3, h4⟩ ha hb
    show wrap64 (b.capacity + 2 ^ 64 - b.leftover) = _
    rw [h2, h4]
    exact wrap64_sub hb ha
  update := by
    rintro b U C e l n ⟨h1, h2, h3, h4⟩ _ h
    refine ⟨h1, h2, ?_, ?_⟩
    · show (n + b.leftover) - (n + b.leftover) % b.cipherSize = _
      rw [h1, h4]
      have := Nat.div_add_mod (n + l) U
      rw [Nat.mul_comm] at this
      omega
    · show (n + b.leftover) % b.cipherSize = _
      rw [h1, h4]
  clear := by
    rintro b U C e l mem ⟨h1, h2, h3, h4⟩ hU hl hm
    show ∃ b' mem', CipherLogicalBuffer.clear b mem = .ok (b', mem') ∧ _
    unfold CipherLogicalBuffer.clear
    by_cases h0 : b.stop > 0
    · have he : e ≠ 0 := by rintro rfl; simp at h3; omega
      have : 1 * U ≤ e * U := Nat.mul_le_mul_right _ (by omega)
      obtain ⟨mem', g1, g2, g3⟩ := memcpyWithin_ok (mem := mem) (src := e * U) (len := l) (by omega) hm
      exact ⟨{ b with stop := 0 }, mem', by rw [if_pos h0, h3, h4, g1]; rw [← h4]; rfl, ⟨h1, h2, by simp, h4⟩, g2, g3⟩
    · have h0' : e * U = 0 := by omega
      exact ⟨{ b with stop := 0 }, mem, by rw [if_neg h0], ⟨h1, h2, by simp, h4⟩, rfl, by simp [h0']⟩
  pushBack := by
    rintro b U C e l mem v ⟨h1, h2, h3, h4⟩ hv hm he
    obtain ⟨mem', g1, g2, g3⟩ := pushAt hv hm
    refine ⟨{ b with stop := b.stop + b.cipherSize }, mem', ?_, ?_, g2, g3⟩
    · show CipherLogicalBuffer.pushBack b mem v = _
      unfold CipherLogicalBuffer.pushBack
      rw [h1, h3]
      rw [bind_eq_ok] at g1
      obtain ⟨w, hw1, hw2⟩ := g1
      rw [hw1, bind_ok, hw2, bind_ok]
    · refine ⟨h1, h2, ?_, h4⟩
      simp only
      rw [h1, h3]
      ring
  elements := by
    rintro b U C e l mem ⟨h1, h2, h3, h4⟩ hU h
    show (if b.stop % b.cipherSize = 0 then readUnits mem b.cipherSize (b.stop / b.cipherSize) else .error .ub) = _
    rw [h1, h3, Nat.mul_mod_left, if_pos rfl, Nat.mul_div_cancel _ hU]
    exact readUnits_ok h

theorem logicalBuffer_new (SZ U : Nat) : LawfulBuffer.V (LogicalBuffer.new SZ U) U (SZ / U) 0 0 :=
  ⟨rfl, rfl, rfl, rfl⟩

theorem cipherLogicalBuffer_new (SZ U : Nat) : LawfulBuffer.V (CipherLogicalBuffer.new SZ U) U (SZ / U) 0 0 := by
  refine ⟨rfl, ?_, by simp [CipherLogicalBuffer.new], rfl⟩
  show SZ - SZ % U = _
  have := Nat.div_add_mod SZ U
  rw [Nat.mul_comm] at this
  omega

end DPPIR
