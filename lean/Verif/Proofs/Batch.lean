import Verif.Proofs.Containers
import Verif.Proofs.State

/-!
# Single steps on batches
-/

namespace DPPIR

/-- The cipher batch holds the short ciphers `shorts` from the start, and the long
ciphers `rest` between its two long pointers. -/
structure CipherBatch.Holds (b : CipherBatch) (shorts rest : List (List Byte)) : Prop where
  shortLen : ∀ v ∈ shorts, v.length = b.shortSize
  longLen : ∀ v ∈ rest, v.length = b.longSize
  lastShort : b.lastShort = shorts.length * b.shortSize
  lastLong : b.lastLong = b.firstLong + rest.length * b.longSize
  shortMem : b.mem.take b.lastShort = shorts.flatten
  longMem : (b.mem.drop b.firstLong).take (rest.length * b.longSize) = rest.flatten
  room : b.lastShort ≤ b.firstLong
  inside : b.lastLong ≤ b.mem.length

namespace CipherBatch

theorem holds_initialize (b : CipherBatch) (n m : Nat) : (b.initialize n m).Holds [] [] :=
  ⟨by simp, by simp, by simp [CipherBatch.initialize], by simp [CipherBatch.initialize], by simp [CipherBatch.initialize], by simp,
    by simp [CipherBatch.initialize], by simp [CipherBatch.initialize]⟩

theorem Holds.pushShort {b : CipherBatch} {shorts rest : List (List Byte)} (h : b.Holds shorts rest)
    (v w : List Byte) (hv : v.length = b.shortSize) (hroom : b.lastShort + b.shortSize ≤ b.firstLong) :
    ∃ mem, b.pushShort (v ++ w) = .ok { b with mem := mem, lastShort := b.lastShort + b.shortSize } ∧
      mem.length = b.mem.length ∧
      Holds { b with mem := mem, lastShort := b.lastShort + b.shortSize } (shorts ++ [v]) rest := by
  have hin := h.inside
  have hll := h.lastLong
  have hle : b.lastShort + v.length ≤ b.mem.length := by rw [hv]; omega
  refine ⟨b.mem.take b.lastShort ++ v ++ b.mem.drop (b.lastShort + v.length), ?_, ?_, ?_⟩
  · unfold CipherBatch.pushShort
    rw [slice_zero hv, bind_ok, blit_ok hle, bind_ok]
  · simp; omega
  · refine ⟨?_, h.longLen, ?_, hll, ?_, ?_, hroom, ?_⟩
    · intro x hx
      rw [List.mem_append, List.mem_singleton] at hx
      rcases hx with hx | rfl
      · exact h.shortLen x hx
      · exact hv
    · show b.lastShort + b.shortSize = _
      rw [h.lastShort, List.length_append, List.length_singleton]
      simp only
      ring
    · show List.take (b.lastShort + b.shortSize) _ = _
      rw [← hv, take_blit hle, h.shortMem]
      simp
    · show List.take _ (List.drop b.firstLong _) = _
      rw [← h.longMem]
      congr 1
      have hA : (b.mem.take b.lastShort ++ v).length = b.lastShort + v.length := by simp; omega
      rw [List.drop_append, List.drop_of_length_le (by rw [hA, hv]; omega), List.nil_append, List.drop_drop, hA]
      congr 1
      omega
    · show b.lastLong ≤ _
      simp; omega

theorem Holds.pushLong {b : CipherBatch} {shorts rest : List (List Byte)} (h : b.Holds shorts rest)
    (v : List Byte) (hv : v.length = b.longSize) (hroom : b.lastLong + b.longSize ≤ b.mem.length) :
    ∃ mem, b.pushLong v = .ok { b with mem := mem, lastLong := b.lastLong + b.longSize } ∧
      mem.length = b.mem.length ∧
      Holds { b with mem := mem, lastLong := b.lastLong + b.longSize } shorts (rest ++ [v]) := by
  have hin := h.inside
  have hll := h.lastLong
  have hro := h.room
  have hle : b.lastLong + v.length ≤ b.mem.length := by rw [hv]; omega
  refine ⟨b.mem.take b.lastLong ++ v ++ b.mem.drop (b.lastLong + v.length), ?_, ?_, ?_⟩
  · unfold CipherBatch.pushLong
    have := slice_zero (b := []) hv
    rw [List.append_nil] at this
    rw [this, bind_ok, blit_ok hle, bind_ok]
  · simp; omega
  · refine ⟨h.shortLen, ?_, h.lastShort, ?_, ?_, ?_, hro, ?_⟩
    · intro x hx
      rw [List.mem_append, List.mem_singleton] at hx
      rcases hx with hx | rfl
      · exact h.longLen x hx
      · exact hv
    · show b.lastLong + b.longSize = _
      rw [hll, List.length_append, List.length_singleton]
      simp only
      ring
    · show List.take b.lastShort _ = _
      rw [← h.shortMem, List.append_assoc, List.take_append_of_le_length (by simp; omega), List.take_take]
      congr 1
      omega
    · show List.take ((rest ++ [v]).length * b.longSize) (List.drop b.firstLong _) = _
      have e : (b.mem.take b.lastLong).drop b.firstLong = rest.flatten := by
        rw [List.drop_take, ← h.longMem]
        congr 1
        omega
      have hfl := flatten_length _ _ h.longLen
      rw [List.append_assoc, List.drop_append_of_le_length (by simp; omega), e, ← List.append_assoc,
        List.take_left' (by simp [hv, hfl]; ring)]
      simp
    · show b.lastLong + b.longSize ≤ _
      simp; omega

theorem Holds.popLong {b : CipherBatch} {shorts rest : List (List Byte)} {v : List Byte}
    (h : b.Holds shorts (v :: rest)) :
    b.hasLong = decide (0 < b.longSize) ∧ (∃ tail, b.popLong.1 = v ++ tail) ∧
      b.popLong.2.Holds shorts rest := by
  have hin := h.inside
  have hll := h.lastLong
  have hro := h.room
  have hv := h.longLen v List.mem_cons_self
  have hml := h.longMem
  rw [List.length_cons] at hll hml
  have e : (rest.length + 1) * b.longSize = b.longSize + rest.length * b.longSize := by ring
  rw [e] at hll hml
  refine ⟨?_, ?_, ?_⟩
  · unfold CipherBatch.hasLong
    rw [decide_eq_decide]
    constructor
    · intro hlt
      by_contra h0
      have : b.longSize = 0 := by omega
      rw [this] at hll
      omega
    · intro; omega
  · refine ⟨(b.mem.drop b.firstLong).drop v.length, ?_⟩
    have h1 : (b.mem.drop b.firstLong).take v.length = v := by
      have := congrArg (List.take v.length) hml
      rw [List.take_take, List.flatten_cons, List.take_left, hv, Nat.min_eq_left (by omega)] at this
      rw [hv]; exact this
    show b.mem.drop b.firstLong = _
    conv_lhs => rw [← List.take_append_drop v.length (b.mem.drop b.firstLong), h1]
  · refine ⟨h.shortLen, fun x hx => h.longLen x (List.mem_cons_of_mem _ hx), h.lastShort, ?_, h.shortMem, ?_, ?_, hin⟩
    · show b.lastLong = b.firstLong + b.longSize + rest.length * b.longSize
      omega
    · show List.take (rest.length * b.longSize) (List.drop (b.firstLong + b.longSize) b.mem) = _
      have := congrArg (List.drop v.length) hml
      rw [List.flatten_cons, List.drop_left, List.drop_take, List.drop_drop, hv, Nat.add_sub_cancel_left] at this
      exact this
    · show b.lastShort ≤ b.firstLong + b.longSize
      omega

theorem Holds.empty {b : CipherBatch} {shorts : List (List Byte)} (h : b.Holds shorts []) : b.hasLong = false := by
  unfold CipherBatch.hasLong
  have := h.lastLong
  simp at this
  simp [this]

theorem Holds.getShort {b : CipherBatch} {shorts rest : List (List Byte)} (h : b.Holds shorts rest) (i : Nat)
    (hi : i < shorts.length) : slice (b.getShort i) 0 b.shortSize = .ok shorts[i] := by
  have hin := h.inside
  have hll := h.lastLong
  have hro := h.room
  have hls := h.lastShort
  have e1 : (i + 1) * b.shortSize ≤ shorts.length * b.shortSize := Nat.mul_le_mul_right _ hi
  have e2 : (i + 1) * b.shortSize = i * b.shortSize + b.shortSize := by ring
  unfold CipherBatch.getShort
  rw [slice_ok (by simp; omega), List.drop_zero]
  have hc := chunks_flatten b.shortSize shorts [] h.shortLen
  rw [List.append_nil, ← h.shortMem, chunks_take _ _ _ _ (by omega)] at hc
  have hg := congrArg (fun l => l[i]?) hc
  simp only [chunks, List.getElem?_map, List.getElem?_range hi, Option.map_some, List.getElem?_eq_getElem hi] at hg
  exact congrArg _ (Option.some.inj hg)

end CipherBatch
end DPPIR
