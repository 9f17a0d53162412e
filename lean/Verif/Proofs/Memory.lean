import Verif.Model.Memory
import Verif.Proofs.Base

namespace DPPIR

theorem slice_ok {α : Type} {buf : List α} {off len : Nat} (h : off + len ≤ buf.length) :
    slice buf off len = .ok ((buf.drop off).take len) := by simp [slice, h]

theorem slice_zero {α : Type} {a b : List α} {n : Nat} (h : a.length = n) :
    slice (a ++ b) 0 n = .ok a := by
  rw [slice_ok (by simp; omega)]
  subst h
  simp

theorem blit_ok {α : Type} {buf : List α} {off : Nat} {bytes : List α} (h : off + bytes.length ≤ buf.length) :
    blit buf off bytes = .ok (buf.take off ++ bytes ++ buf.drop (off + bytes.length)) := by simp [blit, h]

theorem blit_length {α : Type} {buf buf' : List α} {off : Nat} {bytes : List α}
    (h : blit buf off bytes = .ok buf') : buf'.length = buf.length := by
  unfold blit at h
  split at h
  · cases h
    simp
    omega
  · cases h

theorem drop_blit {α : Type} {buf : List α} {off : Nat} {bytes : List α} (h : off + bytes.length ≤ buf.length) :
    (buf.take off ++ bytes ++ buf.drop (off + bytes.length)).drop off = bytes ++ buf.drop (off + bytes.length) := by
  rw [List.append_assoc, List.drop_left' (by simp; omega)]

theorem subOff_ok {a b : Nat} (h : b ≤ a) : subOff a b = .ok (a - b) := by simp [subOff, h]

end DPPIR
