import Verif.Model.Ndebug
import Verif.Proofs.Onion

/-!
# Onion encryption when assertions are compiled out
-/

namespace DPPIR.Onion
open DPPIR

theorem mul_step (idx : Nat) : (secretSize + sealBytes) * (idx + 1) = (secretSize + sealBytes) * idx + sealBytes + secretSize := by
  rw [Nat.mul_succ]
  omega

theorem drop_blit_after {α : Type} {buf : List α} {off n : Nat} {bytes : List α} (h : off + bytes.length ≤ n) (hn : off ≤ buf.length) :
    (buf.take off ++ bytes ++ buf.drop (off + bytes.length)).drop n = buf.drop n := by
  have h1 : (buf.take off ++ bytes).length = off + bytes.length := by simp; omega
  rw [List.drop_append, List.drop_eq_nil_of_le (by omega), h1, List.nil_append, List.drop_drop]
  congr 1
  omega

theorem encryptLoopNdebug_ok (secrets : List OfflineSecret) (total idx : Nat) (inp out : List Byte) (hi : inp.length = total)
    (ho : out.length = total) (ht : cipherSize idx ≤ total) (hs : idx ≤ secrets.length) :
    ∃ r, encryptLoopNdebug secrets idx (cipherSize idx) inp out = .ok (0, r) ∧ r.length = total ∧
      (∀ j (hj : j < idx), j % 2 = 1 → ((r.drop (cipherSize j + sealBytes)).take secretSize) = (secrets[j]'(by omega)).encode) ∧
      r.drop (cipherSize idx) = (if idx % 2 = 0 then inp else out).drop (cipherSize idx) := by
  induction idx generalizing inp out with
  | zero => exact ⟨inp, rfl, hi, by omega, rfl⟩
  | succ idx ih =>
    have e : cipherSize (idx + 1) = cipherSize idx + sealBytes + secretSize := mul_step idx
    have hlen : (secrets[idx]'(by omega)).encode.length = secretSize := OfflineSecret.encode_length _
    have hb : cipherSize idx + sealBytes + (secrets[idx]'(by omega)).encode.length ≤ inp.length := by omega
    obtain ⟨r, h1, h2, h3, h4⟩ := ih out (inp.take (cipherSize idx + sealBytes) ++ (secrets[idx]'(by omega)).encode ++
      inp.drop (cipherSize idx + sealBytes + (secrets[idx]'(by omega)).encode.length)) ho (by
        simp only [List.length_append, List.length_take, List.length_drop]
        omega) (by omega) (by omega)
    refine ⟨r, ?_, h2, ?_, ?_⟩
    · unfold encryptLoopNdebug
      rw [rd_eq_ok.2 (List.getElem?_eq_getElem (by omega)), bind_ok, e, subOff_ok (by omega), bind_ok, Nat.add_sub_cancel,
        blit_ok hb, bind_ok, subOff_ok (by omega), bind_ok, Nat.add_sub_cancel]
      exact h1
    · intro j hj hodd
      by_cases hji : j = idx
      · subst hji
        rw [if_neg (by omega)] at h4
        have h5 := congrArg (List.drop sealBytes) h4
        rw [List.drop_drop, List.drop_drop, drop_blit hb] at h5
        rw [h5, List.take_left' hlen]
      · exact h3 j (by omega) hodd
    · have h5 := congrArg (List.drop (sealBytes + secretSize)) h4
      rw [List.drop_drop, List.drop_drop, ← Nat.add_assoc, ← e] at h5
      rw [h5]
      by_cases hp : idx % 2 = 0
      · rw [if_pos hp, if_neg (by omega)]
      · rw [if_neg hp, if_pos (by omega)]
        exact drop_blit_after (by omega) (by omega)

/-- Every other secret does not matter. -/
theorem encryptLoopNdebug_congr (secrets secrets' : List OfflineSecret) (idx offset : Nat) (inp inp' out out' : List Byte)
    (hlen : inp.length = inp'.length ∧ out.length = out'.length)
    (hs : secrets.length = secrets'.length) (hodd : ∀ j, j % 2 = 1 → secrets[j]? = secrets'[j]?)
    (hf : if idx % 2 = 0 then inp = inp' else out = out') :
    encryptLoopNdebug secrets idx offset inp out = encryptLoopNdebug secrets' idx offset inp' out' := by
  induction idx generalizing offset inp inp' out out' with
  | zero =>
    rw [if_pos rfl] at hf
    subst hf
    rfl
  | succ idx ih =>
    unfold encryptLoopNdebug
    by_cases hj : idx < secrets.length
    · have hj' : idx < secrets'.length := by omega
      rw [rd_eq_ok.2 (List.getElem?_eq_getElem hj), rd_eq_ok.2 (List.getElem?_eq_getElem hj'), bind_ok, bind_ok]
      have hl : (secrets[idx]'hj).encode.length = secretSize := OfflineSecret.encode_length _
      have hl' : (secrets'[idx]'hj').encode.length = secretSize := OfflineSecret.encode_length _
      cases hoff : subOff offset secretSize with
      | error f => rfl
      | ok o =>
        rw [bind_ok, bind_ok]
        by_cases hb : o + secretSize ≤ inp.length
        · rw [blit_ok (by omega), blit_ok (by omega), bind_ok, bind_ok]
          cases hoff' : subOff o sealBytes with
          | error f => rfl
          | ok o' =>
            rw [bind_ok, bind_ok]
            refine ih o' _ _ _ _ ⟨hlen.2, by simp; omega⟩ ?_
            by_cases hp : idx % 2 = 0
            · rw [if_neg (by omega)] at hf
              rw [if_pos hp]
              exact hf
            · rw [if_pos (by omega)] at hf
              subst hf
              rw [if_neg hp]
              have := hodd idx (by omega)
              rw [List.getElem?_eq_getElem hj, List.getElem?_eq_getElem hj'] at this
              rw [Option.some.inj this]
        · unfold blit
          rw [if_neg (by omega), if_neg (by omega)]
          rfl
    · have h1 : secrets[idx]? = none := by simp; omega
      have h2 : secrets'[idx]? = none := by simp; omega
      unfold rd
      rw [h1, h2]
      rfl

end DPPIR.Onion
