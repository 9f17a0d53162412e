import Verif.Spec.Onion
import Verif.Proofs.Memory
import Verif.Proofs.Types

namespace DPPIR.Onion
open DPPIR.Spec

theorem layered_length (box : SealedBox) (coins : Nat → box.Coins) (k : Nat)
    (ls : List (box.PKey × OfflineSecret)) (c : List Byte) (h : layered box coins k ls = some c) :
    c.length = cipherSize ls.length := by
  induction ls generalizing k c with
  | nil => cases h; simp [cipherSize]
  | cons l ls ih =>
    obtain ⟨pk, s⟩ := l
    simp only [layered, Option.bind_eq_bind, Option.bind_eq_some_iff] at h
    obtain ⟨inner, h1, h2⟩ := h
    rw [box.seal_length _ _ _ _ h2, List.length_append, ih _ _ h1]
    simp only [OfflineSecret.encode_length, List.length_cons, cipherSize, secretSize, sealBytes]
    omega

theorem layered_shift (box : SealedBox) (coins : Nat → box.Coins) (k : Nat)
    (ls : List (box.PKey × OfflineSecret)) :
    layered box (fun i => coins (i + 1)) k ls = layered box coins (k + 1) ls := by
  induction ls generalizing k with
  | nil => rfl
  | cons l ls ih =>
    obtain ⟨pk, s⟩ := l
    simp only [layered, ih]

theorem encryptLoop_ok (box : SealedBox) (coins : Nat → box.Coins) (secrets : List OfflineSecret)
    (first : Nat) (pkeys : List box.PKey) (skeys : List box.SKey) (n : Nat)
    (hsec : n ≤ secrets.length) (hk : first + n ≤ pkeys.length) (hgood : GoodKeys box pkeys skeys)
    (h8 : first + n ≤ 256) (ls : List (box.PKey × OfflineSecret))
    (hls : ls = ((pkeys.drop first).zip secrets).take n)
    (i : Nat) (hi : i ≤ n) (inp out : List Byte) (hil : inp.length = cipherSize n)
    (hol : out.length = cipherSize n)
    (hin : layered box coins i (ls.drop i) = some (inp.drop (cipherSize i))) :
    ∃ c, encryptLoop box coins secrets first pkeys (cipherSize n) i (cipherSize i) inp out = .ok (0, c) ∧
      layered box coins 0 ls = some c := by
  induction i generalizing inp out with
  | zero =>
    refine ⟨inp, by simp [encryptLoop, cipherSize], ?_⟩
    simpa [cipherSize] using hin
  | succ i ih =>
    have hll : ls.length = n := by rw [hls]; simp; omega
    have hlsi : ls.drop i = (pkeys[first + i]'(by omega), secrets[i]'(by omega)) :: ls.drop (i + 1) := by
      rw [List.drop_eq_getElem_cons (by omega)]
      congr 1
      simp [hls]
    have hpair := hgood.2 (first + i) (by omega) (by have := hgood.1; omega)
    have hci : cipherSize (i + 1) = cipherSize i + 124 := by simp only [cipherSize, secretSize, sealBytes]; omega
    have hcn : cipherSize (i + 1) ≤ cipherSize n := Nat.mul_le_mul_left _ hi
    unfold encryptLoop
    rw [rd_ok (by omega : i < secrets.length)]
    simp only [bind_ok]
    have e1 : cipherSize (i + 1) - secretSize = cipherSize i + 48 := by rw [hci]; simp only [secretSize]; omega
    rw [subOff_ok (by rw [hci]; simp only [secretSize]; omega), e1]
    simp only [bind_ok]
    rw [blit_ok (by rw [OfflineSecret.encode_length]; omega)]
    simp only [bind_ok]
    have hw : wrap8 (first + i) = first + i := by unfold wrap8; apply Nat.mod_eq_of_lt; omega
    rw [hw, rd_ok (by omega : first + i < pkeys.length)]
    simp only [bind_ok]
    have hdrop := drop_blit (buf := inp) (off := cipherSize i + 48) (bytes := secrets[i].encode)
      (by rw [OfflineSecret.encode_length]; omega)
    have hblen : (inp.take (cipherSize i + 48) ++ secrets[i].encode ++
      inp.drop (cipherSize i + 48 + secrets[i].encode.length)).length = cipherSize n := by
      simp only [List.length_append, List.length_take, List.length_drop, OfflineSecret.encode_length]
      omega
    rw [slice_ok (by rw [hblen]; omega)]
    simp only [bind_ok]
    rw [hdrop]
    have e2 : cipherSize i + 48 + secrets[i].encode.length = cipherSize (i + 1) := by
      rw [OfflineSecret.encode_length]; omega
    rw [e2, List.take_of_length_le (by
      simp only [List.length_append, OfflineSecret.encode_length, List.length_drop]; omega)]
    rw [subOff_ok (by simp only [sealBytes]; omega)]
    simp only [bind_ok]
    obtain ⟨c, hc1, hc2, hc3⟩ := box.seal_open (coins i) _ _
      (secrets[i].encode ++ inp.drop (cipherSize (i + 1))) hpair
    rw [hc1]
    simp only
    have hcl : c.length = cipherSize n - cipherSize i := by
      rw [hc2, List.length_append, OfflineSecret.encode_length, List.length_drop]
      simp only [sealBytes]
      omega
    have e3 : cipherSize i + 48 - sealBytes = cipherSize i := by simp [sealBytes]
    rw [e3, blit_ok (by rw [hcl, hol]; omega)]
    simp only [bind_ok]
    apply ih (by omega)
    · simp only [List.length_append, List.length_take, List.length_drop, hcl, hol]; omega
    · rw [← e2]; exact hblen
    · rw [drop_blit (by rw [hcl, hol]; omega), List.drop_of_length_le (l := out) (by rw [hcl, hol]; omega),
        List.append_nil, hlsi]
      simp only [layered, hin, Option.bind_eq_bind, Option.bind_some]
      exact hc1

theorem onionEncrypt_ok (box : SealedBox) (coins : Nat → box.Coins) (junk junk' : Nat → Byte)
    (secrets : List OfflineSecret) (first count : Nat) (pkeys : List box.PKey) (skeys : List box.SKey)
    (hgood : GoodKeys box pkeys skeys) (hfc : first ≤ count) (hc : count ≤ 255) (hp : count ≤ pkeys.length)
    (hs : count - first ≤ secrets.length) :
    ∃ c, onionEncrypt box coins junk junk' secrets first count pkeys = .ok c ∧
      layered box coins 0 (((pkeys.drop first).zip secrets).take (count - first)) = some c := by
  have hw : wrap8 (count + 256 - first) = count - first := by
    unfold wrap8
    rw [show count + 256 - first = (count - first) + 256 by omega, Nat.add_mod_right]
    apply Nat.mod_eq_of_lt; omega
  unfold onionEncrypt
  simp only [hw]
  obtain ⟨c, h1, h2⟩ := encryptLoop_ok box coins secrets first pkeys skeys (count - first) hs (by omega) hgood
    (by omega) _ rfl (count - first) (le_refl _)
    ((List.range (cipherSize (count - first))).map junk) ((List.range (cipherSize (count - first))).map junk')
    (by simp) (by simp) (by
      rw [List.drop_of_length_le (by simp), List.drop_of_length_le (by simp)]
      rfl)
  refine ⟨c, ?_, h2⟩
  rw [h1]
  simp [assert]

theorem peel_one (box : SealedBox) (coins : Nat → box.Coins) (k : Nat) (pk : box.PKey) (sk : box.SKey)
    (s : OfflineSecret) (rest : List (box.PKey × OfflineSecret)) (c tail : List Byte)
    (hpair : box.IsPair pk sk) (h : layered box coins k ((pk, s) :: rest) = some c) :
    ∃ layer, onionDecrypt box (c ++ tail) (rest.length + 1) pk sk = .ok layer ∧
      layer.msg = .ok s ∧ layered box coins (k + 1) rest = some layer.nextLayer := by
  have hlen := layered_length box coins k _ c h
  simp only [layered, Option.bind_eq_bind, Option.bind_eq_some_iff] at h
  obtain ⟨inner, h1, h2⟩ := h
  obtain ⟨c', h3, h4, h5⟩ := box.seal_open (coins k) pk sk (s.encode ++ inner) hpair
  rw [h2] at h3
  cases h3
  refine ⟨⟨s.encode ++ inner⟩, ?_, ?_, ?_⟩
  · unfold onionDecrypt
    simp only
    rw [if_neg (by simp only [cipherSize, secretSize, sealBytes]; omega), slice_zero (by simpa using hlen)]
    simp only [bind_ok, h5]
  · unfold OnionLayer.msg
    rw [slice_zero (by simp)]
    simp only [bind_ok]
    rw [OfflineSecret.decode_encode]
  · rw [h1]
    unfold OnionLayer.nextLayer
    simp only
    rw [List.drop_left' (by simp)]

theorem peelAll_ok (box : SealedBox) (coins : Nat → box.Coins) (k : Nat)
    (keys : List (box.PKey × box.SKey)) (secrets : List OfflineSecret) (c tail : List Byte)
    (hpair : ∀ e ∈ keys, box.IsPair e.1 e.2) (hlen : secrets.length = keys.length)
    (h : layered box coins k ((keys.map Prod.fst).zip secrets) = some c) :
    peelAll box keys (c ++ tail) = .ok secrets := by
  induction keys generalizing k secrets c tail with
  | nil =>
    have : secrets = [] := List.length_eq_zero_iff.1 (by simpa using hlen)
    subst this
    rfl
  | cons e keys ih =>
    obtain ⟨pk, sk⟩ := e
    cases secrets with
    | nil => simp at hlen
    | cons s secrets =>
      simp only [List.length_cons, Nat.add_right_cancel_iff] at hlen
      simp only [List.map_cons, List.zip_cons_cons] at h
      obtain ⟨layer, h1, h2, h3⟩ := peel_one box coins k pk sk s _ c tail
        (hpair _ List.mem_cons_self) h
      have hl : ((keys.map Prod.fst).zip secrets).length = keys.length := by simp [hlen]
      rw [hl] at h1
      have := ih (k + 1) secrets layer.nextLayer [] (fun e he => hpair e (List.mem_cons_of_mem _ he)) hlen h3
      rw [List.append_nil] at this
      simp only [peelAll, h1, h2, this, bind_ok]

end DPPIR.Onion
