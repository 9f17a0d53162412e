import Verif.Proofs.Onion

/-!
# C07, C08: onion encryption
-/

namespace DPPIR.Props
open DPPIR.Onion DPPIR.Spec

/-- **C07.** `OnionEncrypt` computes the layered encryption of the parties' secrets,
for every content of the uninitialised buffers. -/
theorem C07_onion_is_layered (box : SealedBox) (coins : Nat → box.Coins) (junk junk' : Nat → Byte)
    (secrets : List OfflineSecret) (first count : Nat) (pkeys : List box.PKey) (skeys : List box.SKey)
    (hgood : GoodKeys box pkeys skeys) (hfc : first ≤ count) (hc : count ≤ 255) (hp : count ≤ pkeys.length)
    (hs : count - first ≤ secrets.length) :
    ∃ c, onionEncrypt box coins junk junk' secrets first count pkeys = .ok c ∧
      layered box coins 0 (((pkeys.drop first).zip secrets).take (count - first)) = some c :=
  onionEncrypt_ok box coins junk junk' secrets first count pkeys skeys hgood hfc hc hp hs

/-- **C07.** Peeling one layer as party `first` gives that party's secret, and what
is left is exactly the onion `OnionEncrypt` makes for the remaining parties (with
the same sealing randomness).  `tail` is whatever memory follows the cipher. -/
theorem C07_onion_peel (box : SealedBox) (coins : Nat → box.Coins) (junk junk' : Nat → Byte)
    (secrets : List OfflineSecret) (first count : Nat) (pkeys : List box.PKey) (skeys : List box.SKey)
    (hgood : GoodKeys box pkeys skeys) (hfc : first < count) (hc : count ≤ 255) (hp : count ≤ pkeys.length)
    (hs : count - first ≤ secrets.length) (c tail : List Byte)
    (henc : onionEncrypt box coins junk junk' secrets first count pkeys = .ok c) :
    ∃ layer, onionDecrypt box (c ++ tail) (count - first) (pkeys[first]'(by omega))
        (skeys[first]'(by have := hgood.1; omega)) = .ok layer ∧
      layer.msg = .ok (secrets[0]'(by omega)) ∧
      ∀ junk2 junk3, onionEncrypt box (fun k => coins (k + 1)) junk2 junk3 (secrets.drop 1) (first + 1) count
        pkeys = .ok layer.nextLayer := by
  obtain ⟨c', h1, h2⟩ := onionEncrypt_ok box coins junk junk' secrets first count pkeys skeys hgood
    (le_of_lt hfc) hc hp hs
  rw [henc] at h1
  have := Except.ok.inj h1
  subst this
  have hsplit : ((pkeys.drop first).zip secrets).take (count - first) =
      (pkeys[first]'(by omega), secrets[0]'(by omega)) ::
        ((pkeys.drop (first + 1)).zip (secrets.drop 1)).take (count - (first + 1)) := by
    rw [List.drop_eq_getElem_cons (by omega : first < pkeys.length)]
    conv_lhs => rw [show secrets = secrets[0]'(by omega) :: secrets.drop 1 by
      rw [← List.drop_eq_getElem_cons (by omega), List.drop_zero]]
    rw [List.zip_cons_cons, show count - first = (count - (first + 1)) + 1 by omega, List.take_succ_cons]
  rw [hsplit] at h2
  obtain ⟨layer, h3, h4, h5⟩ := peel_one box coins 0 _ _ _ _ c tail (hgood.2 first (by omega)
    (by have := hgood.1; omega)) h2
  have hl : (((pkeys.drop (first + 1)).zip (secrets.drop 1)).take (count - (first + 1))).length + 1 =
      count - first := by simp; omega
  rw [hl] at h3
  refine ⟨layer, h3, h4, ?_⟩
  intro junk2 junk3
  obtain ⟨c2, h6, h7⟩ := onionEncrypt_ok box (fun k => coins (k + 1)) junk2 junk3 (secrets.drop 1) (first + 1)
    count pkeys skeys hgood hfc hc hp (by simp; omega)
  rw [layered_shift, h5] at h7
  rw [h6]
  exact congrArg _ (Option.some.inj h7).symm

/-- **C07.** All parties in chain order obtain exactly their own secrets. -/
theorem C07_onion_roundtrip (box : SealedBox) (coins : Nat → box.Coins) (junk junk' : Nat → Byte)
    (secrets : List OfflineSecret) (first count : Nat) (pkeys : List box.PKey) (skeys : List box.SKey)
    (hgood : GoodKeys box pkeys skeys) (hfc : first ≤ count) (hc : count ≤ 255) (hp : count = pkeys.length)
    (hs : secrets.length = count - first) (tail : List Byte) :
    ∃ c, onionEncrypt box coins junk junk' secrets first count pkeys = .ok c ∧
      peelAll box ((pkeys.drop first).zip (skeys.drop first)) (c ++ tail) = .ok secrets := by
  obtain ⟨c, h1, h2⟩ := onionEncrypt_ok box coins junk junk' secrets first count pkeys skeys hgood hfc hc
    (le_of_eq hp) (le_of_eq hs.symm)
  have hkl := hgood.1
  refine ⟨c, h1, peelAll_ok box coins 0 _ secrets c tail ?_ (by simp; omega) ?_⟩
  · intro e he
    obtain ⟨i, hi, rfl⟩ := List.getElem_of_mem he
    simp at hi
    simp only [List.getElem_zip, List.getElem_drop]
    exact hgood.2 _ _ _
  · rw [List.map_fst_zip (by simp; omega)]
    rw [List.take_of_length_le (by simp; omega)] at h2
    exact h2

/-- **C08.** The onion has exactly the announced size, and each peel shortens it by
exactly one layer.  (That all buffer accesses are in bounds and the final sanity
check passes is part of the calls returning `.ok`.) -/
theorem C08_onion_sizes (box : SealedBox) (coins : Nat → box.Coins) (junk junk' : Nat → Byte)
    (secrets : List OfflineSecret) (first count : Nat) (pkeys : List box.PKey) (skeys : List box.SKey)
    (hgood : GoodKeys box pkeys skeys) (hfc : first ≤ count) (hc : count ≤ 255) (hp : count ≤ pkeys.length)
    (hs : count - first ≤ secrets.length) :
    ∃ c, onionEncrypt box coins junk junk' secrets first count pkeys = .ok c ∧
      c.length = cipherSize (count - first) ∧ c.length = 124 * (count - first) := by
  obtain ⟨c, h1, h2⟩ := onionEncrypt_ok box coins junk junk' secrets first count pkeys skeys hgood hfc hc hp hs
  have hl : (((pkeys.drop first).zip secrets).take (count - first)).length = count - first := by simp; omega
  have := layered_length _ _ _ _ _ h2
  rw [hl] at this
  exact ⟨c, h1, this, this⟩

/-- **C08.** Whatever bytes are peeled: a cipher that opens is cut down by exactly
`CipherSize(1)` bytes, and exactly `CipherSize(parties)` bytes are read. -/
theorem C08_peel_size (box : SealedBox) (cipher : List Byte) (parties : Nat) (hp : 0 < parties)
    (pk : box.PKey) (sk : box.SKey) (layer : OnionLayer)
    (h : onionDecrypt box cipher parties pk sk = .ok layer) :
    cipherSize parties ≤ cipher.length ∧ (∃ s, layer.msg = .ok s) ∧
      layer.nextLayer.length + cipherSize 1 = cipherSize parties ∧
      ∀ other, other.take (cipherSize parties) = cipher.take (cipherSize parties) →
        onionDecrypt box other parties pk sk = .ok layer := by
  unfold onionDecrypt at h
  simp only at h
  have hsz : ¬ cipherSize parties < sealBytes := by simp only [cipherSize, secretSize, sealBytes]; omega
  rw [if_neg hsz] at h
  obtain ⟨c, hc, h2⟩ := bind_eq_ok.1 h
  unfold slice at hc
  split at hc
  swap
  · cases hc
  rename_i hle
  cases hc
  simp only [List.drop_zero] at h2
  cases ho : box.openMsg pk sk (cipher.take (cipherSize parties)) with
  | none => rw [ho] at h2; cases h2
  | some plain =>
    rw [ho] at h2
    cases h2
    have hlen := box.open_length _ _ _ _ ho
    rw [List.length_take, Nat.min_eq_left (by omega)] at hlen
    have hpl : plain.length + 48 = 124 * parties := hlen.symm
    refine ⟨by omega, ?_, ?_, ?_⟩
    · unfold OnionLayer.msg
      rw [slice_ok (by simp only [secretSize]; omega)]
      exact ⟨_, rfl⟩
    · simp only [OnionLayer.nextLayer, List.length_drop, cipherSize, secretSize, sealBytes]
      omega
    · intro other hoth
      unfold onionDecrypt
      simp only
      have hol : cipherSize parties ≤ other.length := by
        have := congrArg List.length hoth
        rw [List.length_take, List.length_take] at this
        omega
      rw [if_neg hsz, slice_ok (by omega)]
      simp only [bind_ok, List.drop_zero, hoth, ho]

/-- Non-vacuity of C07/C08: three parties with different keys, the onion made by
party 0 for parties 1 and 2. -/
example : GoodKeys toyBox [(1 : Byte), (2 : Byte), (3 : Byte)] [(1 : Byte), (2 : Byte), (3 : Byte)] ∧
    (3 : Nat) ≤ 255 ∧
    ([⟨7, 7, ⟨5, 6⟩, fun _ => 1⟩, ⟨8, 9, ⟨1, 2⟩, fun _ => 2⟩] : List OfflineSecret).length = 3 - 1 := by
  refine ⟨⟨rfl, ?_⟩, by decide, rfl⟩
  intro k h h'
  rfl

end DPPIR.Props
