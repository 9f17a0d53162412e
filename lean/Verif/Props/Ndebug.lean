import Verif.Proofs.Ndebug
import Verif.Props.Onion

/-!
# C64: the build with `NDEBUG`
-/

namespace DPPIR.Props
open DPPIR DPPIR.Onion DPPIR.Spec

/-- **C64, violated.** Without assertions the onion that `OnionEncrypt` returns has the
secrets of every second party in it, in the clear, each where its layer begins.  This is
so for all secrets, keys (which are not used) and contents of the buffers. -/
theorem C64_violated_secrets_in_the_clear (junk junk' : Nat → Byte) (secrets : List OfflineSecret) (first count : Nat)
    (hfc : first ≤ count) (hc : count ≤ 255) (hs : count - first ≤ secrets.length) :
    ∃ c, onionEncryptNdebug junk junk' secrets first count = .ok c ∧ c.length = cipherSize (count - first) ∧
      ∀ j (hj : j < count - first), j % 2 = 1 →
        slice c (cipherSize j + sealBytes) secretSize = .ok (secrets[j]'(by omega)).encode := by
  have hw : wrap8 (count + 256 - first) = count - first := by unfold wrap8; omega
  obtain ⟨r, h1, h2, h3, -⟩ := encryptLoopNdebug_ok secrets (cipherSize (count - first)) (count - first)
    ((List.range (cipherSize (count - first))).map junk) ((List.range (cipherSize (count - first))).map junk') (by simp) (by simp)
    (le_refl _) hs
  refine ⟨r, ?_, h2, fun j hj hodd => ?_⟩
  · unfold onionEncryptNdebug
    rw [hw]
    simp only []
    rw [h1, bind_ok]
  · rw [← h3 j hj hodd]
    have h4 : cipherSize (j + 1) ≤ cipherSize (count - first) := Nat.mul_le_mul_left _ hj
    have h5 : cipherSize (j + 1) = cipherSize j + sealBytes + secretSize := mul_step j
    exact slice_ok (by omega)

/-- **C64, violated.** The other secrets are not in it at all: it is the same for any
others, in particular for any secret of the first party. -/
theorem C64_violated_secrets_lost (junk junk' : Nat → Byte) (secrets secrets' : List OfflineSecret) (first count : Nat)
    (hs : secrets.length = secrets'.length) (hodd : ∀ j, j % 2 = 1 → secrets[j]? = secrets'[j]?) :
    onionEncryptNdebug junk junk' secrets first count = onionEncryptNdebug junk junk' secrets' first count := by
  unfold onionEncryptNdebug
  simp only []
  rw [encryptLoopNdebug_congr secrets secrets' _ _ _ _ _ _ ⟨rfl, rfl⟩ hs hodd (by split <;> rfl)]

/-- **C64, violated.** Without assertions `OnionDecrypt` accepts every cipher: one that
does not open yields whatever was in memory. -/
theorem C64_violated_bad_cipher_accepted (box : SealedBox) (junk : Nat → Byte) (cipher : List Byte) (partyCount : Nat)
    (hp : 0 < partyCount) (p : box.PKey) (s : box.SKey) (hc : cipherSize partyCount ≤ cipher.length)
    (hbad : box.openMsg p s (cipher.take (cipherSize partyCount)) = none) :
    onionDecrypt box cipher partyCount p s = .error .assertFail ∧
    onionDecryptNdebug box junk cipher partyCount p s =
      .ok ⟨(List.range (cipherSize partyCount - sealBytes)).map junk⟩ := by
  have h0 : ¬ cipherSize partyCount < sealBytes := by
    have : cipherSize 1 ≤ cipherSize partyCount := Nat.mul_le_mul_left _ hp
    have h1 : cipherSize 1 = secretSize + sealBytes := Nat.mul_one _
    omega
  unfold onionDecrypt onionDecryptNdebug
  simp only [if_neg h0]
  rw [slice_ok (by omega), bind_ok, bind_ok, List.drop_zero, hbad]
  exact ⟨rfl, rfl⟩

/-- **C64.** Where a cipher opens, `OnionDecrypt` is the same in both builds. -/
theorem C64_decrypt_agrees (box : SealedBox) (junk : Nat → Byte) (cipher : List Byte) (partyCount : Nat) (p : box.PKey) (s : box.SKey)
    (layer : OnionLayer) (h : onionDecrypt box cipher partyCount p s = .ok layer) :
    onionDecryptNdebug box junk cipher partyCount p s = .ok layer := by
  unfold onionDecrypt at h
  unfold onionDecryptNdebug
  simp only [] at h ⊢
  split at h
  · cases h
  · rename_i h0
    rw [if_neg h0]
    cases hc : slice cipher 0 (cipherSize partyCount) with
    | error f => rw [hc] at h; cases h
    | ok c =>
      rw [hc, bind_ok] at h
      rw [bind_ok]
      cases ho : box.openMsg p s c with
      | none => rw [ho] at h; cases h
      | some m => rw [ho] at h; exact h

/-- For a client and two parties: the onion has the backend's secret in the clear. -/
example : ∃ c, onionEncryptNdebug (fun _ => 0) (fun _ => 0) [⟨7, 7, ⟨5, 6⟩, fun _ => 1⟩, ⟨8, 9, ⟨1, 2⟩, fun _ => 2⟩] 0 2 = .ok c ∧
    slice c 172 76 = .ok (OfflineSecret.encode ⟨8, 9, ⟨1, 2⟩, fun _ => 2⟩) := by
  obtain ⟨c, h1, -, h3⟩ := C64_violated_secrets_in_the_clear (fun _ => 0) (fun _ => 0)
    [⟨7, 7, ⟨5, 6⟩, fun _ => 1⟩, ⟨8, 9, ⟨1, 2⟩, fun _ => 2⟩] 0 2 (by decide) (by decide) (by decide)
  exact ⟨c, h1, h3 1 (by decide) (by decide)⟩

/-- A cipher of zeros does not open with key 1 of `toyBox`. -/
example : toyBox.openMsg (1 : Byte) (1 : Byte) ((List.replicate 124 (0 : Byte)).take (cipherSize 1)) = none ∧
    cipherSize 1 ≤ (List.replicate 124 (0 : Byte)).length := by
  have h : cipherSize 1 = 124 := rfl
  rw [h]
  simp [toyBox]

end DPPIR.Props
