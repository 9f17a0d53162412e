import Verif.Model.Onion

/-!
# Onion encryption when assertions are compiled out

With `NDEBUG` defined, `assert(e)` does not evaluate `e`.  Here are the two functions of
`DPPIR/onion/onion.cc` in such a build.  The documented builds (README.md:64-81,
`.bazelrc`) do not define it; `bazel -c opt` does.
-/

namespace DPPIR.Onion

/-- The loop of `OnionEncrypt` without its assertion (onion/onion.cc:43-60): the call of
`crypto_box_seal`, with its access to `pkeys`, is part of the assertion (lines 52-54). -/
def encryptLoopNdebug (secrets : List OfflineSecret) : Nat → Nat → List Byte → List Byte → Res (Nat × List Byte)
  | 0, offset, inp, _ => .ok (offset, inp)
  | idx + 1, offset, inp, out => do
    let secret ← rd secrets idx
    let offset ← subOff offset secretSize
    let inp ← blit inp offset secret.encode
    let offset ← subOff offset sealBytes
    encryptLoopNdebug secrets idx offset out inp

/-- `OnionEncrypt` without assertions (onion/onion.cc:29-68).  `junk` and `junk'` as in
`onionEncrypt`; reading them is not counted as undefined here. -/
def onionEncryptNdebug (junk junk' : Nat → Byte) (secrets : List OfflineSecret) (first count : Nat) : Res (List Byte) := do
  let parties := wrap8 (count + 256 - first)
  let total := cipherSize parties
  let (_, inp) ← encryptLoopNdebug secrets parties total ((List.range total).map junk) ((List.range total).map junk')
  .ok inp

/-- `OnionDecrypt` without assertions (onion/onion.cc:71-83): the status of
`crypto_box_seal_open` is not looked at.  When it is not 0, the buffer holds what it held
before (`junk`; libsodium only writes after the authentication has succeeded). -/
def onionDecryptNdebug (box : SealedBox) (junk : Nat → Byte) (cipher : List Byte) (partyCount : Nat) (p : box.PKey)
    (s : box.SKey) : Res OnionLayer :=
  let sz := cipherSize partyCount
  if sz < sealBytes then .error .exception
  else do
    let c ← slice cipher 0 sz
    match box.openMsg p s c with
    | none => .ok ⟨(List.range (sz - sealBytes)).map junk⟩
    | some plain => .ok ⟨plain⟩

end DPPIR.Onion
