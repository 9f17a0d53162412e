import Verif.Model.Memory
import Verif.Model.Types

/-!
# Onion encryption (`DPPIR/onion/onion.{h,cc}`)

`crypto_box_seal` / `crypto_box_seal_open` of libsodium are abstract; what is
assumed of them is the two fields `seal_open` and `open_length`.
-/

namespace DPPIR.Onion

/-- `crypto_box_SEALBYTES`. -/
abbrev sealBytes : Nat := 48

/-- libsodium's sealed boxes.  `sealMsg` and `openMsg` return `none` where the C
functions return a non-zero status. -/
structure SealedBox where
  PKey : Type
  SKey : Type
  /-- randomness used by one call of `crypto_box_seal` -/
  Coins : Type
  sealMsg : Coins → PKey → List Byte → Option (List Byte)
  openMsg : PKey → SKey → List Byte → Option (List Byte)
  /-- the two keys were made by `crypto_box_keypair` -/
  IsPair : PKey → SKey → Prop
  seal_open : ∀ coins pk sk m, IsPair pk sk →
    ∃ c, sealMsg coins pk m = some c ∧ c.length = m.length + sealBytes ∧ openMsg pk sk c = some m
  seal_length : ∀ coins pk m c, sealMsg coins pk m = some c → c.length = m.length + sealBytes
  open_length : ∀ pk sk c m, openMsg pk sk c = some m → c.length = m.length + sealBytes

/-- `CipherSize(party_count)` (onion/onion.cc:22-26). -/
def cipherSize (partyCount : Nat) : Nat := (secretSize + sealBytes) * partyCount

/-- The loop of `OnionEncrypt` with `i` layers to go (onion/onion.cc:43-60).
`inp` and `out` are the two buffers, which swap roles in every iteration; `coins k`
is the randomness of layer `k`.  Returns the final offset and the final input
buffer. -/
def encryptLoop (box : SealedBox) (coins : Nat → box.Coins) (secrets : List OfflineSecret)
    (first : Nat) (pkeys : List box.PKey) (total : Nat) :
    Nat → Nat → List Byte → List Byte → Res (Nat × List Byte)
  | 0, offset, inp, _ => .ok (offset, inp)
  | idx + 1, offset, inp, out => do
    let partyId := wrap8 (first + idx)
    let secret ← rd secrets idx
    let offset ← subOff offset secretSize
    let inp ← blit inp offset secret.encode
    let pk ← rd pkeys partyId
    let plain ← slice inp offset (total - offset)
    let offset ← subOff offset sealBytes
    match box.sealMsg (coins idx) pk plain with
    | none => .error .assertFail
    | some c => do
      let out ← blit out offset c
      encryptLoop box coins secrets first pkeys total idx offset out inp

/-- `OnionEncrypt(secrets, first_party, party_count, pkeys)`
(onion/onion.cc:29-68).  `party_id_t` is `uint8_t`.  `junk` and `junk'` are the
uninitialised contents of the two buffers (`new char[total_size]`). -/
def onionEncrypt (box : SealedBox) (coins : Nat → box.Coins) (junk junk' : Nat → Byte)
    (secrets : List OfflineSecret) (first count : Nat) (pkeys : List box.PKey) :
    Res (List Byte) := do
  let parties := wrap8 (count + 256 - first)
  let total := cipherSize parties
  let (offset, inp) ← encryptLoop box coins secrets first pkeys total parties total
    ((List.range total).map junk) ((List.range total).map junk')
  assert (offset = 0)
  .ok inp

/-- `OnionLayer` (onion/onion.h:29-41): the plaintext buffer. -/
structure OnionLayer where
  buf : List Byte
  deriving DecidableEq

/-- `OnionLayer::Msg()` (onion/onion.h:34-36). -/
def OnionLayer.msg (l : OnionLayer) : Res OfflineSecret := do
  let b ← slice l.buf 0 secretSize
  .ok (OfflineSecret.decode b)

/-- `OnionLayer::NextLayer()` (onion/onion.h:37): the memory from the returned
pointer to the end of the buffer. -/
def OnionLayer.nextLayer (l : OnionLayer) : List Byte := l.buf.drop secretSize

/-- `OnionDecrypt(cipher, party_count, p, s)` (onion/onion.cc:71-83).  `cipher` is
the memory readable from the pointer.  With `party_count = 0` the allocation size
underflows and `new` throws. -/
def onionDecrypt (box : SealedBox) (cipher : List Byte) (partyCount : Nat) (p : box.PKey)
    (s : box.SKey) : Res OnionLayer :=
  let sz := cipherSize partyCount
  if sz < sealBytes then .error .exception
  else do
    let c ← slice cipher 0 sz
    match box.openMsg p s c with
    | none => .error .assertFail
    | some plain => .ok ⟨plain⟩

end DPPIR.Onion
