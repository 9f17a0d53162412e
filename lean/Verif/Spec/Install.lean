import Verif.Spec.Chain

/-!
# When a call of a party or backend is justified

`h` is the record of calls so far, `o` the next call.
-/

namespace DPPIR.Protocol
open DPPIR Proc Onion

variable {box : SealedBox}

/-- A secret is stored only if it is the head of the plaintext of the next received
cipher that was not installed yet, and that cipher opened under the given keys.
Receiving a cipher is always allowed.  Every other call needs all received ciphers to
be installed. -/
def Justified (pk : box.PKey) (sk : box.SKey) (h : List Obs) : Obs → Prop
  | .store s => ∃ c plain, (ciphersRead h)[(stores h).length]? = some c ∧ box.openMsg pk sk c = some plain ∧
      s = OfflineSecret.decode (plain.take secretSize)
  | .recvCipher _ => True
  | _ => (stores h).length = (ciphersRead h).length

end DPPIR.Protocol
