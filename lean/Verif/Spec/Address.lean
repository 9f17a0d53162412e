import Verif.Model.Base

/-!
# Texts of IPv4 addresses
-/

namespace DPPIR.Connect

/-- The decimal digits of a number below 1000, without leading zeros. -/
def decimal (n : Nat) : List Byte :=
  if n < 10 then [BitVec.ofNat 8 (48 + n)]
  else if n < 100 then [BitVec.ofNat 8 (48 + n / 10), BitVec.ofNat 8 (48 + n % 10)]
  else [BitVec.ofNat 8 (48 + n / 100), BitVec.ofNat 8 (48 + n / 10 % 10), BitVec.ofNat 8 (48 + n % 10)]

/-- `text` is `a.b.c.d`, four numbers below 256 in decimal notation, and `n` is the number
with these four bytes. -/
def Dotted (text : List Byte) (n : BitVec 32) : Prop :=
  ∃ a b c d, a < 256 ∧ b < 256 ∧ c < 256 ∧ d < 256 ∧
    text = decimal a ++ [46] ++ decimal b ++ [46] ++ decimal c ++ [46] ++ decimal d ∧
    n.toNat = a * 2 ^ 24 + b * 2 ^ 16 + c * 2 ^ 8 + d

end DPPIR.Connect
