import Verif.Model.Config
import Mathlib.Data.Nat.Digits.Defs

/-!
# Numbers as text
-/

namespace DPPIR.Config

/-- A character that only separates. -/
def Blank (b : Byte) : Prop := b.toNat ∈ [9, 10, 11, 12, 13, 32]

/-- `t` is the number `n` in decimal, perhaps with leading zeros. -/
def Numeral (t : List Byte) (n : Nat) : Prop :=
  ∃ ds : List Nat, ds ≠ [] ∧ (∀ d ∈ ds, d < 10) ∧ t = ds.map (fun d => BitVec.ofNat 8 (48 + d)) ∧ n = Nat.ofDigits 10 ds.reverse

/-- `t` is the integer `n` in decimal, perhaps with a sign. -/
def SignedNumeral (t : List Byte) (n : Int) : Prop :=
  (∃ m, Numeral t m ∧ n = m) ∨ (∃ u m, t = 43 :: u ∧ Numeral u m ∧ n = m) ∨ ∃ u m, t = 45 :: u ∧ Numeral u m ∧ n = -(m : Int)

/-- `t` does not start with a digit. -/
def NoDigitNext (t : List Byte) : Prop := ∀ b u, t = b :: u → ¬ (48 ≤ b.toNat ∧ b.toNat ≤ 57)

/-- `t` starts, after blanks, with the integer `n`, which some `rest` follows. -/
def StartsWith (t : List Byte) (n : Int) (rest : List Byte) : Prop :=
  ∃ ws num, t = ws ++ num ++ rest ∧ (∀ b ∈ ws, Blank b) ∧ SignedNumeral num n ∧ NoDigitNext rest

/-- Digits, at least one. -/
def Digits (t : List Byte) : Prop := t ≠ [] ∧ ∀ b ∈ t, 48 ≤ b.toNat ∧ b.toNat ≤ 57

/-- A plain spelling of a fraction: digits, perhaps a point and digits, perhaps an
exponent. -/
def Fraction (t : List Byte) : Prop :=
  ∃ whole point power, t = whole ++ point ++ power ∧ Digits whole ∧
    (point = [] ∨ ∃ u, point = 46 :: u ∧ Digits u) ∧
    (power = [] ∨ (∃ u, power = 101 :: u ∧ Digits u) ∨ ∃ s u, power = 101 :: s :: u ∧ (s = 43 ∨ s = 45) ∧ Digits u)

/-- One line of input. -/
def Line (l : List Byte) : Prop := (10 : Byte) ∉ l

/-- What one types to get `n` rows, the parameters spelled `e` and `d`, `P` parties of
`S` servers, and the given line for each server: numbers set apart by blanks, the rest of
the last line empty but for blanks, then the lines. -/
def TypedIn (typed : List Byte) (n P S : Nat) (e d : List Byte) (lines : List (List Byte)) : Prop :=
  ∃ w1 w2 w3 w4 w5 w6 tn tP tS,
    typed = w1 ++ tn ++ w2 ++ e ++ w3 ++ d ++ w4 ++ tP ++ w5 ++ tS ++ w6 ++ [10] ++ (lines.map (· ++ [10])).flatten ∧
    (∀ w ∈ [w1, w2, w3, w4, w5, w6], ∀ b ∈ w, Blank b) ∧ w2 ≠ [] ∧ w3 ≠ [] ∧ w4 ≠ [] ∧ w5 ≠ [] ∧ Line w6 ∧
    Numeral tn n ∧ Numeral tP P ∧ Numeral tS S ∧ Fraction e ∧ Fraction d ∧ ∀ l ∈ lines, Line l

/-- The configuration is for `n` rows, parameters `e` and `d`, and `P` parties of `S`
servers with the given addresses. -/
def Says (c : Config) (n : Nat) (e d : BitVec 64) (P S : Nat) (ip : Nat → Nat → List Byte) : Prop :=
  c.dbSize.toNat = n ∧ c.epsilon = e ∧ c.delta = d ∧ c.partyCount.toNat = P ∧ c.serverCount.toNat = S ∧
    c.parties.length = P ∧
    ∀ i < P, ∃ p, c.parties[i]? = some p ∧ p.servers.length = S ∧ ∀ j < S, ∃ s, p.servers[j]? = some s ∧ s.ip = ip i j

end DPPIR.Config
