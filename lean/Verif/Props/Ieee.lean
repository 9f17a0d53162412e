import Verif.Model.Start

/-!
# Parameters of a configuration file are read as the numbers they stand for (C63)
-/

namespace DPPIR.Props
open DPPIR Noise Main

/-- C63: the eight bytes of `epsilon` and `delta` in a file are read as IEEE 754 says.
With the sign bit, the 11 bits of the exponent and the 52 bits of the fraction, a number
is `(-1)^sign * 1.fraction * 2^(exponent - 1023)`, or `(-1)^sign * 0.fraction * 2^(-1022)`
for the exponent 0; the largest exponent is for infinities and NaN. -/
theorem C63_doubles (b : BitVec 64) :
    let sign : Nat := if b.getMsbD 0 then 1 else 0
    let exponent := (b.extractLsb' 52 11).toNat
    let fraction := (b.extractLsb' 0 52).toNat
    (0 < exponent → exponent < 2047 →
      Dbl.ofBits b = .fin ((-1) ^ sign * (1 + (fraction : ℝ) / 2 ^ 52) * (2 : ℝ) ^ ((exponent : ℤ) - 1023))) ∧
    (exponent = 0 → Dbl.ofBits b = .fin ((-1) ^ sign * ((fraction : ℝ) / 2 ^ 52) * (2 : ℝ) ^ (-1022 : ℤ))) ∧
    (exponent = 2047 → Dbl.ofBits b = if fraction = 0 then (if sign = 1 then .ninf else .pinf) else .nan) := by
  intro sign exponent fraction
  have he : b.toNat / 2 ^ 52 % 2 ^ 11 = exponent := by
    show _ = (b.extractLsb' 52 11).toNat
    rw [BitVec.extractLsb'_toNat, Nat.shiftRight_eq_div_pow]
  have hf : b.toNat % 2 ^ 52 = fraction := by
    show _ = (b.extractLsb' 0 52).toNat
    rw [BitVec.extractLsb'_toNat, Nat.shiftRight_zero]
  have hs : (if b.msb then (-1 : ℝ) else 1) = (-1) ^ sign := by
    show _ = (-1 : ℝ) ^ (if b.getMsbD 0 then 1 else 0)
    rw [show b.msb = b.getMsbD 0 from rfl]
    split <;> simp
  have hm : (sign = 1) ↔ b.msb = true := by
    show ((if b.getMsbD 0 then 1 else 0) = 1) ↔ b.getMsbD 0 = true
    split <;> simp_all
  refine ⟨fun h1 h2 => ?_, fun h => ?_, fun h => ?_⟩
  · simp only [Dbl.ofBits, he, hf, hs, if_neg (show ¬ exponent = 2047 by omega), if_neg (show ¬ exponent = 0 by omega)]
    congr 1
    have e1 : (2 : ℝ) ^ 1075 = 2 ^ 1023 * 2 ^ 52 := by rw [← pow_add]
    have e2 : (2 : ℝ) ^ (1023 : ℤ) = 2 ^ 1023 := zpow_ofNat 2 1023
    rw [zpow_sub₀ (by norm_num), zpow_natCast, e1, e2]
    have h3 : (2 : ℝ) ^ 1023 ≠ 0 := by positivity
    have h4 : (2 : ℝ) ^ 52 ≠ 0 := by positivity
    generalize (2 : ℝ) ^ 1023 = x at *
    generalize (2 : ℝ) ^ 52 = y at *
    field_simp
  · simp only [Dbl.ofBits, he, hf, hs, h, if_neg (show ¬ (0 : Nat) = 2047 by omega), if_true]
    congr 1
    have e1 : (2 : ℝ) ^ 1074 = 2 ^ 1022 * 2 ^ 52 := by rw [← pow_add]
    have e2 : (2 : ℝ) ^ (-1022 : ℤ) = (2 ^ 1022)⁻¹ := by rw [zpow_neg, zpow_ofNat 2 1022]
    rw [e1, e2]
    have h3 : (2 : ℝ) ^ 1022 ≠ 0 := by positivity
    have h4 : (2 : ℝ) ^ 52 ≠ 0 := by positivity
    generalize (2 : ℝ) ^ 1022 = x at *
    generalize (2 : ℝ) ^ 52 = y at *
    field_simp
  · simp only [Dbl.ofBits, he, hf, h, if_true, hm]

/-- The bits of 1.0, of -0.5, of the least positive double and of infinity. -/
example : Dbl.ofBits 0x3FF0000000000000 = .fin 1 ∧ Dbl.ofBits 0xBFE0000000000000 = .fin (-1 / 2) ∧
    Dbl.ofBits 1 = .fin (1 / 2 ^ 1074) ∧ Dbl.ofBits 0x7FF0000000000000 = .pinf := by
  refine ⟨?_, ?_, ?_, ?_⟩
  · rw [(C63_doubles _).1 (by decide) (by decide), if_neg (by decide),
      show (BitVec.extractLsb' 52 11 (0x3FF0000000000000 : BitVec 64)).toNat = 1023 by decide,
      show (BitVec.extractLsb' 0 52 (0x3FF0000000000000 : BitVec 64)).toNat = 0 by decide]
    norm_num
  · rw [(C63_doubles _).1 (by decide) (by decide), if_pos (by decide),
      show (BitVec.extractLsb' 52 11 (0xBFE0000000000000 : BitVec 64)).toNat = 1022 by decide,
      show (BitVec.extractLsb' 0 52 (0xBFE0000000000000 : BitVec 64)).toNat = 0 by decide]
    norm_num
  · rw [(C63_doubles _).2.1 (by decide), if_neg (by decide),
      show (BitVec.extractLsb' 0 52 (1 : BitVec 64)).toNat = 1 by decide, show (1074 : Nat) = 52 + 1022 by rfl, pow_add, zpow_neg,
      zpow_ofNat 2 1022]
    generalize (2 : ℝ) ^ 1022 = x
    norm_num [mul_comm]
  · rw [(C63_doubles _).2.2 (by decide)]
    rfl

end DPPIR.Props
