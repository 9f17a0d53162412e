import Verif.Proofs.NoiseRoundedDP
import Verif.Proofs.NoiseTruncate
import Verif.Props.PrivateRun

/-!
# C20 and C58 in double arithmetic, with draws from `rand()`
-/

open MeasureTheory

namespace DPPIR.Props
open DPPIR DPPIR.Protocol DPPIR.Noise DPPIR.Spec Proc Onion

/-- **C20** for the sampler as it runs: every operation rounded to a double, `log` as libm
computes it, and the two draws of a sample from `rand()`.  For every accepted `epsilon`
and `delta` the released counts are differentially private, for databases of any size,
with `epsilon` off by a factor `1 + 2^-50` and a delta of
`2 * e^(epsilon/2) * (delta + 2^-47)` plus a term of the order of `cutoff * 2^-31`.

Missing from the full property: `delta` itself, as in `C20_differential_privacy_partial`.
`epsilon ≤ 2^1000` excludes that the span is subnormal.  That `rand()` is uniform and
independent is part of `codeLaw`; no generator with a 32-bit seed is. -/
theorem C20_rounded_partial (A : FloatOps) (hA : IsDouble A) (epsilon delta : ℝ) (he : 0 < epsilon) (he1 : epsilon ≤ 2 ^ 1000)
    (hd0 : 0 < delta) (hd1 : delta ≤ 1) (d : Dist) (h : Dist.new A (.fin epsilon) (.fin delta) = .ok d) :
    ∃ c : ℝ, d.cutoff = .fin c ∧ 0 ≤ c ∧ 2 * c < 2 ^ 32 ∧
      DP (codeLaw A d) (epsilon * (1 + (1 / 2) ^ 50)) (roundedDelta (epsilon * (1 + (1 / 2) ^ 50)) delta c) := by
  obtain ⟨c, h1, h2, h3, -, h4⟩ := new_dp hA he he1 hd0 hd1 h
  exact ⟨c, h1, h2, h3, h4⟩

variable {box : SealedBox}

/-- **C58** for the noise of the code as it runs: in double arithmetic, with draws from
`rand()`, the numbers of look-ups at the backend are as private as in
`C20_rounded_partial`, for the same reason not with `delta` itself. -/
theorem C58_noise_of_the_code_rounded_partial (A : FloatOps) (hA : IsDouble A) (epsilon delta : ℝ) (he : 0 < epsilon)
    (he1 : epsilon ≤ 2 ^ 1000) (hd0 : 0 < delta) (hd1 : delta ≤ 1) (d : Dist)
    (hd : Dist.new A (.fin epsilon) (.fin delta) = .ok d) (cutoff : ℝ) (hc : d.cutoff = .fin cutoff)
    (c : Chain box) (k : Nat) (hk : k + 1 < c.parties)
    (h : ∀ σ : Fin c.rows → ℕ, (∀ i, (σ i : ℝ) ≤ 2 * cutoff) → (c.sampling k σ).Valid) (offline : Bool)
    (row row' : Nat → Nat) (j : Nat) (hr : ∀ i, i ≠ j → row i = row' i) (T : Set (Fin c.rows → ℕ)) :
    (Measure.pi fun _ => codeLaw A d) {σ : Fin c.rows → ℕ | ∃ x ∈ T, ((c.asking row).sampling k σ).Counts offline x} ≤
      ENNReal.ofReal (Real.exp (epsilon * (1 + (1 / 2) ^ 50))) * (Measure.pi fun _ => codeLaw A d)
        {σ : Fin c.rows → ℕ | (∃ x : Fin c.rows → ℕ, ((c.asking row').sampling k σ).Counts offline x) ∧
          ∀ x : Fin c.rows → ℕ, ((c.asking row').sampling k σ).Counts offline x → x ∈ T} +
      ENNReal.ofReal (roundedDelta (epsilon * (1 + (1 / 2) ^ 50)) delta cutoff) := by
  obtain ⟨c', h1, h2, h3, h0, h4⟩ := new_dp hA he he1 hd0 hd1 hd
  have hcc : c' = cutoff := by rw [hc] at h1; injection h1 with h1; exact h1.symm
  subst hcc
  have hfl : (⌊2 * c'⌋.toNat : ℝ) ≤ 2 * c' := by
    have h5 : 0 ≤ ⌊2 * c'⌋ := Int.floor_nonneg.mpr (by linarith)
    have h6 : ((⌊2 * c'⌋.toNat : ℤ)) = ⌊2 * c'⌋ := Int.toNat_of_nonneg h5
    have h7 : (⌊2 * c'⌋.toNat : ℝ) = (⌊2 * c'⌋ : ℝ) := by exact_mod_cast h6
    rw [h7]
    exact Int.floor_le _
  refine C58_lookups_private c k hk (codeLaw A d) _ _ (by positivity) h4 ⌊2 * c'⌋.toNat h0 ?_ ?_ offline row row' j hr T
  · have : (⌊2 * c'⌋.toNat : ℝ) < 2 ^ 32 := lt_of_le_of_lt hfl h3
    exact_mod_cast this
  · intro σ hσ
    refine h σ (fun i => le_trans ?_ hfl)
    exact_mod_cast hσ i

/-- Non-vacuity: doubles rounded towards zero, with a correctly rounded logarithm, meet
the requirements on the arithmetic, and with them `epsilon = 2`, `delta = 1/2` are
accepted; the cutoff is between 1/2 and 1. -/
theorem Example.trunc_dist : IsDouble truncOps ∧ ∃ d c, Dist.new truncOps (.fin 2) (.fin (1 / 2)) = .ok d ∧ d.cutoff = .fin c ∧ 1 / 2 ≤ c ∧ c ≤ 1 := by
  have hA := truncOps_isDouble
  refine ⟨hA, ?_⟩
  have r1 : truncOps.rnd 1 = 1 := rnd_one hA
  have r4 : truncOps.rnd (1 / 2 / 2) = 1 / 2 / 2 := by
    have h1 := down_double 1 (by norm_num) (-2) (by norm_num)
    show truncate _ = _
    rw [truncate_nonneg (by norm_num)]
    norm_num at h1 ⊢
    exact h1
  have hfold : foldedOf truncOps (1 / 2 / 2) = 1 / 2 := by
    unfold foldedOf
    rw [show (1 : ℝ) / 2 / 2 + -(1 / 2) = -(1 / 2 / 2) by norm_num, hA.odd, r4, abs_neg, abs_of_pos (by norm_num),
      show (2 : ℝ) * (1 / 2 / 2) = 1 / 2 by norm_num, hA.half, show (1 : ℝ) + -(1 / 2) = 1 / 2 by norm_num, hA.half]
  obtain ⟨c, hc⟩ : ∃ c, c = sizeOf truncOps 1 (1 / 2) := ⟨_, rfl⟩
  have hf : fields truncOps (.fin 2) (.fin (1 / 2)) = ⟨false, .fin 1, .fin c⟩ := by
    unfold fields
    rw [if_neg (by simp [Dbl.isZero])]
    have e1 : Dbl.div truncOps (.fin 2) (.fin 2) = .fin 1 := by
      simp only [Dbl.div, if_neg (two_ne_zero : (2 : ℝ) ≠ 0), div_self (two_ne_zero : (2 : ℝ) ≠ 0), r1]
    have e2 : Dbl.div truncOps (.fin (1 / 2)) (.fin 2) = .fin (1 / 2 / 2) := by
      simp only [Dbl.div, if_neg (two_ne_zero : (2 : ℝ) ≠ 0), r4]
    simp only [e1, e2]
    unfold invCDF
    rw [if_neg (show ¬ Dbl.lt (.fin (1 / 2)) (.fin (1 / 2 / 2)) from not_lt.2 (by norm_num)),
      (laplaceExpr_pos hA r1 (by rw [hfold]; norm_num)).1, hfold, hc]
  have hcl := size_close hA (b := 1) (p := 1 / 2) (by have := tiny_le; have := ulp_le; have := ulp_pos; nlinarith) (by norm_num) (by norm_num)
    (by norm_num) hA.half
  rw [← hc] at hcl
  obtain ⟨hc0, hcl⟩ := hcl
  have hlog : -Real.log (1 / 2) = Real.log 2 := by rw [one_div, Real.log_inv, neg_neg]
  rw [hlog] at hcl
  have hl1 := Real.log_two_gt_d9
  have hl2 := Real.log_two_lt_d9
  have hu := ulp_le
  have hup := ulp_pos
  have hcl' : |c - 1 * Real.log 2| ≤ 1 / 100 := by
    refine hcl.trans ?_
    have : ulp * 1 * (4 * Real.log 2 + 1) ≤ 1 / 1024 * (4 * Real.log 2 + 1) := by
      rw [mul_one]
      exact mul_le_mul_of_nonneg_right hu (by linarith)
    linarith
  obtain ⟨h5, h6⟩ := abs_le.1 hcl'
  have hcr : truncOps.rnd c = c := by rw [hc]; exact hA.idem _
  refine ⟨⟨false, .fin 1, .fin c⟩, c, ?_, rfl, by linarith, by linarith⟩
  unfold Dist.new
  simp only [hf]
  unfold domainCheck
  have h2 : truncOps.rnd (2 * c) = 2 * c := by
    have := hA.twice c
    rwa [hcr] at this
  simp only [Dbl.mul, h2]
  rw [toU32_floor_ok (by linarith) (by norm_num; linarith)]
  have hfl : ⌊2 * c⌋ = 1 := by
    rw [Int.floor_eq_iff]
    push_cast
    constructor <;> linarith
  rw [hfl, bind_ok, if_neg (by decide)]
  rfl

end DPPIR.Props
