import Verif.Proofs.NoiseLawDP

/-!
# C19, C20: Laplace quantiles and differential privacy

Exact real arithmetic and truly uniform draws (`Spec/Noise`).
-/

open MeasureTheory

namespace DPPIR.Props
open DPPIR.Noise DPPIR.Spec

/-! ## C19 -/

/-- **C19**. The code's `Laplace(0, b)` has the Laplace distribution. -/
theorem C19_sampler_is_laplace (b : ℝ) (hb : 0 < b) (t : ℝ) :
    laplaceProb b (AtMost t) = ENNReal.ofReal (laplaceCDF b t) :=
  laplaceProb_atMost hb t

/-- **C19**. The cutoff is a number `c ≥ 0` that a Laplace draw exceeds with
probability exactly `delta / 2`, and that its negative exceeds with the same
probability. -/
theorem C19_cutoff_quantile (epsilon delta : ℝ) (he : 0 < epsilon) (hd0 : 0 < delta) (hd1 : delta ≤ 1) :
    ∃ c : ℝ, (fields .exact (.fin epsilon) (.fin delta)).cutoff = .fin c ∧ 0 ≤ c ∧
      laplaceProb (2 / epsilon) (Exceeds c) = ENNReal.ofReal (delta / 2) ∧
      laplaceProb (2 / epsilon) (Below (-c)) = ENNReal.ofReal (delta / 2) := by
  have hb : 0 < 2 / epsilon := by positivity
  have hl : 0 ≤ Real.log (1 / delta) := Real.log_nonneg (by rw [le_div_iff₀ hd0]; linarith)
  have hc : 0 ≤ 2 / epsilon * Real.log (1 / delta) := mul_nonneg hb.le hl
  have hexp : Real.exp (-(2 / epsilon * Real.log (1 / delta) / (2 / epsilon))) = delta := by
    rw [mul_div_cancel_left₀ _ hb.ne', one_div, Real.log_inv, neg_neg, Real.exp_log hd0]
  have hF : laplaceCDF (2 / epsilon) (2 / epsilon * Real.log (1 / delta)) = 1 - delta / 2 := by
    unfold laplaceCDF
    rw [if_pos hc, hexp]
  refine ⟨2 / epsilon * Real.log (1 / delta), by rw [fields_exact epsilon delta he hd0 hd1], hc, ?_, ?_⟩
  · rw [laplaceProb_exceeds hb, hF]; congr 1; ring
  · rw [laplaceProb_below hb, cdf_neg hb, hF]; congr 1; ring

/-- **C19**. `InvCDF(0, b, p)` is not the point its comment promises but its mirror
image: a Laplace draw is at most that with probability `1 - p`. -/
theorem C19_invCDF_mirrored (b p : ℝ) (hb : 0 < b) (hp0 : 0 < p) (hp1 : p < 1) :
    ∃ x : ℝ, invCDF .exact (.fin 0) (.fin b) (.fin p) = .fin x ∧
      laplaceProb b (AtMost x) = ENNReal.ofReal (1 - p) := by
  unfold invCDF
  have hpos : 0 < 1 - 2 * |p - 1 / 2| := by
    have : |p - 1 / 2| < 1 / 2 := by rw [abs_lt]; constructor <;> linarith
    linarith
  rw [laplaceExpr_exact _ _ _ hpos]
  refine ⟨_, rfl, ?_⟩
  rw [laplaceProb_atMost hb]
  congr 1
  by_cases h : 1 / 2 < p
  · rw [if_pos (show Dbl.lt (.fin (1 / 2)) (.fin p) from h)]
    have e : 1 - 2 * |p - 1 / 2| = 2 * (1 - p) := by rw [abs_of_pos (by linarith)]; ring
    rw [e] at hpos ⊢
    have e2 : -(-1 * b * Real.log (2 * (1 - p))) = b * Real.log (2 * (1 - p)) := by ring
    have hl : Real.log (2 * (1 - p)) < 0 := Real.log_neg hpos (by linarith)
    rw [e2]
    unfold laplaceCDF
    rw [if_neg (by have := mul_neg_of_pos_of_neg hb hl; linarith), mul_div_cancel_left₀ _ hb.ne', Real.exp_log hpos]
    ring
  · rw [if_neg (show ¬ Dbl.lt (.fin (1 / 2)) (.fin p) from h)]
    have e : 1 - 2 * |p - 1 / 2| = 2 * p := by rw [abs_of_nonpos (by linarith)]; ring
    rw [e] at hpos ⊢
    have e2 : -(1 * b * Real.log (2 * p)) = b * -Real.log (2 * p) := by ring
    have hl : Real.log (2 * p) ≤ 0 := Real.log_nonpos hpos.le (by linarith)
    rw [e2]
    unfold laplaceCDF
    rw [if_pos (mul_nonneg hb.le (by linarith)), mul_div_cancel_left₀ _ hb.ne', neg_neg, Real.exp_log hpos]
    ring

/-! ## C20 -/

/-- Parameters the constructor accepts, with the numbers it computes. -/
private theorem accepted {epsilon delta : ℝ} (he : 0 < epsilon) (hd0 : 0 < delta) (hd1 : delta ≤ 1) {d : Dist}
    (h : Dist.new .exact (.fin epsilon) (.fin delta) = .ok d) :
    0 ≤ 2 / epsilon * Real.log (1 / delta) ∧ 2 * (2 / epsilon * Real.log (1 / delta)) < 2 ^ 32 := by
  have hl : 0 ≤ Real.log (1 / delta) := Real.log_nonneg (by rw [le_div_iff₀ hd0]; linarith)
  refine ⟨mul_nonneg (by positivity) hl, ?_⟩
  unfold Dist.new at h
  simp only [fields_exact epsilon delta he hd0 hd1] at h
  rw [bind_eq_ok] at h
  obtain ⟨w, h1, -⟩ := h
  unfold domainCheck at h1
  rw [bind_eq_ok] at h1
  obtain ⟨mx, h2, -⟩ := h1
  simp only [Dbl.mul, FloatOps.exact, id, Dbl.floor, Dbl.toU32] at h2
  split at h2
  · rename_i h3
    have h4 : ⌊2 * (2 / epsilon * Real.log (1 / delta))⌋ < (2 ^ 32 : ℤ) := by exact_mod_cast h3.2
    have h5 := Int.floor_lt.mp h4
    exact_mod_cast h5
  · cases h2

/-- **C20** (what the code gives).  For every accepted `epsilon > 0`, `0 < delta ≤ 1`,
with real sampling the released counts are `(epsilon, 2 * e^(epsilon/2) * delta)`
differentially private, for databases of any size.

Missing from the full property: the factor `2 * e^(epsilon/2)` on delta.  It is due to
flooring (mass `e^(epsilon/2) * delta / 2` on each end of the domain) and to two keys
changing; `C20_exact_delta_violated` shows the property fails with `delta` itself. -/
theorem C20_differential_privacy_partial (epsilon delta : ℝ) (he : 0 < epsilon) (hd0 : 0 < delta) (hd1 : delta ≤ 1)
    (d : Dist) (h : Dist.new .exact (.fin epsilon) (.fin delta) = .ok d) :
    DP (noiseLaw epsilon delta) epsilon (2 * Real.exp (epsilon / 2) * delta) := by
  obtain ⟨hc, hc2⟩ := accepted he hd0 hd1 h
  have hb : 0 < 2 / epsilon := by positivity
  obtain ⟨b, hbe⟩ : ∃ b, b = 2 / epsilon := ⟨_, rfl⟩
  obtain ⟨c, hce⟩ : ∃ c, c = 2 / epsilon * Real.log (1 / delta) := ⟨_, rfl⟩
  have hlaw : noiseLaw epsilon delta = law b c := by
    unfold noiseLaw law; rw [fields_exact epsilon delta he hd0 hd1, hbe, hce]
  rw [← hce] at hc hc2
  rw [← hbe] at hb
  have hr : 1 / b = epsilon / 2 := by rw [hbe]; field_simp
  have hdelta : Real.exp (-(c / b)) = delta := by
    rw [hce, ← hbe, mul_div_cancel_left₀ _ hb.ne', one_div, Real.log_inv, neg_neg, Real.exp_log hd0]
  rw [hlaw]
  have := law_dp hb hc hc2
  rwa [hdelta, hr, show 2 / b = epsilon by rw [hbe]; field_simp] at this

/-- **C20**, how small delta can be.  For every accepted `epsilon`, `delta` with a cutoff of
at least 1 the released counts are not `(epsilon', delta')` differentially private for any
`delta' < delta * (1 + e^(epsilon/2)) / 2 - e^(epsilon/2) * delta^2 / 4`, whatever
`epsilon'`: the two ends of the noise domain give the query away. -/
theorem C20_lower_bound (epsilon delta : ℝ) (he : 0 < epsilon) (hd0 : 0 < delta) (hd1 : delta ≤ 1)
    (d : Dist) (h : Dist.new .exact (.fin epsilon) (.fin delta) = .ok d) (c : ℝ) (hc : d.cutoff = .fin c) (hc1 : 1 ≤ c)
    (epsilon' delta' : ℝ) (hd : delta' < delta * (1 + Real.exp (epsilon / 2)) / 2 - Real.exp (epsilon / 2) * delta ^ 2 / 4) :
    ¬ DP (noiseLaw epsilon delta) epsilon' delta' := by
  obtain ⟨-, hc2⟩ := accepted he hd0 hd1 h
  have hb : 0 < 2 / epsilon := by positivity
  have hce : c = 2 / epsilon * Real.log (1 / delta) := by
    unfold Dist.new at h
    simp only [fields_exact epsilon delta he hd0 hd1] at h
    rw [bind_eq_ok] at h
    obtain ⟨w, -, h2⟩ := h
    injection h2 with h2
    rw [← h2] at hc
    injection hc with hc
    exact hc.symm
  have hlaw : noiseLaw epsilon delta = law (2 / epsilon) c := by
    unfold noiseLaw law; rw [fields_exact epsilon delta he hd0 hd1, hce]
  have hdelta : Real.exp (-(c / (2 / epsilon))) = delta := by
    rw [hce, mul_div_cancel_left₀ _ hb.ne', one_div, Real.log_inv, neg_neg, Real.exp_log hd0]
  have hend : Real.exp (-((c - 1) / (2 / epsilon))) = Real.exp (epsilon / 2) * delta := by
    rw [← hdelta, ← Real.exp_add]
    congr 1
    field_simp
    ring
  rw [hlaw]
  refine law_not_dp hb hc1 (by rw [hce]; exact hc2) epsilon' delta' ?_
  rw [hdelta, hend]
  nlinarith

/-- **C20** is false of the code with `delta` itself, even with real sampling and ideal
arithmetic: for all accepted parameters with a cutoff of at least 1 and
`delta < 2 * (1 - e^(-epsilon/2))` (for `epsilon = 1/10` that is 0.097), the released
counts are not `(epsilon', delta)` differentially private, for no `epsilon'`. -/
theorem C20_exact_delta_violated (epsilon delta : ℝ) (he : 0 < epsilon) (hd0 : 0 < delta)
    (hd : delta < 2 * (1 - Real.exp (-(epsilon / 2)))) (hd1 : delta ≤ 1)
    (d : Dist) (h : Dist.new .exact (.fin epsilon) (.fin delta) = .ok d) (c : ℝ) (hc : d.cutoff = .fin c) (hc1 : 1 ≤ c)
    (epsilon' : ℝ) : ¬ DP (noiseLaw epsilon delta) epsilon' delta := by
  refine C20_lower_bound epsilon delta he hd0 hd1 d h c hc hc1 epsilon' delta ?_
  have hE := Real.exp_pos (epsilon / 2)
  have hEE : Real.exp (epsilon / 2) * Real.exp (-(epsilon / 2)) = 1 := by rw [← Real.exp_add]; simp
  have h1 : Real.exp (epsilon / 2) * delta < 2 * (Real.exp (epsilon / 2) - 1) := by
    have := mul_lt_mul_of_pos_left hd hE
    nlinarith
  nlinarith [mul_lt_mul_of_pos_left h1 hd0]

/-- The parameters of the counterexample are accepted: `epsilon = 2 log 2`,
`delta = 1/16`, for which the cutoff is 4. -/
theorem noise_example_cutoff : 2 / (2 * Real.log 2) * Real.log (1 / (1 / 16)) = 4 := by
  have h2 : 0 < Real.log 2 := Real.log_pos (by norm_num)
  have : (1 : ℝ) / (1 / 16) = 2 ^ 4 := by norm_num
  rw [this, Real.log_pow]
  field_simp
  norm_num

theorem noise_example_accepted :
    ∃ d, Dist.new .exact (.fin (2 * Real.log 2)) (.fin (1 / 16)) = .ok d := by
  have h2 : 0 < Real.log 2 := Real.log_pos (by norm_num)
  unfold Dist.new
  simp only [fields_exact (2 * Real.log 2) (1 / 16) (by linarith) (by norm_num) (by norm_num), noise_example_cutoff]
  unfold domainCheck
  simp only [Dbl.mul, FloatOps.exact, id]
  rw [toU32_floor_ok (by norm_num) (by norm_num)]
  have : ⌊(2 : ℝ) * 4⌋ = 8 := by norm_num
  rw [this, bind_ok, if_neg (by decide)]
  exact ⟨_, rfl⟩

/-- **C20** in the default build (`DPPIR_SAMPLE` undefined): the noise is a constant, so
no differential privacy holds at all: not for any `epsilon`, and not for any
`delta` below 1. -/
theorem C20_default_build_violated (d : Dist) (k : ℕ) (_h : d.sampleDefault = .ok k) (epsilon delta : ℝ) (hd : delta < 1) :
    ¬ DP (Measure.dirac k) epsilon delta := by
  intro hdp
  have hnb : Neighbours (ι := Fin 2) ![1, 0] ![0, 1] :=
    ⟨0, 1, by decide, rfl, rfl, by intro i h0 h1; omega⟩
  have hT := hdp (Fin 2) ![1, 0] ![0, 1] hnb {![1 + k, 0 + k]}
  have hm : ∀ n : ℕ, IsProbabilityMeasure ((Measure.dirac k).map (fun j => n + j)) := fun n =>
    Measure.isProbabilityMeasure_map (by fun_prop)
  have hrel : ∀ f : Fin 2 → ℕ, release (Measure.dirac k) f {![1 + k, 0 + k]} =
      (Measure.dirac (f 0 + k) {1 + k}) * (Measure.dirac (f 1 + k) {0 + k}) := by
    intro f
    have hmf : ∀ j, IsProbabilityMeasure ((Measure.dirac k).map (fun n => f j + n)) := fun j => hm (f j)
    unfold release
    rw [Measure.pi_singleton, Fin.prod_univ_two]
    simp only [Matrix.cons_val_zero, Matrix.cons_val_one]
    have hmd : ∀ n : ℕ, (Measure.dirac k).map (fun j => n + j) = Measure.dirac (n + k) := fun n =>
      Measure.map_dirac' (by fun_prop) k
    rw [hmd, hmd]
  rw [hrel, hrel] at hT
  simp at hT
  linarith

/-- The hypotheses of `C20_exact_delta_violated` hold for `epsilon = 2 log 2`,
`delta = 1/16`. -/
example : 0 < 2 * Real.log 2 ∧ (1 / 16 : ℝ) < 2 * (1 - Real.exp (-(2 * Real.log 2 / 2))) ∧
    ∃ d, Dist.new .exact (.fin (2 * Real.log 2)) (.fin (1 / 16)) = .ok d ∧ ∃ c, d.cutoff = .fin c ∧ 1 ≤ c := by
  have h2 : 0 < Real.log 2 := Real.log_pos (by norm_num)
  refine ⟨by linarith, ?_, ?_⟩
  · rw [show 2 * Real.log 2 / 2 = Real.log 2 by ring, Real.exp_neg, Real.exp_log (by norm_num)]
    norm_num
  · obtain ⟨d, hd⟩ := noise_example_accepted
    refine ⟨d, hd, 4, ?_, by norm_num⟩
    unfold Dist.new at hd
    simp only [fields_exact (2 * Real.log 2) (1 / 16) (by linarith) (by norm_num) (by norm_num), noise_example_cutoff] at hd
    rw [bind_eq_ok] at hd
    obtain ⟨w, -, h3⟩ := hd
    injection h3 with h3
    rw [← h3]

/-- `C20_differential_privacy_partial` applies to the same parameters, and there are
neighbouring histograms. -/
example : DP (noiseLaw (2 * Real.log 2) (1 / 16)) (2 * Real.log 2) (2 * Real.exp (2 * Real.log 2 / 2) * (1 / 16)) ∧
    Neighbours (ι := Fin 3) ![5, 7, 1] ![4, 7, 2] := by
  obtain ⟨d, hd⟩ := noise_example_accepted
  have h2 : 0 < Real.log 2 := Real.log_pos (by norm_num)
  refine ⟨C20_differential_privacy_partial _ _ (by linarith) (by norm_num) (by norm_num) d hd, 0, 2, by decide, rfl, rfl, ?_⟩
  intro i h0 h1
  fin_cases i
  · exact absurd rfl h0
  · rfl
  · exact absurd rfl h1

end DPPIR.Props
