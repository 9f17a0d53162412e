import Verif.Proofs.NoiseLaw

/-!
# Ratio bounds for the noise samples
-/

open MeasureTheory

namespace DPPIR.Noise
open DPPIR.Spec

theorem cdf_neg {b : ℝ} (hb : 0 < b) (t : ℝ) : laplaceCDF b (-t) = 1 - laplaceCDF b t := by
  rw [laplaceCDF_eq hb, laplaceCDF_eq hb, neg_div, neg_neg]
  ring

theorem cdf_le {b : ℝ} (hb : 0 < b) (t : ℝ) : laplaceCDF b t ≤ Real.exp (t / b) / 2 := by
  unfold laplaceCDF
  split_ifs with h
  · have h1 := Real.exp_pos (t / b)
    have h2 : Real.exp (-(t / b)) * Real.exp (t / b) = 1 := by rw [← Real.exp_add]; simp
    have h3 := Real.exp_pos (-(t / b))
    have h4 : 0 ≤ (Real.exp (t / b) - 1) ^ 2 * Real.exp (-(t / b)) := by positivity
    have h5 : (Real.exp (t / b) - 1) ^ 2 * Real.exp (-(t / b)) =
        Real.exp (t / b) * (Real.exp (-(t / b)) * Real.exp (t / b)) - 2 * (Real.exp (-(t / b)) * Real.exp (t / b)) + Real.exp (-(t / b)) := by ring
    rw [h5, h2] at h4
    linarith
  · exact le_refl _

theorem one_sub_cdf_le {b : ℝ} (hb : 0 < b) (t : ℝ) : 1 - laplaceCDF b t ≤ Real.exp (-(t / b)) / 2 := by
  rw [← cdf_neg hb]
  have := cdf_le hb (-t)
  rwa [neg_div] at this

theorem cdf_nonneg {b : ℝ} (hb : 0 < b) (t : ℝ) : 0 ≤ laplaceCDF b t := by
  rw [laplaceCDF_eq hb]
  have h1 : 0 ≤ min (Real.exp (t / b)) 1 := le_min (Real.exp_pos _).le zero_le_one
  have h2 := min_le_right (Real.exp (-(t / b))) 1
  linarith

theorem cdf_le_one {b : ℝ} (hb : 0 < b) (t : ℝ) : laplaceCDF b t ≤ 1 := by
  have := cdf_nonneg hb (-t)
  rw [cdf_neg hb] at this
  linarith

theorem cdf_mono {b : ℝ} (hb : 0 < b) {s t : ℝ} (h : s ≤ t) : laplaceCDF b s ≤ laplaceCDF b t := by
  rw [laplaceCDF_eq hb, laplaceCDF_eq hb]
  have h0 : s / b ≤ t / b := div_le_div_of_nonneg_right h hb.le
  have h1 : min (Real.exp (s / b)) 1 ≤ min (Real.exp (t / b)) 1 := min_le_min_right _ (Real.exp_le_exp.mpr h0)
  have h2 : min (Real.exp (-(t / b))) 1 ≤ min (Real.exp (-(s / b))) 1 :=
    min_le_min_right _ (Real.exp_le_exp.mpr (by linarith))
  linarith

theorem poly_nonneg {y w : ℝ} (hy0 : 0 < y) (hy1 : y ≤ 1) (hw : 1 ≤ w) :
    0 ≤ 2 * w * w - w - w * w * y - w * y * y + y * y * y := by
  have hA : 0 ≤ (1 - y) * (1 - y) * (1 + y) := mul_nonneg (mul_nonneg (by linarith) (by linarith)) (by linarith)
  have hB : 0 ≤ (w - 1) * ((2 - y) * (w + 1) - (1 + y * y)) := by
    apply mul_nonneg (by linarith)
    nlinarith
  have : 2 * w * w - w - w * w * y - w * y * y + y * y * y =
      (1 - y) * (1 - y) * (1 + y) + (w - 1) * ((2 - y) * (w + 1) - (1 + y * y)) := by ring
  linarith

theorem middle {x z r q : ℝ} (hx0 : 0 < x) (hr1 : 1 < r) (hxz : x * z = 1) (hrq : r * q = 1) (hy1 : x * r ≤ 1)
    (hz1 : 1 ≤ x * r * r) : 0 ≤ 2 * r - z * q - r * (x * r) - (x * r - x) := by
  have hy0 : 0 < x * r := by positivity
  have hp := poly_nonneg hy0 hy1 hz1
  have e : 2 * (x * r * r) * (x * r * r) - (x * r * r) - (x * r * r) * (x * r * r) * (x * r) -
      (x * r * r) * (x * r) * (x * r) + (x * r) * (x * r) * (x * r) =
      (2 * r - z * q - r * (x * r) - (x * r - x)) * (x * r * (x * r * r)) +
        (z * q * (x * r) - 1) * (x * r * r) := by ring
  have hzq : z * q * (x * r) = 1 := by
    calc z * q * (x * r) = (x * z) * (r * q) := by ring
      _ = 1 := by rw [hxz, hrq]; ring
  rw [e, hzq, sub_self, zero_mul, add_zero] at hp
  exact nonneg_of_mul_nonneg_left hp (by positivity)

/-- One step to the right loses at most a factor `e^(1/b)`. -/
theorem step_up {b : ℝ} (hb : 0 < b) (s : ℝ) :
    laplaceCDF b (s + 1) - laplaceCDF b s ≤ Real.exp (1 / b) * (laplaceCDF b (s + 2) - laplaceCDF b (s + 1)) := by
  obtain ⟨x, hx⟩ : ∃ x, x = Real.exp (s / b) := ⟨_, rfl⟩
  obtain ⟨z, hz⟩ : ∃ z, z = Real.exp (-(s / b)) := ⟨_, rfl⟩
  obtain ⟨r, hr⟩ : ∃ r, r = Real.exp (1 / b) := ⟨_, rfl⟩
  obtain ⟨q, hq⟩ : ∃ q, q = Real.exp (-(1 / b)) := ⟨_, rfl⟩
  have hxz : x * z = 1 := by rw [hx, hz, ← Real.exp_add]; simp
  have hrq : r * q = 1 := by rw [hr, hq, ← Real.exp_add]; simp
  have hx0 : 0 < x := hx ▸ Real.exp_pos _
  have hz0 : 0 < z := hz ▸ Real.exp_pos _
  have hq0 : 0 < q := hq ▸ Real.exp_pos _
  have hr1 : 1 < r := by rw [hr]; exact Real.one_lt_exp_iff.mpr (by positivity)
  have e1 : Real.exp ((s + 1) / b) = x * r := by rw [hx, hr, ← Real.exp_add]; congr 1; ring
  have e2 : Real.exp ((s + 2) / b) = x * r * r := by rw [hx, hr, ← Real.exp_add, ← Real.exp_add]; congr 1; ring
  have f1 : Real.exp (-((s + 1) / b)) = z * q := by rw [hz, hq, ← Real.exp_add]; congr 1; ring
  have f2 : Real.exp (-((s + 2) / b)) = z * q * q := by rw [hz, hq, ← Real.exp_add, ← Real.exp_add]; congr 1; ring
  unfold laplaceCDF
  rw [e1, e2, f1, f2, ← hx, ← hz, ← hr]
  have hrz : r * (z * q) = z := by rw [mul_comm z q, ← mul_assoc, hrq, one_mul]
  have hrzz : r * (z * q * q) = z * q := by rw [← mul_assoc, hrz]
  have sgn : ∀ t : ℝ, 0 ≤ t → 1 ≤ Real.exp (t / b) := fun t ht => Real.one_le_exp (div_nonneg ht hb.le)
  have sgn' : ∀ t : ℝ, t ≤ 0 → Real.exp (t / b) ≤ 1 :=
    fun t ht => Real.exp_le_one_iff.mpr (div_nonpos_of_nonpos_of_nonneg ht hb.le)
  by_cases h0 : 0 ≤ s
  · rw [if_pos h0, if_pos (by linarith), if_pos (by linarith)]
    nlinarith
  · rw [if_neg h0]
    by_cases h1 : 0 ≤ s + 1
    · rw [if_pos h1, if_pos (by linarith)]
      -- 2x - x^2 ≤ 1
      have : 2 - x ≤ z := by nlinarith [sq_nonneg (x - 1)]
      nlinarith
    · rw [if_neg h1]
      have hy1 : x * r ≤ 1 := e1 ▸ sgn' _ (by linarith)
      by_cases h2 : 0 ≤ s + 2
      · rw [if_pos h2]
        have hz1 : 1 ≤ x * r * r := e2 ▸ sgn _ h2
        -- with y = x r and w = y r: q = ..., need r - z q / 2 - r y / 2 - (y - x) / 2 ≥ 0
        have key := middle hx0 hr1 hxz hrq hy1 hz1
        have e : r * (1 - z * q * q / 2 - x * r / 2) = r - r * (z * q * q) / 2 - r * (x * r) / 2 := by
          ring
        rw [e, hrzz]
        linarith
      · rw [if_neg h2]
        have h3 : 0 ≤ x * (r - 1) * (r * r - 1) :=
          mul_nonneg (mul_nonneg hx0.le (by linarith)) (by nlinarith)
        have e : r * (x * r * r / 2 - x * r / 2) - (x * r / 2 - x / 2) = x * (r - 1) * (r * r - 1) / 2 := by ring
        linarith

theorem step_down {b : ℝ} (hb : 0 < b) (s : ℝ) :
    laplaceCDF b (s + 1) - laplaceCDF b s ≤ Real.exp (1 / b) * (laplaceCDF b s - laplaceCDF b (s - 1)) := by
  have h := step_up hb (-s - 1)
  rw [show -s - 1 + 1 = -s by ring, show -s - 1 + 2 = -(s - 1) by ring, show -s - 1 = -(s + 1) by ring,
    cdf_neg hb, cdf_neg hb, cdf_neg hb] at h
  have e1 : 1 - laplaceCDF b s - (1 - laplaceCDF b (s + 1)) = laplaceCDF b (s + 1) - laplaceCDF b s := by ring
  have e2 : 1 - laplaceCDF b (s - 1) - (1 - laplaceCDF b s) = laplaceCDF b s - laplaceCDF b (s - 1) := by ring
  rwa [e1, e2] at h

/-- Probability of the sample `k`. -/
noncomputable def pmf (b c : ℝ) (k : ℕ) : ℝ := tail b c k - tail b c (k + 1)

theorem tail_zero (b c : ℝ) : tail b c 0 = 1 := by unfold tail; rw [if_pos rfl]

theorem tail_in {b c : ℝ} {k : ℕ} (h0 : k ≠ 0) (h : (k : ℝ) ≤ 2 * c) : tail b c k = 1 - laplaceCDF b (k - c) := by
  unfold tail; rw [if_neg h0, if_pos h]

theorem tail_out {b c : ℝ} {k : ℕ} (h0 : k ≠ 0) (h : 2 * c < (k : ℝ)) : tail b c k = 0 := by
  unfold tail; rw [if_neg h0, if_neg (by linarith)]

theorem tail_anti {b c : ℝ} (hb : 0 < b) (k : ℕ) : tail b c (k + 1) ≤ tail b c k := by
  unfold tail
  rw [if_neg (by omega)]
  by_cases h0 : k = 0
  · rw [if_pos h0]
    split_ifs
    · have := cdf_nonneg hb (((k + 1 : ℕ) : ℝ) - c); linarith
    · norm_num
  · rw [if_neg h0]
    push_cast
    by_cases h1 : (k : ℝ) + 1 ≤ 2 * c
    · rw [if_pos h1, if_pos (by linarith)]
      have := cdf_mono hb (show (k : ℝ) - c ≤ k + 1 - c by linarith)
      linarith
    · rw [if_neg h1]
      split_ifs
      · have := cdf_le_one hb ((k : ℝ) - c); linarith
      · exact le_refl _

theorem pmf_nonneg {b c : ℝ} (hb : 0 < b) (k : ℕ) : 0 ≤ pmf b c k := by
  unfold pmf; have := tail_anti (c := c) hb k; linarith

theorem tail_nonneg {b c : ℝ} (hb : 0 < b) (k : ℕ) : 0 ≤ tail b c k := by
  unfold tail
  split_ifs
  · norm_num
  · have := cdf_le_one hb ((k : ℝ) - c); linarith
  · norm_num

theorem pmf_inner {b c : ℝ} {k : ℕ} (hk : 1 ≤ k) (hk2 : (k : ℝ) + 1 ≤ 2 * c) :
    pmf b c k = laplaceCDF b (k - c + 1) - laplaceCDF b (k - c) := by
  unfold pmf
  rw [tail_in (by omega) (by linarith), tail_in (by omega) (by push_cast; exact hk2)]
  push_cast
  rw [show (k : ℝ) + 1 - c = k - c + 1 by ring]
  ring

theorem pmf_next {b c : ℝ} (hb : 0 < b) {k : ℕ} (hk : 1 ≤ k) (hk2 : (k : ℝ) + 1 ≤ 2 * c) :
    pmf b c k ≤ Real.exp (1 / b) * pmf b c (k + 1) := by
  rw [pmf_inner hk hk2]
  refine le_trans (step_up hb _) (mul_le_mul_of_nonneg_left ?_ (Real.exp_pos _).le)
  unfold pmf
  rw [tail_in (k := k + 1) (by omega) (by push_cast; exact hk2)]
  by_cases h3 : ((k + 1 + 1 : ℕ) : ℝ) ≤ 2 * c
  · rw [tail_in (by omega) h3]
    push_cast
    rw [show (k : ℝ) + 1 - c = k - c + 1 by ring, show (k : ℝ) + 1 + 1 - c = k - c + 2 by ring]
    linarith
  · rw [tail_out (by omega) (not_le.mp h3)]
    push_cast
    rw [show (k : ℝ) + 1 - c = k - c + 1 by ring]
    have := cdf_le_one hb ((k : ℝ) - c + 2); linarith

theorem pmf_prev {b c : ℝ} (hb : 0 < b) {k : ℕ} (hk2 : (k : ℝ) + 2 ≤ 2 * c) :
    pmf b c (k + 1) ≤ Real.exp (1 / b) * pmf b c k := by
  rw [pmf_inner (by omega) (by push_cast; linarith)]
  refine le_trans (step_down hb _) (mul_le_mul_of_nonneg_left ?_ (Real.exp_pos _).le)
  unfold pmf tail
  rw [if_neg (show k + 1 ≠ 0 by omega), if_pos (show ((k + 1 : ℕ) : ℝ) ≤ 2 * c by push_cast; linarith)]
  by_cases h0 : k = 0
  · rw [if_pos h0]
    have := cdf_nonneg hb (((k + 1 : ℕ) : ℝ) - c - 1); linarith
  · rw [if_neg h0, if_pos (by linarith)]
    push_cast
    rw [show (k : ℝ) + 1 - c - 1 = k - c by ring]
    linarith

/-- The mass on the two ends of the domain. -/
theorem pmf_ends {b c : ℝ} (hb : 0 < b) (hc : 0 ≤ c) :
    (if ⌊2 * c⌋.toNat = 0 then pmf b c 0 else pmf b c 0 + pmf b c ⌊2 * c⌋.toNat) ≤ Real.exp (1 / b) * Real.exp (-(c / b)) := by
  have hfl : (⌊2 * c⌋.toNat : ℝ) = (⌊2 * c⌋ : ℝ) := by
    have : 0 ≤ ⌊2 * c⌋ := Int.floor_nonneg.mpr (by linarith)
    have h2 : ((⌊2 * c⌋.toNat : ℤ)) = ⌊2 * c⌋ := Int.toNat_of_nonneg this
    exact_mod_cast h2
  have hle : (⌊2 * c⌋.toNat : ℝ) ≤ 2 * c := by rw [hfl]; exact Int.floor_le _
  have hlt : 2 * c < (⌊2 * c⌋.toNat : ℝ) + 1 := by rw [hfl]; exact Int.lt_floor_add_one _
  obtain ⟨K, hK⟩ : ∃ K, K = ⌊2 * c⌋.toNat := ⟨_, rfl⟩
  rw [← hK] at hle hlt ⊢
  have hmul : Real.exp (1 / b) * Real.exp (-(c / b)) = Real.exp ((1 - c) / b) := by
    rw [← Real.exp_add]; congr 1; ring
  rw [hmul]
  split_ifs with h0
  · subst h0
    have h1 : 1 ≤ Real.exp ((1 - c) / b) := Real.one_le_exp (div_nonneg (by push_cast at hlt; linarith) hb.le)
    unfold pmf
    have := tail_nonneg (c := c) hb (0 + 1)
    have : tail b c 0 = 1 := by unfold tail; rw [if_pos rfl]
    linarith
  · have hK1 : (1 : ℝ) ≤ K := by exact_mod_cast (by omega : 1 ≤ K)
    have h1 : pmf b c 0 ≤ Real.exp ((1 - c) / b) / 2 := by
      have : pmf b c 0 = laplaceCDF b (1 - c) := by
        unfold pmf tail
        rw [if_pos rfl, if_neg (by omega), if_pos (by push_cast; linarith)]
        push_cast
        ring_nf
      rw [this]; exact cdf_le hb _
    have h2 : pmf b c K ≤ Real.exp ((1 - c) / b) / 2 := by
      have : pmf b c K = 1 - laplaceCDF b (K - c) := by
        unfold pmf tail
        rw [if_neg h0, if_pos hle, if_neg (by omega), if_neg (by push_cast; linarith)]
        ring
      rw [this]
      refine le_trans (one_sub_cdf_le hb _) ?_
      have : Real.exp (-((K - c) / b)) ≤ Real.exp ((1 - c) / b) := by
        apply Real.exp_le_exp.mpr
        rw [← neg_div]
        exact div_le_div_of_nonneg_right (by linarith) hb.le
      linarith
    linarith

theorem pmf_zero_of_gt {b c : ℝ} {k : ℕ} (hk0 : k ≠ 0) (hk : 2 * c < (k : ℝ)) : pmf b c k = 0 := by
  unfold pmf tail
  rw [if_neg hk0, if_neg (by linarith), if_neg (by omega), if_neg (by push_cast; linarith)]
  ring

end DPPIR.Noise
