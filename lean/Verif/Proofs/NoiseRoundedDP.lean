import Verif.Proofs.NoiseRoundedLaw

/-!
# Privacy of the sample in double arithmetic
-/

open MeasureTheory

-- that linter runs out of stack on `Fin (2 ^ 31)`
set_option linter.constructorNameAsVariable false

namespace DPPIR.Noise
open DPPIR.Spec Dbl

theorem codeLaw_apply (A : FloatOps) (d : Dist) (S : Set ℕ)
    [DecidablePred fun r : Fin (2 ^ 31) × Fin (2 ^ 31) => codeSample A d r.1 r.2 ∈ S] :
    codeLaw A d S = ((2 : ENNReal) ^ 62)⁻¹ * ((Finset.univ.filter (fun r : Fin (2 ^ 31) × Fin (2 ^ 31) => codeSample A d r.1 r.2 ∈ S)).card : ENNReal) := by
  unfold codeLaw
  rw [Measure.smul_apply, smul_eq_mul, Measure.map_apply (measurable_of_countable _) .of_discrete]
  congr 1
  have e : (fun r : Fin (2 ^ 31) × Fin (2 ^ 31) => codeSample A d r.1 r.2) ⁻¹' S =
      ((Finset.univ.filter (fun r : Fin (2 ^ 31) × Fin (2 ^ 31) => codeSample A d r.1 r.2 ∈ S) : Finset _) : Set _) := by
    ext r
    simp
  rw [e, Measure.count_apply_finset]

instance (A : FloatOps) (d : Dist) : IsProbabilityMeasure (codeLaw A d) := by
  classical
  constructor
  rw [codeLaw_apply]
  have e : (Finset.univ.filter (fun r : Fin (2 ^ 31) × Fin (2 ^ 31) => codeSample A d r.1 r.2 ∈ Set.univ)).card = 2 ^ 62 := by
    rw [Finset.filter_true_of_mem (fun _ _ => Set.mem_univ _), Finset.card_univ, Fintype.card_prod, Fintype.card_fin, ← pow_add]
  rw [e, Nat.cast_pow, Nat.cast_ofNat]
  exact ENNReal.inv_mul_cancel (by norm_num) (ENNReal.pow_ne_top (by norm_num))

theorem codeLaw_real (A : FloatOps) (d : Dist) (S : Set ℕ)
    [DecidablePred fun r : Fin (2 ^ 31) × Fin (2 ^ 31) => codeSample A d r.1 r.2 ∈ S] :
    (codeLaw A d).real S = ((Finset.univ.filter (fun r : Fin (2 ^ 31) × Fin (2 ^ 31) => codeSample A d r.1 r.2 ∈ S)).card : ℝ) / 2 ^ 62 := by
  rw [Measure.real, codeLaw_apply, ENNReal.toReal_mul, ENNReal.toReal_inv, ENNReal.toReal_pow, ENNReal.toReal_natCast, mul_comm, ENNReal.toReal_ofNat, div_eq_mul_inv]

/-- Bound on the distance of the tails. -/
noncomputable def tailError (b c : ℝ) : ℝ := (1 / 2) ^ 31 + (1 / 2) ^ 48 * (1 + c / b)

theorem tailError_nonneg {b c : ℝ} (hb0 : 0 < b) (hc0 : 0 ≤ c) : 0 ≤ tailError b c := by
  unfold tailError
  positivity

theorem half_error {b c : ℝ} (hb0 : 0 < b) (hc0 : 0 ≤ c) : (slack b c + 10 * ulp + 2 / 2 ^ 31) / 2 ≤ tailError b c := by
  unfold slack tailError ulp
  have h1 : 0 ≤ c / b := by positivity
  norm_num
  linarith

section
variable {A : FloatOps} (hA : IsDouble A) {b c : ℝ} (hb0 : 0 < b) (hbr : A.rnd b = b) (hbt : tiny ≤ ulp * b) (hc0 : 0 ≤ c)
  (hcr : A.rnd c = c) (hc2 : 2 * c < 2 ^ 32) (dbg : Bool)
include hA hb0 hbr hbt hc0 hcr hc2

/-- The tails of the computed sample are close to those of the exact one. -/
theorem code_tail {k : ℕ} (hk0 : 1 ≤ k) (hk2 : (k : ℝ) ≤ 2 * c) :
    |(codeLaw A ⟨dbg, fin b, fin c⟩).real {n | k ≤ n} - tail b c k| ≤ tailError b c := by
  classical
  have hk : k ≤ 2 ^ 53 := by
    have h1 : (k : ℝ) < (2 ^ 32 : ℕ) := by push_cast; linarith
    have h2 : k < 2 ^ 32 := by exact_mod_cast h1
    omega
  have hT := half_error hb0 hc0
  have hlow : (Finset.univ.filter (fun v : Fin (2 ^ 31) => (v : ℕ) < 2 ^ 30)).card = 2 ^ 30 := by
    rw [card_fin (2 ^ 31) (fun v => v < 2 ^ 30)]
    have : (Finset.range (2 ^ 31)).filter (fun v => v < 2 ^ 30) = Finset.range (2 ^ 30) := by
      ext x
      simp only [Finset.mem_filter, Finset.mem_range]
      omega
    rw [this, Finset.card_range]
  have hhigh : (Finset.univ.filter (fun v : Fin (2 ^ 31) => 2 ^ 30 ≤ (v : ℕ))).card = 2 ^ 30 := by
    rw [card_fin (2 ^ 31) (fun v => 2 ^ 30 ≤ v)]
    have : (Finset.range (2 ^ 31)).filter (fun v => 2 ^ 30 ≤ v) = Finset.Ico (2 ^ 30) (2 ^ 31) := by
      ext x
      simp only [Finset.mem_filter, Finset.mem_range, Finset.mem_Ico]
      omega
    rw [this, Nat.card_Ico]
    norm_num
  rw [codeLaw_real]
  have hset : (Finset.univ.filter (fun r : Fin (2 ^ 31) × Fin (2 ^ 31) => codeSample A ⟨dbg, fin b, fin c⟩ r.1 r.2 ∈ {n | k ≤ n})) =
      ((Finset.univ.filter (fun v : Fin (2 ^ 31) => 2 ^ 30 ≤ (v : ℕ))) ×ˢ (Finset.univ.filter (fun u : Fin (2 ^ 31) => Above A b c k u))) ∪
      ((Finset.univ.filter (fun v : Fin (2 ^ 31) => (v : ℕ) < 2 ^ 30)) ×ˢ (Finset.univ.filter (fun u : Fin (2 ^ 31) => ¬ Under A b c k u))) := by
    ext ⟨v, u⟩
    simp only [Finset.mem_filter, Finset.mem_univ, true_and, Set.mem_ofPred_eq, Finset.mem_union, Finset.mem_product]
    exact sample_ge hA hb0 hbr hbt hc0 hcr hc2 dbg v.isLt u.isLt hk0 hk2
  have hdis : Disjoint
      ((Finset.univ.filter (fun v : Fin (2 ^ 31) => 2 ^ 30 ≤ (v : ℕ))) ×ˢ (Finset.univ.filter (fun u : Fin (2 ^ 31) => Above A b c k u)))
      ((Finset.univ.filter (fun v : Fin (2 ^ 31) => (v : ℕ) < 2 ^ 30)) ×ˢ (Finset.univ.filter (fun u : Fin (2 ^ 31) => ¬ Under A b c k u))) := by
    rw [Finset.disjoint_left]
    rintro ⟨v, u⟩ h1 h2
    simp only [Finset.mem_filter, Finset.mem_univ, true_and, Finset.mem_product] at h1 h2
    omega
  rw [hset, Finset.card_union_of_disjoint hdis, Finset.card_product, Finset.card_product, hlow, hhigh]
  have hcompl : (Finset.univ.filter (fun u : Fin (2 ^ 31) => ¬ Under A b c k u)).card + (Finset.univ.filter (fun u : Fin (2 ^ 31) => Under A b c k u)).card = 2 ^ 31 := by
    have := Finset.card_filter_add_card_filter_not (s := (Finset.univ : Finset (Fin (2 ^ 31)))) (fun u : Fin (2 ^ 31) => Under A b c k u)
    rw [Finset.card_univ, Fintype.card_fin] at this
    omega
  have ha := card_fin (2 ^ 31) (Above A b c k)
  have hu' := card_fin (2 ^ 31) (Under A b c k)
  obtain ⟨a, hae⟩ : ∃ a, a = (Finset.univ.filter (fun u : Fin (2 ^ 31) => Above A b c k u)).card := ⟨_, rfl⟩
  obtain ⟨w, hwe⟩ : ∃ w, w = (Finset.univ.filter (fun u : Fin (2 ^ 31) => Under A b c k u)).card := ⟨_, rfl⟩
  obtain ⟨w', hwe'⟩ : ∃ w', w' = (Finset.univ.filter (fun u : Fin (2 ^ 31) => ¬ Under A b c k u)).card := ⟨_, rfl⟩
  rw [← hwe, ← hwe'] at hcompl
  rw [← hae, ← hwe']
  have hcompl' : (w' : ℝ) + w = 2 ^ 31 := by exact_mod_cast hcompl
  push_cast
  rw [tail_in (by omega) hk2]
  by_cases hkc : c < k
  · -- every draw below the mean gives less than `k`
    have hw : w' = 0 := by
      rw [hwe', Finset.card_eq_zero, Finset.filter_eq_empty_iff]
      intro u _
      rw [not_not]
      rcases folded_cases hA u.isLt with ⟨h0, -⟩ | ⟨h0, h1⟩
      · exact Or.inl h0
      · right
        have hsz := (size_close hA hbt hb0 h0 h1 (hA.idem _)).1
        have := hA.mono (show c + -sizeOf A b (folded A u) ≤ c by linarith)
        rw [hcr] at this
        linarith
    have hsh := above_share hA hb0 hbt hc0 hk hkc hk2
    rw [← ha, ← hae] at hsh
    have ht : 1 - laplaceCDF b (k - c) = Real.exp (-((k - c) / b)) / 2 := by
      unfold laplaceCDF
      rw [if_pos (by linarith)]
      ring
    rw [ht, hw]
    have e : (1073741824 * (a : ℝ) + 1073741824 * (0 : ℕ)) / 2 ^ 62 = (a : ℝ) / 2 ^ 31 / 2 := by
      push_cast
      ring
    rw [e]
    rw [abs_le] at hsh ⊢
    constructor <;> linarith [hsh.1, hsh.2]
  · -- every draw above the mean gives at least `k`
    have hkc' : (k : ℝ) ≤ c := not_lt.1 hkc
    have hav : a = 2 ^ 31 := by
      rw [hae, Finset.filter_true_of_mem, Finset.card_univ, Fintype.card_fin]
      intro u _
      rcases folded_cases hA u.isLt with ⟨h0, -⟩ | ⟨h0, h1⟩
      · exact Or.inl h0
      · right
        have hsz := (size_close hA hbt hb0 h0 h1 (hA.idem _)).1
        have := hA.mono (show c ≤ c + min c (sizeOf A b (folded A u)) by have := le_min hc0 hsz; linarith)
        rw [hcr] at this
        linarith
    have hsh := under_share hA hb0 hbt hc0 hk0 hk hkc'
    rw [← hu', ← hwe] at hsh
    have ht : 1 - laplaceCDF b (k - c) = 1 - Real.exp (-((c - k) / b)) / 2 := by
      rw [show (k : ℝ) - c = -(c - k) by ring, cdf_neg hb0]
      unfold laplaceCDF
      rw [if_pos (by linarith)]
      ring
    rw [ht, hav]
    have e : (1073741824 * ((2 ^ 31 : ℕ) : ℝ) + 1073741824 * w') / 2 ^ 62 = 1 - (w : ℝ) / 2 ^ 31 / 2 := by
      have : (w' : ℝ) = 2 ^ 31 - w := by linarith
      rw [this]
      push_cast
      ring
    rw [e]
    rw [abs_le] at hsh ⊢
    constructor <;> linarith [hsh.1, hsh.2]

/-- The computed sample is between 0 and `floor(2c)`. -/
theorem code_support : codeLaw A ⟨dbg, fin b, fin c⟩ {n | ⌊2 * c⌋.toNat < n} = 0 := by
  classical
  rw [codeLaw_apply]
  have : (Finset.univ.filter (fun r : Fin (2 ^ 31) × Fin (2 ^ 31) => codeSample A ⟨dbg, fin b, fin c⟩ r.1 r.2 ∈ {n | ⌊2 * c⌋.toNat < n})) = ∅ := by
    rw [Finset.filter_eq_empty_iff]
    intro r _ h
    have := sample_le hA hb0 hbr hbt hc0 hcr hc2 dbg r.1 r.2 r.2.isLt
    simp only [Set.mem_ofPred_eq] at h
    omega
  rw [this]
  simp

/-- Privacy of the computed sample. -/
theorem code_dp : DP (codeLaw A ⟨dbg, fin b, fin c⟩) (2 / b)
    (2 * Real.exp (1 / b) * Real.exp (-(c / b)) + 2 * (1 + Real.exp (2 / b)) * (2 * c * tailError b c)) := by
  have hprob := law_prob hb0 hc0 hc2
  have hfl : (⌊2 * c⌋.toNat : ℝ) ≤ 2 * c := by
    have h5 : 0 ≤ ⌊2 * c⌋ := Int.floor_nonneg.mpr (by linarith)
    have h6 : ((⌊2 * c⌋.toNat : ℤ)) = ⌊2 * c⌋ := Int.toNat_of_nonneg h5
    have h7 : (⌊2 * c⌋.toNat : ℝ) = (⌊2 * c⌋ : ℝ) := by exact_mod_cast h6
    rw [h7]
    exact Int.floor_le _
  have htail : ∀ k, (law b c).real {n | k ≤ n} = tail b c k := by
    intro k
    unfold law
    have h1 := setOf_le_sampleValue hb0 hc0 hc2 false k
    rw [Measure.real, Measure.map_apply (measurable_sampleValue hb0 hc0 hc2 false) .of_discrete]
    show (uniform2 {w | k ≤ sampleValue ⟨false, .fin b, .fin c⟩ w}).toReal = _
    rw [h1.2, ENNReal.toReal_ofReal (tail_nonneg hb0 k)]
  have hlaw0 : law b c {n | ⌊2 * c⌋.toNat < n} = 0 := by
    have h1 := htail (⌊2 * c⌋.toNat + 1)
    have hlt : 2 * c < ((⌊2 * c⌋.toNat + 1 : ℕ) : ℝ) := by
      have h5 : 0 ≤ ⌊2 * c⌋ := Int.floor_nonneg.mpr (by linarith)
      have h6 : ((⌊2 * c⌋.toNat : ℤ)) = ⌊2 * c⌋ := Int.toNat_of_nonneg h5
      have h7 : (⌊2 * c⌋.toNat : ℝ) = (⌊2 * c⌋ : ℝ) := by exact_mod_cast h6
      push_cast
      rw [h7]
      exact Int.lt_floor_add_one _
    rw [tail_out (by omega) hlt, Measure.real, ENNReal.toReal_eq_zero_iff] at h1
    exact h1.resolve_right (measure_ne_top _ _)
  have hcode0 := code_support hA hb0 hbr hbt hc0 hcr hc2 dbg
  have hκ := tailError_nonneg hb0 hc0
  have hclose : ∀ k, 1 ≤ k → k ≤ ⌊2 * c⌋.toNat → |(codeLaw A ⟨dbg, fin b, fin c⟩).real {n | k ≤ n} - (law b c).real {n | k ≤ n}| ≤ tailError b c := by
    intro k h1 h2
    rw [htail]
    refine code_tail hA hb0 hbr hbt hc0 hcr hc2 dbg h1 ?_
    have : (k : ℝ) ≤ ⌊2 * c⌋.toNat := by exact_mod_cast h2
    linarith
  have hmono : ENNReal.ofReal (⌊2 * c⌋.toNat * tailError b c) ≤ ENNReal.ofReal (2 * c * tailError b c) :=
    ENNReal.ofReal_le_ofReal (mul_le_mul_of_nonneg_right hfl hκ)
  refine DP.close (μ := law b c) (by positivity) (by positivity) (law_dp hb0 hc0 hc2) (fun S => ?_) (fun S => ?_)
  · refine le_trans (close_of_tails hcode0 hlaw0 (fun k h1 h2 => ?_) S) (add_le_add_right hmono _)
    rw [abs_sub_comm]
    exact hclose k h1 h2
  · exact le_trans (close_of_tails hlaw0 hcode0 hclose S) (add_le_add_right hmono _)

end

/-- Larger parameters promise less. -/
theorem DP.mono {μ : Measure ℕ} {ε δ ε' δ' : ℝ} (h : DP μ ε δ) (he : ε ≤ ε') (hd : δ ≤ δ') : DP μ ε' δ' := by
  intro ι _ f f' hn T
  refine (h ι f f' hn T).trans (add_le_add ?_ (ENNReal.ofReal_le_ofReal hd))
  gcongr

/-- The mass beyond the cutoff. -/
theorem exp_cutoff {b c p : ℝ} (hb0 : 0 < b) (hc0 : 0 ≤ c) (hp : 0 < p) (hp1 : p ≤ 1)
    (hcl : |c - b * -Real.log p| ≤ ulp * b * (4 * -Real.log p + 1)) : Real.exp (-(c / b)) ≤ p + 13 * ulp := by
  have hu := ulp_pos
  have hu1 := ulp_le
  obtain ⟨L, hL⟩ : ∃ L, L = -Real.log p := ⟨_, rfl⟩
  have hL0 : 0 ≤ L := by rw [hL]; have := Real.log_nonpos hp.le hp1; linarith
  have hpL : p = Real.exp (-L) := by rw [hL, neg_neg, Real.exp_log hp]
  rw [← hL] at hcl
  obtain ⟨t, ht⟩ : ∃ t, t = c / b := ⟨_, rfl⟩
  have hcb : c = b * t := by rw [ht]; field_simp
  have ht0 : 0 ≤ t := by rw [ht]; positivity
  have htl : |t - L| ≤ ulp * (4 * L + 1) := by
    rw [hcb, ← mul_sub, abs_mul, abs_of_pos hb0] at hcl
    have : b * |t - L| ≤ b * (ulp * (4 * L + 1)) := by linarith
    exact le_of_mul_le_mul_left this hb0
  rw [← ht]
  have hexp0 : 0 < Real.exp (-t) := Real.exp_pos _
  have hexp1 : Real.exp (-t) ≤ 1 := Real.exp_le_one_iff.2 (by linarith)
  have htexp : t * Real.exp (-t) ≤ 1 := by
    have h6 := Real.add_one_le_exp t
    have h7 : Real.exp t * Real.exp (-t) = 1 := by rw [← Real.exp_add]; simp
    calc t * Real.exp (-t) ≤ Real.exp t * Real.exp (-t) := mul_le_mul_of_nonneg_right (by linarith) hexp0.le
      _ = 1 := h7
  have hLt : L ≤ 2 * t + 1 := by
    have h8 := (abs_le.1 htl).1
    have h9 : ulp * (4 * L + 1) ≤ 1 / 1024 * (4 * L + 1) := mul_le_mul_of_nonneg_right hu1 (by linarith)
    linarith
  have hkey : Real.exp (-t) - p ≤ Real.exp (-t) * (L - t) := by
    have h6 := Real.add_one_le_exp (-(L - t))
    have h7 : p = Real.exp (-t) * Real.exp (-(L - t)) := by rw [hpL, ← Real.exp_add]; congr 1; ring
    rw [h7]
    have h8 := mul_le_mul_of_nonneg_left h6 hexp0.le
    linarith
  have hbnd : Real.exp (-t) * (L - t) ≤ 13 * ulp := by
    have h6 : L - t ≤ ulp * (8 * t + 5) := by
      have := (abs_le.1 htl).1
      have h7 : ulp * (4 * L + 1) ≤ ulp * (8 * t + 5) := mul_le_mul_of_nonneg_left (by linarith) hu.le
      linarith
    calc Real.exp (-t) * (L - t) ≤ Real.exp (-t) * (ulp * (8 * t + 5)) := mul_le_mul_of_nonneg_left h6 hexp0.le
      _ = ulp * (8 * (t * Real.exp (-t)) + 5 * Real.exp (-t)) := by ring
      _ ≤ ulp * 13 := mul_le_mul_of_nonneg_left (by linarith) hu.le
      _ = 13 * ulp := by ring
  linarith

/-- The numbers the constructor computes from accepted parameters. -/
theorem accepted_rounded {A : FloatOps} (hA : IsDouble A) {epsilon delta : ℝ} (he : 0 < epsilon) (he1 : epsilon ≤ 2 ^ 1000)
    (hd0 : 0 < delta) (hd1 : delta ≤ 1) {d : Dist} (h : Dist.new A (.fin epsilon) (.fin delta) = .ok d) :
    ∃ b c : ℝ, d = ⟨false, fin b, fin c⟩ ∧ 0 < b ∧ A.rnd b = b ∧ tiny ≤ ulp * b ∧ 2 / b ≤ epsilon * (1 + (1 / 2) ^ 50) ∧
      0 ≤ c ∧ A.rnd c = c ∧ 2 * c < 2 ^ 32 ∧ Real.exp (-(c / b)) ≤ delta + (1 / 2) ^ 47 := by
  have hu := ulp_pos
  have hu1 := ulp_le
  -- the span
  obtain ⟨b, hbe⟩ : ∃ b, b = A.rnd (2 / epsilon) := ⟨_, rfl⟩
  obtain ⟨x, hx⟩ : ∃ x, x = 2 / epsilon := ⟨_, rfl⟩
  have hx0 : 0 < x := by rw [hx]; positivity
  have hsmall : tiny ≤ ulp * (1 / 2) ^ 1000 := by
    unfold tiny ulp
    rw [← pow_add]
    exact pow_le_pow_of_le_one (by norm_num) (by norm_num) (by norm_num)
  have hpos : (0 : ℝ) < (1 / 2) ^ 1000 := pow_pos (by norm_num) _
  have hxl : 2 * (1 / 2) ^ 1000 ≤ x := by
    rw [hx, one_div_pow, mul_one_div]
    exact div_le_div_of_nonneg_left (by norm_num) he he1
  have hxt : tiny ≤ ulp * x :=
    hsmall.trans (mul_le_mul_of_nonneg_left (by linarith) hu.le)
  have hbx : |b - x| ≤ 2 * ulp * x := by
    have := rnd_close hA x
    rw [hbe, ← hx]
    rw [abs_of_pos hx0] at this
    linarith
  have hb1 : (1 - 2 * ulp) * x ≤ b := by linarith [(abs_le.1 hbx).1]
  have hb2 : x / 2 ≤ b := by nlinarith
  have hb0 : 0 < b := by linarith
  have hbr : A.rnd b = b := by rw [hbe, hA.idem]
  have hbt : tiny ≤ ulp * b :=
    hsmall.trans (mul_le_mul_of_nonneg_left (by linarith) hu.le)
  have hbeps : 2 / b ≤ epsilon * (1 + (1 / 2) ^ 50) := by
    have h5 : ((1 / 2) ^ 50 : ℝ) = 4 * ulp := by unfold ulp; norm_num
    rw [h5, div_le_iff₀ hb0]
    have h6 : epsilon * x = 2 := by rw [hx]; field_simp
    have h7 : epsilon * ((1 - 2 * ulp) * x) ≤ epsilon * b := mul_le_mul_of_nonneg_left hb1 he.le
    have h8 : (1 - 2 * ulp) * 2 ≤ epsilon * b := by
      calc (1 - 2 * ulp) * 2 = epsilon * ((1 - 2 * ulp) * x) := by rw [← h6]; ring
        _ ≤ _ := h7
    nlinarith
  -- the cutoff
  obtain ⟨y, hy⟩ : ∃ y, y = A.rnd (delta / 2) := ⟨_, rfl⟩
  have hy2 : y ≤ 1 / 2 := by rw [hy, ← hA.half]; exact hA.mono (by linarith)
  have hy0 : 0 ≤ y := by rw [hy]; exact rnd_nonneg hA (by linarith)
  have hpc : |foldedOf A y - delta| ≤ 10 * ulp := by
    have := folded_close hA (x := delta / 2) (by linarith) (by linarith)
    rw [← hy, abs_of_nonpos (show delta / 2 - 1 / 2 ≤ 0 by linarith)] at this
    rwa [show 1 - 2 * -(delta / 2 - 1 / 2) = delta by ring] at this
  have hp1 := folded_le_one hA y
  have hp0 : 0 ≤ foldedOf A y := by
    unfold foldedOf
    have h1 : A.rnd (y + -(1 / 2)) ≤ 0 := by rw [← rnd_zero hA]; exact hA.mono (by linarith)
    have h2 : -(1 / 2) ≤ A.rnd (y + -(1 / 2)) := by
      have := hA.mono (show -(1 / 2) ≤ y + -(1 / 2) by linarith)
      rwa [hA.odd, hA.half] at this
    have h3 : A.rnd (2 * |A.rnd (y + -(1 / 2))|) ≤ 1 := by
      have := hA.mono (show 2 * |A.rnd (y + -(1 / 2))| ≤ 1 by rw [abs_of_nonpos h1]; linarith)
      rwa [rnd_one hA] at this
    exact rnd_nonneg hA (by linarith)
  have hf : fields A (.fin epsilon) (.fin delta) = ⟨false, fin b, laplaceExpr A (fin 0) (fin b) (fin y) 1⟩ := by
    unfold fields
    rw [if_neg (by simp [isZero, he.ne', hd0.ne'])]
    have e1 : div A (fin 2) (fin epsilon) = fin b := by
      simp only [div, if_neg he.ne', hbe]
    have e2 : div A (fin delta) (fin 2) = fin y := by
      simp only [div, if_neg (two_ne_zero : (2 : ℝ) ≠ 0), hy]
    simp only [e1, e2]
    unfold invCDF
    rw [if_neg (show ¬ Dbl.lt (fin (1 / 2)) (fin y) from not_lt.2 hy2)]
  unfold Dist.new at h
  simp only [hf] at h
  rw [bind_eq_ok] at h
  obtain ⟨w, h1, hd⟩ := h
  unfold domainCheck at h1
  rw [bind_eq_ok] at h1
  obtain ⟨mx, h2, -⟩ := h1
  rcases hp0.eq_or_lt with hp | hp
  · rw [(laplaceExpr_inf hA hbr hb0 hp.symm).1] at h2
    simp [mul, scaleInf, Dbl.floor, toU32] at h2
  obtain ⟨c, hc⟩ : ∃ c, c = sizeOf A b (foldedOf A y) := ⟨_, rfl⟩
  have hcr : A.rnd c = c := by rw [hc]; unfold sizeOf; rw [hA.idem]
  rw [(laplaceExpr_pos hA hbr hp).1, ← hc] at h2 hd
  obtain ⟨hc0, hcl⟩ := size_close hA hbt hb0 hp hp1 (hA.idem _)
  rw [← hc] at hc0 hcl
  refine ⟨b, c, (Except.ok.inj hd).symm, hb0, hbr, hbt, hbeps, hc0, hcr, ?_, ?_⟩
  · have h22 : A.rnd (2 * c) = 2 * c := by
      have := hA.twice c
      rwa [hcr] at this
    simp only [mul, Dbl.floor, toU32, h22] at h2
    split at h2
    · rename_i h3
      have h4 : ⌊2 * c⌋ < (2 ^ 32 : ℤ) := by exact_mod_cast h3.2
      have h5 := Int.floor_lt.mp h4
      exact_mod_cast h5
    · cases h2
  · obtain ⟨p, hpe⟩ : ∃ p, p = foldedOf A y := ⟨_, rfl⟩
    rw [← hpe] at hpc hp1 hp hcl
    have h47 : 23 * ulp ≤ (1 / 2) ^ 47 := by unfold ulp; norm_num
    have := (abs_le.1 hpc).2
    linarith [exp_cutoff hb0 hc0 hp hp1 hcl]

/-- What the constructor accepts gives privacy, in terms of the given parameters. -/
theorem new_dp {A : FloatOps} (hA : IsDouble A) {epsilon delta : ℝ} (he : 0 < epsilon) (he1 : epsilon ≤ 2 ^ 1000)
    (hd0 : 0 < delta) (hd1 : delta ≤ 1) {d : Dist} (h : Dist.new A (.fin epsilon) (.fin delta) = .ok d) :
    ∃ c : ℝ, d.cutoff = .fin c ∧ 0 ≤ c ∧ 2 * c < 2 ^ 32 ∧ codeLaw A d {n | ⌊2 * c⌋.toNat < n} = 0 ∧
      DP (codeLaw A d) (epsilon * (1 + (1 / 2) ^ 50)) (roundedDelta (epsilon * (1 + (1 / 2) ^ 50)) delta c) := by
  obtain ⟨b, c, rfl, hb0, hbr, hbt, hbe, hc0, hcr, hc2, hex⟩ := accepted_rounded hA he he1 hd0 hd1 h
  refine ⟨c, rfl, hc0, hc2, code_support hA hb0 hbr hbt hc0 hcr hc2 false,
    DP.mono (code_dp hA hb0 hbr hbt hc0 hcr hc2 false) hbe ?_⟩
  obtain ⟨e, hee⟩ : ∃ e, e = epsilon * (1 + (1 / 2) ^ 50) := ⟨_, rfl⟩
  rw [← hee] at hbe ⊢
  unfold roundedDelta tailError
  have h1 : Real.exp (1 / b) ≤ Real.exp (e / 2) := Real.exp_le_exp.2 (by rw [show 1 / b = 2 / b / 2 by ring]; linarith)
  have h2 : Real.exp (2 / b) ≤ Real.exp e := Real.exp_le_exp.2 hbe
  have hcb : c / b ≤ e * c := by
    have h3 : 0 ≤ 2 / b := by positivity
    have h4 : 1 / b ≤ e := by rw [show 1 / b = 2 / b / 2 by ring]; linarith
    rw [div_eq_mul_one_div, mul_comm]
    exact mul_le_mul_of_nonneg_right h4 hc0
  have hcb0 : 0 ≤ c / b := by positivity
  have t1 : 2 * Real.exp (1 / b) * Real.exp (-(c / b)) ≤ 2 * Real.exp (e / 2) * (delta + (1 / 2) ^ 47) :=
    mul_le_mul (by linarith) hex (Real.exp_pos _).le (by positivity)
  have t2 : 2 * (1 + Real.exp (2 / b)) * (2 * c * ((1 / 2) ^ 31 + (1 / 2) ^ 48 * (1 + c / b))) ≤
      2 * (1 + Real.exp e) * (2 * c * ((1 / 2) ^ 31 + (1 / 2) ^ 48 * (1 + e * c))) := by
    refine mul_le_mul (by linarith) ?_ (by positivity) (by positivity)
    refine mul_le_mul_of_nonneg_left ?_ (by positivity)
    have := mul_le_mul_of_nonneg_left hcb (show (0 : ℝ) ≤ (1 / 2) ^ 48 by positivity)
    linarith
  calc _ ≤ 2 * Real.exp (e / 2) * (delta + (1 / 2) ^ 47) + 2 * (1 + Real.exp e) * (2 * c * ((1 / 2) ^ 31 + (1 / 2) ^ 48 * (1 + e * c))) :=
        add_le_add t1 t2
    _ = _ := by ring

end DPPIR.Noise
