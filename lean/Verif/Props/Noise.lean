import Verif.Proofs.Noise
import Mathlib.Analysis.Complex.ExponentialBounds

/-!
# C16–C18: noise ranges, noise domain
-/

namespace DPPIR.Props
open DPPIR.Noise

/-! ## C16 -/

/-- Key `k` is in the range the server gets. -/
def InRange (rnd : ℚ → ℚ) (i n : BitVec 8) (db k : Nat) : Prop :=
  ∃ lo hi, findRange rnd i n db = .ok (lo, hi) ∧ lo ≤ k ∧ k < hi

/-- The ranges of all servers partition the keys of the database. -/
def RangesPartition (rnd : ℚ → ℚ) (n : BitVec 8) (db : Nat) : Prop :=
  (∀ i : BitVec 8, i < n → ∃ lo hi, findRange rnd i n db = .ok (lo, hi) ∧ lo ≤ hi ∧ hi ≤ db) ∧
    ∀ k < db, ∃! i : BitVec 8, i < n ∧ InRange rnd i n db k

/-- The size of every range but the last: `db / n` rounded up. -/
def ceilDiv (db n : Nat) : Nat := (db + n - 1) / n

private theorem ceilDiv_spec (db n : Nat) (hn : 0 < n) : db ≤ n * ceilDiv db n ∧ n * ceilDiv db n < db + n := by
  unfold ceilDiv
  have hdm := Nat.div_add_mod (db + n - 1) n
  have hm := Nat.mod_lt (db + n - 1) hn
  omega

/-- **C16**. For every server count and every database the code accepts, and however
the division is rounded: the ranges partition the database exactly when
`(n - 1) * ceil(db / n) ≤ db`.  The code only asserts `n ≤ db`, so the property as
stated is false; this is the exact condition under which it holds. -/
theorem C16_partition_iff (rnd : ℚ → ℚ) (h : IsDivRounding rnd) (n : BitVec 8) (hn : 0 < n.toNat) (db : Nat)
    (hdb : db < 2 ^ 32) (hle : n.toNat ≤ db) :
    RangesPartition rnd n db ↔ (n.toNat - 1) * ceilDiv db n.toNat ≤ db := by
  obtain ⟨c, hc⟩ : ∃ c, c = ceilDiv db n.toNat := ⟨_, rfl⟩
  obtain ⟨hs1, hs2⟩ := ceilDiv_spec db n.toNat hn
  have hfr : ∀ i : BitVec 8, findRange rnd i n db = .ok (wrap32 (i.toNat * c),
      if i.toNat + 1 = n.toNat then db else wrap32 (wrap32 (i.toNat * c) + c)) := by
    intro i; rw [findRange_eq h i n hn hdb hle, hc]; rfl
  rw [← hc] at hs1 hs2 ⊢
  obtain ⟨m, hm⟩ : ∃ m, n.toNat = m + 1 := ⟨n.toNat - 1, by omega⟩
  have hmc : n.toNat * c = m * c + c := by rw [hm]; ring
  have hnlt := n.isLt
  rw [show n.toNat - 1 = m by omega]
  constructor
  · rintro ⟨h1, -⟩
    by_contra hgt
    have hcn : c < n.toNat := by omega
    have hmul : m * c ≤ 255 * 255 := Nat.mul_le_mul (by omega) (by omega)
    have hlt : (BitVec.ofNat 8 m) < n := by
      rw [BitVec.lt_def]; simp; omega
    have hmt : (BitVec.ofNat 8 m).toNat = m := by simp; omega
    obtain ⟨lo, hi, he, h3, h4⟩ := h1 (BitVec.ofNat 8 m) hlt
    rw [hfr, hmt, if_pos hm.symm] at he
    injection he with he
    injection he with he1 he2
    unfold wrap32 at he1
    rw [Nat.mod_eq_of_lt (by omega)] at he1
    omega
  · intro hmle
    have hstep : ∀ i : BitVec 8, i < n → i.toNat * c ≤ m * c := by
      intro i hi
      rw [BitVec.lt_def] at hi
      exact Nat.mul_le_mul_right _ (by omega)
    have hr : ∀ i : BitVec 8, i < n → findRange rnd i n db = .ok (i.toNat * c,
        if i.toNat + 1 = n.toNat then db else (i.toNat + 1) * c) := by
      intro i hi
      have h1 := hstep i hi
      rw [hfr]
      congr 2
      · unfold wrap32; rw [Nat.mod_eq_of_lt (by omega)]
      · by_cases hl : i.toNat + 1 = n.toNat
        · rw [if_pos hl, if_pos hl]
        · rw [if_neg hl, if_neg hl]
          rw [BitVec.lt_def] at hi
          have h2 : (i.toNat + 1) * c ≤ m * c := Nat.mul_le_mul_right _ (by omega)
          have h3 : (i.toNat + 1) * c = i.toNat * c + c := by ring
          unfold wrap32
          rw [Nat.mod_eq_of_lt (a := i.toNat * c) (by omega), Nat.mod_eq_of_lt (by omega), h3]
    refine ⟨?_, ?_⟩
    · intro i hi
      refine ⟨_, _, hr i hi, ?_⟩
      have h1 := hstep i hi
      by_cases hl : i.toNat + 1 = n.toNat
      · rw [if_pos hl]; omega
      · rw [if_neg hl]
        rw [BitVec.lt_def] at hi
        have h2 : (i.toNat + 1) * c ≤ m * c := Nat.mul_le_mul_right _ (by omega)
        have h3 : (i.toNat + 1) * c = i.toNat * c + c := by ring
        omega
    · intro k hk
      have hc0 : 0 < c := by
        rcases Nat.eq_zero_or_pos c with h0 | h0
        · rw [h0] at hs1; omega
        · exact h0
      -- the server is min (k / c) (n - 1)
      obtain ⟨j, hj⟩ : ∃ j, j = min (k / c) m := ⟨_, rfl⟩
      have hjm : j ≤ m := by omega
      have hj8 : (BitVec.ofNat 8 j).toNat = j := by simp; omega
      have hjn : BitVec.ofNat 8 j < n := by rw [BitVec.lt_def, hj8]; omega
      have hkd := Nat.div_add_mod k c
      have hkm := Nat.mod_lt k hc0
      have key : ∀ i : BitVec 8, i < n → (InRange rnd i n db k ↔ i.toNat = j) := by
        intro i hi
        have hi2 := hi
        rw [BitVec.lt_def] at hi2
        unfold InRange
        constructor
        · rintro ⟨lo, hi', he, h1, h2⟩
          rw [hr i hi] at he
          injection he with he
          injection he with he1 he2
          subst he1
          have ha : i.toNat ≤ k / c := by rw [Nat.le_div_iff_mul_le hc0]; exact h1
          by_cases hl : i.toNat + 1 = n.toNat
          · omega
          · rw [if_neg hl] at he2
            subst he2
            have hb : k / c < i.toNat + 1 := by rw [Nat.div_lt_iff_lt_mul hc0]; exact h2
            omega
        · intro hij
          refine ⟨_, _, hr i hi, ?_, ?_⟩
          · have : i.toNat * c ≤ k / c * c := Nat.mul_le_mul_right _ (by omega)
            rw [Nat.mul_comm (k / c)] at this
            omega
          · by_cases hl : i.toNat + 1 = n.toNat
            · rw [if_pos hl]; exact hk
            · rw [if_neg hl, ← Nat.div_lt_iff_lt_mul hc0]
              omega
      refine ⟨BitVec.ofNat 8 j, ⟨hjn, (key _ hjn).mpr hj8⟩, ?_⟩
      rintro i ⟨hi1, hi2⟩
      apply BitVec.eq_of_toNat_eq
      rw [(key i hi1).mp hi2, hj8]

/-- **C16**. In particular the ranges are a partition for databases of at least
`n * (n - 1)` rows, and always for a single server. -/
theorem C16_partition_partial (rnd : ℚ → ℚ) (h : IsDivRounding rnd) (n : BitVec 8) (hn : 0 < n.toNat) (db : Nat)
    (hdb : db < 2 ^ 32) (hle : n.toNat ≤ db) (hbig : n.toNat * (n.toNat - 1) ≤ db) : RangesPartition rnd n db := by
  rw [C16_partition_iff rnd h n hn db hdb hle]
  obtain ⟨hs1, hs2⟩ := ceilDiv_spec db n.toNat hn
  obtain ⟨m, hm⟩ : ∃ m, n.toNat = m + 1 := ⟨n.toNat - 1, by omega⟩
  rw [hm] at hs1 hs2 hbig ⊢
  rw [show m + 1 - 1 = m by omega] at hbig ⊢
  have h1 : m ≤ ceilDiv db (m + 1) := by
    by_contra hlt
    have : (m + 1) * (ceilDiv db (m + 1) + 1) ≤ (m + 1) * m := Nat.mul_le_mul_left _ (by omega)
    have h2 : (m + 1) * (ceilDiv db (m + 1) + 1) = (m + 1) * ceilDiv db (m + 1) + (m + 1) := by ring
    omega
  have : (m + 1) * ceilDiv db (m + 1) = m * ceilDiv db (m + 1) + ceilDiv db (m + 1) := by ring
  omega

/-- The property is false of the code: with 5 rows and 4 servers the assertion holds
but server 2 gets keys outside the database and server 3 a range that ends before it
begins. -/
theorem C16_violated (rnd : ℚ → ℚ) (h : IsDivRounding rnd) :
    findRange rnd 2 4 5 = .ok (4, 6) ∧ findRange rnd 3 4 5 = .ok (6, 5) ∧ ¬ RangesPartition rnd 4 5 := by
  refine ⟨?_, ?_, ?_⟩
  · rw [findRange_eq h 2 4 (by decide) (by omega) (by decide)]; rfl
  · rw [findRange_eq h 3 4 (by decide) (by omega) (by decide)]; rfl
  · rw [C16_partition_iff rnd h 4 (by decide) 5 (by omega) (by decide)]; decide

/-- **C16**. Fewer rows than servers stop the program. -/
theorem C16_too_small (rnd : ℚ → ℚ) (i n : BitVec 8) (db : Nat) (h : db < n.toNat) :
    findRange rnd i n db = .error .assertFail := by
  unfold findRange; rw [if_neg (by omega)]

/-- Exact division, and rounding down to multiples of 2^-20, are admissible. -/
example : IsDivRounding id ∧ IsDivRounding (fun q => (⌊q * 2 ^ 20⌋ : ℚ) / 2 ^ 20) := by
  refine ⟨⟨monotone_id, fun _ _ => rfl⟩, ⟨?_, ?_⟩⟩
  · intro a b hab
    simp only
    have : ⌊a * 2 ^ 20⌋ ≤ ⌊b * 2 ^ 20⌋ := Int.floor_mono (by linarith)
    have : (⌊a * 2 ^ 20⌋ : ℚ) ≤ (⌊b * 2 ^ 20⌋ : ℚ) := by exact_mod_cast this
    exact div_le_div_of_nonneg_right this (by positivity)
  · intro k _
    have : (k : ℚ) / 256 * 2 ^ 20 = ((k * 4096 : ℕ) : ℤ) := by push_cast; ring
    rw [this, Int.floor_intCast]
    push_cast
    ring

example : RangesPartition id 3 10 := by
  refine C16_partition_partial id ⟨monotone_id, fun _ _ => rfl⟩ 3 (by decide) 10 (by omega) (by decide) (by decide)

/-! ## C17, C18 -/

/-- What C17 needs of double arithmetic: rounding is monotone, leaves 0 alone and
doubling a double is exact. -/
structure SoundRounding (A : FloatOps) : Prop where
  mono : Monotone A.rnd
  zero : A.rnd 0 = 0
  double : ∀ x, A.rnd (A.rnd x + A.rnd x) = A.rnd x + A.rnd x ∧ A.rnd (2 * A.rnd x) = 2 * A.rnd x

/-- A double the arithmetic can produce. -/
def Representable (A : FloatOps) : Dbl → Prop
  | .fin r => A.rnd r = r
  | _ => True

private theorem toU32_eq {d : Dbl} {k : Nat} (h : Dbl.toU32 (Dbl.floor d) = .ok k) :
    ∃ r : ℝ, d = .fin r ∧ 0 ≤ r ∧ r < 2 ^ 32 ∧ k = ⌊r⌋.toNat := by
  cases d with
  | fin r =>
    unfold Dbl.floor Dbl.toU32 at h
    simp only at h
    split at h
    · rename_i hr
      injection h with h
      rw [Int.floor_intCast] at h
      refine ⟨r, rfl, ?_, ?_, h.symm⟩
      · have : (-1 : ℤ) < ⌊r⌋ := by exact_mod_cast hr.1
        exact Int.floor_nonneg.mp (by omega)
      · have h2 : ⌊r⌋ < (2 ^ 32 : ℤ) := by exact_mod_cast hr.2
        have h3 := Int.floor_lt.mp h2
        exact_mod_cast h3
    · cases h
  | pinf => cases h
  | ninf => cases h
  | nan => cases h

theorem toU32_ok {r : ℝ} (h0 : 0 ≤ r) (h1 : r < 2 ^ 32) : Dbl.toU32 (Dbl.floor (.fin r)) = .ok ⌊r⌋.toNat := by
  unfold Dbl.floor Dbl.toU32
  simp only
  rw [if_pos, Int.floor_intCast]
  constructor
  · have := Int.floor_nonneg.mpr h0
    have : (0 : ℝ) ≤ (⌊r⌋ : ℝ) := by exact_mod_cast this
    linarith
  · exact lt_of_le_of_lt (Int.floor_le r) h1

/-- **C17**. If the constructor accepts the parameters (any doubles at all), then the
cutoff is a number `c ≥ 0`, the default build always returns `floor(c)`, and every
real sample is between 0 and `floor(2c) < 2^32`, whatever the two uniform draws are —
including endpoints, infinities and NaN. -/
theorem C17_domain (A : FloatOps) (hA : SoundRounding A) (epsilon delta : Dbl) (d : Dist)
    (h : Dist.new A epsilon delta = .ok d) (hrep : Representable A d.cutoff) :
    ∃ c : ℝ, d.cutoff = .fin c ∧ 0 ≤ c ∧ 2 * c < 2 ^ 32 ∧ d.sampleDefault = .ok ⌊c⌋.toNat ∧
      ∀ v u, ∃ k, d.sampleReal A v u = .ok k ∧ k ≤ ⌊2 * c⌋.toNat := by
  unfold Dist.new at h
  simp only at h
  rw [bind_eq_ok] at h
  obtain ⟨w, h1, h2⟩ := h
  injection h2 with h2
  rw [h2] at h1
  unfold domainCheck at h1
  rw [bind_eq_ok] at h1
  obtain ⟨mx, h3, -⟩ := h1
  obtain ⟨r, hr, hr0, hr1, -⟩ := toU32_eq h3
  -- the cutoff is finite
  obtain ⟨c, hc⟩ : ∃ c, d.cutoff = .fin c := by
    cases hcut : d.cutoff with
    | fin c => exact ⟨c, rfl⟩
    | pinf => rw [hcut] at hr; simp [Dbl.mul, Dbl.scaleInf] at hr
    | ninf => rw [hcut] at hr; simp [Dbl.mul, Dbl.scaleInf, Dbl.neg] at hr
    | nan => rw [hcut] at hr; simp [Dbl.mul] at hr
  rw [hc] at hr hrep
  simp only [Representable] at hrep
  have hd := hA.double c
  rw [hrep] at hd
  simp only [Dbl.mul, hd.2, Dbl.fin.injEq] at hr
  subst hr
  have hc0 : 0 ≤ c := by linarith
  refine ⟨c, hc, hc0, hr1, ?_, ?_⟩
  · unfold Dist.sampleDefault Dbl.toU32
    rw [hc]
    simp only
    rw [if_pos ⟨by linarith, by linarith⟩]
  · intro v u
    unfold Dist.sampleReal
    rw [hc]
    -- whatever the Laplace draw is, the clamped value is a number in [0, 2c]
    have key : ∀ x : Dbl, ∃ y : ℝ, Dbl.fmax (.fin 0) (Dbl.add A (.fin c) (Dbl.fmin (.fin c) x)) = .fin y ∧
        0 ≤ y ∧ y ≤ 2 * c := by
      intro x
      have fmax_le : ∀ s : ℝ, s ≤ 2 * c → ∃ y : ℝ, Dbl.fmax (.fin 0) (.fin s) = .fin y ∧ 0 ≤ y ∧ y ≤ 2 * c := by
        intro s hs
        exact ⟨max 0 s, fmax_fin 0 s, le_max_left _ _, max_le (by linarith) hs⟩
      have hcc : A.rnd (c + c) ≤ 2 * c := by rw [hd.1]; linarith
      cases x with
      | fin t =>
        obtain ⟨s, hs, hs2⟩ : ∃ s, Dbl.fmin (.fin c) (.fin t) = .fin s ∧ s ≤ c :=
          ⟨min c t, fmin_fin c t, min_le_left _ _⟩
        rw [hs]
        simp only [Dbl.add]
        exact fmax_le _ (le_trans (hA.mono (by linarith)) hcc)
      | pinf =>
        have : Dbl.fmin (.fin c) .pinf = .fin c := by unfold Dbl.fmin; simp [Dbl.lt]
        rw [this]
        simp only [Dbl.add]
        exact fmax_le _ hcc
      | ninf =>
        have : Dbl.fmin (.fin c) .ninf = .ninf := by unfold Dbl.fmin; simp [Dbl.lt]
        rw [this]
        simp only [Dbl.add]
        refine ⟨0, ?_, le_refl _, by linarith⟩
        unfold Dbl.fmax; simp [Dbl.lt]
      | nan =>
        have : Dbl.fmin (.fin c) .nan = .fin c := by unfold Dbl.fmin; simp
        rw [this]
        simp only [Dbl.add]
        exact fmax_le _ hcc
    obtain ⟨y, hy, hy0, hy1⟩ := key (laplace A (.fin 0) d.span v u)
    rw [hy]
    refine ⟨_, toU32_ok hy0 (by linarith), ?_⟩
    exact Int.toNat_le_toNat (Int.floor_mono hy1)

/-- **C17**. With `epsilon = 0` or `delta = 0` the constructor succeeds and every
sample is 0, in both builds. -/
theorem C17_no_noise (A : FloatOps) (hA : SoundRounding A) (epsilon delta : Dbl) (h : epsilon.isZero ∨ delta.isZero) :
    ∃ d, Dist.new A epsilon delta = .ok d ∧ d.sampleDefault = .ok 0 ∧ ∀ v u, d.sampleReal A v u = .ok 0 := by
  have hf : fields A epsilon delta = ⟨true, .fin 0, .fin 0⟩ := by unfold fields; rw [if_pos h]
  have hnew : Dist.new A epsilon delta = .ok ⟨true, .fin 0, .fin 0⟩ := by
    unfold Dist.new
    simp only [hf]
    unfold domainCheck
    simp only [Dbl.mul, mul_zero, hA.zero]
    rw [toU32_ok (le_refl _) (by norm_num)]
    simp [wrap32]
  obtain ⟨c, hc, -, -, hd, hr⟩ := C17_domain A hA epsilon delta _ hnew hA.zero
  injection hc with hc
  subst hc
  refine ⟨_, hnew, by simpa using hd, ?_⟩
  intro v u
  obtain ⟨k, hk, hk2⟩ := hr v u
  simp at hk2
  rw [hk, hk2]

/-- **C18** is false of the code: the constructor's check never fires, whatever the
parameters.  It either accepts them or converts a value that does not fit (undefined
behaviour). -/
theorem C18_check_never_fires (A : FloatOps) (epsilon delta : Dbl) :
    Dist.new A epsilon delta ≠ .error .assertFail := by
  intro h
  unfold Dist.new at h
  simp only at h
  have : domainCheck A (fields A epsilon delta).cutoff = .error .ub ∨
      domainCheck A (fields A epsilon delta).cutoff = .ok () := by
    unfold domainCheck
    cases hx : Dbl.toU32 (Dbl.floor (Dbl.mul A (.fin 2) (fields A epsilon delta).cutoff)) with
    | error e =>
      left
      rw [bind_error]
      congr 1
      unfold Dbl.toU32 at hx
      split at hx
      · split at hx
        · cases hx
        · injection hx with hx; exact hx.symm
      · injection hx with hx; exact hx.symm
    | ok mx =>
      right
      obtain ⟨r, -, hr0, hr1, rfl⟩ := toU32_eq hx
      rw [bind_ok, if_neg]
      have h2 : ⌊r⌋ < (2 ^ 32 : ℤ) := Int.floor_lt.mpr (by exact_mod_cast hr1)
      unfold wrap32
      rw [Nat.mod_eq_of_lt (by omega)]
      simp
  rcases this with h1 | h1 <;> rw [h1] at h <;> simp at h

/-- **C18**. A noise domain that does not fit 32 bits makes the constructor's
conversion undefined instead of stopping it.  Here, in exact arithmetic, for
every `0 < epsilon`, `0 < delta < 1` with `(4 / epsilon) * log(1 / delta) ≥ 2^32`. -/
theorem C18_oversized_is_ub (epsilon delta : ℝ) (he : 0 < epsilon) (hd0 : 0 < delta) (hd1 : delta < 1)
    (hbig : 2 ^ 32 ≤ 4 / epsilon * Real.log (1 / delta)) :
    Dist.new .exact (.fin epsilon) (.fin delta) = .error .ub := by
  have hc : 2 ^ 32 ≤ 2 * (2 / epsilon * Real.log (1 / delta)) := by
    calc _ ≤ _ := hbig
      _ = _ := by ring
  unfold Dist.new
  simp only [fields_exact epsilon delta he hd0 hd1.le]
  have : domainCheck .exact (.fin (2 / epsilon * Real.log (1 / delta))) = .error .ub := by
    unfold domainCheck
    simp only [Dbl.mul, FloatOps.exact, id, Dbl.floor, Dbl.toU32]
    rw [if_neg]
    · rfl
    · rintro ⟨-, h2⟩
      have h3 : (2 ^ 32 : ℤ) ≤ ⌊2 * (2 / epsilon * Real.log (1 / delta))⌋ := Int.le_floor.mpr (by exact_mod_cast hc)
      have h4 : ((2 ^ 32 : ℤ) : ℝ) ≤ (⌊2 * (2 / epsilon * Real.log (1 / delta))⌋ : ℝ) := by exact_mod_cast h3
      push_cast at h4
      linarith
  rw [this]
  rfl

/-- **C18**. Rounding adds a second way to the same end: for a positive `delta` so
small that `delta / 2 - 1 / 2` rounds to `-1 / 2` (about `delta < 2^-53`), the cutoff is
infinite. -/
theorem C18_tiny_delta_is_ub (A : FloatOps) (epsilon delta : ℝ) (he : 0 < epsilon) (hd0 : 0 < delta)
    (hd1 : A.rnd (delta / 2) ≤ 1 / 2) (hspan : 0 < A.rnd (2 / epsilon)) (hs2 : A.rnd (1 * A.rnd (2 / epsilon)) = A.rnd (2 / epsilon))
    (htiny : A.rnd (A.rnd (delta / 2) + -(1 / 2)) = -(1 / 2)) (hone : A.rnd 1 = 1) (hzero : A.rnd 0 = 0) :
    Dist.new A (.fin epsilon) (.fin delta) = .error .ub := by
  have hf : (fields A (.fin epsilon) (.fin delta)).cutoff = .pinf := by
    unfold fields
    rw [if_neg (by simp only [Dbl.isZero]; rintro (h | h) <;> linarith)]
    simp only [Dbl.div, if_neg he.ne', if_neg (two_ne_zero (α := ℝ))]
    unfold invCDF
    rw [if_neg (by simp only [Dbl.lt]; linarith)]
    simp only [laplaceExpr, Dbl.sub, Dbl.neg, Dbl.add, htiny, Dbl.abs, abs_neg]
    rw [abs_of_pos (by norm_num : (0 : ℝ) < 1 / 2)]
    simp only [Dbl.mul, mul_one_div, div_self (two_ne_zero (α := ℝ)), hone, Dbl.neg, Dbl.add, add_neg_cancel, hzero, Dbl.log,
      lt_irrefl, if_false, if_true, hs2, Dbl.scaleInf, if_pos hspan]
  unfold Dist.new
  simp only [hf]
  have : domainCheck A .pinf = .error .ub := by
    unfold domainCheck
    simp only [Dbl.mul, Dbl.scaleInf, if_pos (two_pos (α := ℝ)), Dbl.floor, Dbl.toU32, bind_error]
  rw [this, bind_error]

/-- Arithmetic and parameters meeting the hypotheses: exact except that numbers within
2^-60 of -1/2 round to it, `delta = 2^-70`. -/
example : ∃ (A : FloatOps) (e d : ℝ), 0 < e ∧ 0 < d ∧ A.rnd (d / 2) ≤ 1 / 2 ∧ 0 < A.rnd (2 / e) ∧
    A.rnd (1 * A.rnd (2 / e)) = A.rnd (2 / e) ∧ A.rnd (A.rnd (d / 2) + -(1 / 2)) = -(1 / 2) ∧ A.rnd 1 = 1 ∧ A.rnd 0 = 0 := by
  refine ⟨⟨fun r => if |r + 1 / 2| < 1 / 2 ^ 60 then -(1 / 2) else r, Real.log⟩, 1, 1 / 2 ^ 70, by norm_num, by norm_num, ?_⟩
  have h1 : ∀ r : ℝ, 0 ≤ r → ¬ |r + 1 / 2| < 1 / 2 ^ 60 := by
    intro r hr h
    rw [abs_of_pos (by linarith)] at h
    norm_num at h
    linarith
  simp only
  rw [if_neg (h1 (1 / 2 ^ 70 / 2) (by norm_num)), if_neg (h1 (2 / 1) (by norm_num)), if_neg (h1 (1 * (2 / 1)) (by norm_num)),
    if_neg (h1 1 (by norm_num)), if_neg (h1 0 (by norm_num)), if_pos (by rw [abs_lt]; constructor <;> norm_num)]
  norm_num

/-- Exact arithmetic meets the hypotheses of C17; the paper's parameters
(epsilon 0.1, delta 10^-6) are accepted. -/
example : SoundRounding .exact ∧ ∃ d, Dist.new .exact (.fin (1 / 10)) (.fin (1 / 10 ^ 6)) = .ok d ∧
    Representable .exact d.cutoff ∧ ∃ c, d.cutoff = .fin c ∧ 20 < c := by
  refine ⟨⟨monotone_id, rfl, fun x => ⟨rfl, rfl⟩⟩, ?_⟩
  have hlog1 : (1 : ℝ) < Real.log (1 / (1 / 10 ^ 6)) := by
    rw [Real.lt_log_iff_exp_lt (by norm_num)]
    have := Real.exp_one_lt_three
    norm_num
    linarith
  have hlog2 : Real.log (1 / (1 / 10 ^ 6)) < 10 ^ 6 := by
    have := Real.log_lt_sub_one_of_pos (x := 1 / (1 / 10 ^ 6)) (by norm_num) (by norm_num)
    norm_num at this ⊢
    linarith
  have hf := fields_exact (1 / 10) (1 / 10 ^ 6) (by norm_num) (by norm_num) (by norm_num)
  refine ⟨⟨false, .fin (2 / (1 / 10)), .fin (2 / (1 / 10) * Real.log (1 / (1 / 10 ^ 6)))⟩, ?_, rfl, _, rfl, ?_⟩
  rotate_left
  · linarith
  · unfold Dist.new
    simp only [hf]
    unfold domainCheck
    simp only [Dbl.mul, FloatOps.exact, id]
    rw [toU32_ok (by linarith) (by linarith), bind_ok, if_neg]
    · rfl
    · have h2 : ⌊2 * (2 / (1 / 10) * Real.log (1 / (1 / 10 ^ 6)))⌋ < (2 ^ 32 : ℤ) :=
        Int.floor_lt.mpr (by push_cast; linarith)
      unfold wrap32
      rw [Nat.mod_eq_of_lt (by omega)]
      simp

/-- Parameters with an oversized domain exist: `epsilon = 2^-32`, `delta = 1/e`. -/
example : ∃ e d : ℝ, 0 < e ∧ 0 < d ∧ d < 1 ∧ 2 ^ 32 ≤ 4 / e * Real.log (1 / d) := by
  refine ⟨1 / 2 ^ 32, Real.exp (-1), by norm_num, Real.exp_pos _, by rw [Real.exp_lt_one_iff]; norm_num, ?_⟩
  rw [one_div (Real.exp (-1)), ← Real.exp_neg, Real.log_exp]
  norm_num

end DPPIR.Props
