import Verif.Model.Incremental
import Mathlib.NumberTheory.LucasLehmer
import Mathlib.Tactic.Linarith
import Mathlib.Tactic.Ring
import Mathlib.Data.ZMod.Basic
import Mathlib.FieldTheory.Finite.Basic

namespace DPPIR.Incremental

theorem prime_incrementalPrime : Nat.Prime incrementalPrime := by
  have h : (mersenne 31).Prime := lucas_lehmer_sufficiency _ (by norm_num) (by norm_num)
  have e : mersenne 31 = incrementalPrime := by norm_num [mersenne, incrementalPrime]
  exact e ▸ h

instance : Fact (Nat.Prime incrementalPrime) := ⟨prime_incrementalPrime⟩

theorem int64_ok {z : Int} (h1 : -(2 ^ 63) ≤ z) (h2 : z < 2 ^ 63) : int64 z = .ok z := by
  unfold int64; rw [if_pos ⟨h1, h2⟩]

/-- Extended Euclid: no overflow, Bezout identity, coefficient bounds. -/
theorem gcdExtended_spec (a b : Nat) (ha : a < 2 ^ 32) (hb : b < 2 ^ 32) :
    ∃ x y : Int, gcdExtended a b = .ok (x, y) ∧ a * x + b * y = (Nat.gcd a b : Int) ∧
      |x| ≤ max (b : Int) 1 ∧ |y| ≤ max (a : Int) 1 := by
  induction a using Nat.strong_induction_on generalizing b with
  | _ a ih =>
    unfold gcdExtended
    by_cases h : a = 0
    · subst h
      exact ⟨0, 1, by simp, by simp, by simp, by simp⟩
    · have hpos : 0 < a := Nat.pos_of_ne_zero h
      obtain ⟨x1, y1, he, hbz, hx1, hy1⟩ := ih (b % a) (Nat.mod_lt _ hpos) a
        (lt_trans (Nat.mod_lt _ hpos) ha) ha
      have hdm : (b : Int) = a * (b / a : Nat) + (b % a : Nat) := by
        exact_mod_cast (Nat.div_add_mod b a).symm
      have hmax : (max (a : Int) 1) = a := by
        apply max_eq_left; exact_mod_cast hpos
      rw [hmax] at hx1
      have hxa := abs_le.mp hx1
      have hya := abs_le.mp hy1
      have hq0 : (0 : Int) ≤ (b / a : Nat) := Int.natCast_nonneg _
      -- bounds on the product
      have hprod : |((b / a : Nat) : Int) * x1| ≤ (a : Int) * (b / a : Nat) := by
        rw [abs_mul, abs_of_nonneg hq0, mul_comm]
        exact mul_le_mul_of_nonneg_right hx1 hq0
      have hprod' := abs_le.mp hprod
      have hab : (a : Int) * (b / a : Nat) ≤ b := by
        exact_mod_cast Nat.mul_div_le b a
      have hb' : (b : Int) < 2 ^ 32 := by exact_mod_cast hb
      have ha' : (a : Int) < 2 ^ 32 := by exact_mod_cast ha
      have hxb : |y1 - ((b / a : Nat) : Int) * x1| ≤ max (b : Int) 1 := by
        by_cases hr : b % a = 0
        · -- inner call is the base case
          have hx0 : x1 = 0 ∧ y1 = 1 := by
            rw [hr] at he
            unfold gcdExtended at he
            simp at he
            exact ⟨he.1.symm, he.2.symm⟩
          simp [hx0.1, hx0.2]
        · have hr' : (1 : Int) ≤ (b % a : Nat) := by
            exact_mod_cast Nat.pos_of_ne_zero hr
          rw [max_eq_left hr'] at hya
          refine le_trans ?_ (le_max_left _ _)
          rw [abs_le]
          constructor <;> linarith
      have hxb' := abs_le.mp hxb
      have hm1 : max (b : Int) 1 ≤ 2 ^ 32 := by
        apply max_le <;> omega
      refine ⟨y1 - (b / a : Nat) * x1, x1, ?_, ?_, hxb, ?_⟩
      · simp only [h, ↓reduceDIte, he]
        show (do
          let prod ← int64 ((b / a : Nat) * x1)
          let x' ← int64 (y1 - prod)
          .ok (x', x1)) = _
        rw [int64_ok (by linarith) (by linarith)]
        show (do
          let x' ← int64 (y1 - (b / a : Nat) * x1)
          .ok (x', x1)) = _
        rw [int64_ok (by linarith) (by linarith)]
        rfl
      · have : (Nat.gcd a b : Int) = Nat.gcd (b % a) a := by
          rw [Nat.gcd_rec a b]
        rw [this, ← hbz]
        calc (a : Int) * (y1 - (b / a : Nat) * x1) + b * x1
            = a * y1 + (b - a * (b / a : Nat)) * x1 := by ring
          _ = a * y1 + (b % a : Nat) * x1 := by rw [show (b : Int) - a * (b / a : Nat) = (b % a : Nat) by linarith]
          _ = _ := by ring
      · rw [hmax]; exact hx1

/-- `ModInverse` on the prime: always returns, the result is below the prime and
is the inverse in the field. -/
theorem modInverse_spec (y : Nat) (hy : y < 2 ^ 32) :
    ∃ i : Nat, modInverse y incrementalPrime = .ok i ∧ i < incrementalPrime ∧
      (¬ incrementalPrime ∣ y → (y : ZMod incrementalPrime) * i = 1) := by
  have hP : (incrementalPrime : Int) = 2147483647 := rfl
  obtain ⟨x, z, he, hbz, hx, -⟩ := gcdExtended_spec y incrementalPrime hy (by decide)
  have hx' := abs_le.mp hx
  have hmax : max (incrementalPrime : Int) 1 = incrementalPrime := by decide
  rw [hmax] at hx'
  -- s is the non-negative representative
  have key : ∀ s : Int, 0 ≤ s → s ≤ incrementalPrime → 
      ((s.tmod incrementalPrime) % (2 ^ 32)).toNat < incrementalPrime ∧
      ((((s.tmod incrementalPrime) % (2 ^ 32)).toNat : Nat) : ZMod incrementalPrime) = (s : ZMod incrementalPrime) := by
    intro s hs hs2
    rw [Int.tmod_eq_emod_of_nonneg hs]
    have h1 := Int.emod_nonneg s (show (incrementalPrime : Int) ≠ 0 by decide)
    have h2 := Int.emod_lt_of_pos s (show (0 : Int) < incrementalPrime by decide)
    rw [Int.emod_eq_of_lt h1 (by rw [hP] at *; linarith)]
    constructor
    · have : ((s % (incrementalPrime : Int)).toNat : Int) < incrementalPrime := by
        rw [Int.toNat_of_nonneg h1]; exact h2
      exact_mod_cast this
    · have e : (((s % (incrementalPrime : Int)).toNat : Nat) : ZMod incrementalPrime) = (((s % (incrementalPrime : Int)).toNat : Int) : ZMod incrementalPrime) := by push_cast; rfl
      rw [e, Int.toNat_of_nonneg h1]
      simp
  have fin : ∀ s : Int, 0 ≤ s → s ≤ incrementalPrime → (s : ZMod incrementalPrime) = x → (¬ incrementalPrime ∣ y → (y : ZMod incrementalPrime) *
      ((((s.tmod incrementalPrime) % (2 ^ 32)).toNat : Nat) : ZMod incrementalPrime) = 1) := by
    intro s hs hs2 hsx hnd
    rw [(key s hs hs2).2, hsx]
    have hg : Nat.gcd y incrementalPrime = 1 := by
      rw [Nat.gcd_comm]
      exact (Nat.Prime.coprime_iff_not_dvd prime_incrementalPrime).2 hnd
    rw [hg] at hbz
    have := congrArg (fun z : Int => (z : ZMod incrementalPrime)) hbz
    push_cast at this
    simpa using this
  unfold modInverse
  rw [he]
  by_cases hneg : x < 0
  · refine ⟨(((x + incrementalPrime).tmod incrementalPrime) % (2 ^ 32)).toNat, ?_, (key _ (by linarith) (by linarith)).1, fin _ (by linarith) (by linarith) (by push_cast; simp)⟩
    show (do
      let s ← if x < 0 then int64 (x + incrementalPrime) else .ok x
      if incrementalPrime = 0 then .error .ub
        else .ok (Int.toNat ((s.tmod incrementalPrime) % (2 ^ 32)))) = _
    rw [if_pos hneg, int64_ok (by rw [hP] at *; linarith) (by rw [hP] at *; linarith)]
    rfl
  · refine ⟨((x.tmod incrementalPrime) % (2 ^ 32)).toNat, ?_, (key _ (by linarith) (by linarith)).1, fin _ (by linarith) (by linarith) rfl⟩
    show (do
      let s ← if x < 0 then int64 (x + incrementalPrime) else .ok x
      if incrementalPrime = 0 then .error .ub
        else .ok (Int.toNat ((s.tmod incrementalPrime) % (2 ^ 32)))) = _
    rw [if_neg hneg]
    rfl

/-- The conditions under which the arithmetic of one share is exact. -/
def XOk (s : Share) : Prop := s.x.toNat < incrementalPrime

theorem machine_id {z : Int} (h1 : 0 ≤ z) (h2 : z < 2 ^ 64) : machine z = z :=
  Int.emod_eq_of_lt h1 h2

/-- One step of the tally loop. -/
theorem tallyStep_spec (t : Int) (s : Share) (ht : 0 ≤ t) (ht2 : t < 2 ^ 32) (hx : XOk s) :
    ∃ r : Int, tallyStep machine t s = .ok r ∧ tallyStep exact t s = .ok r ∧
      0 ≤ r ∧ r < incrementalPrime ∧
      (¬ incrementalPrime ∣ s.y.toNat →
        (r : ZMod incrementalPrime) * s.y.toNat + s.x.toNat = t) := by
  have hP : (incrementalPrime : Int) = 2147483647 := rfl
  have hx' : ((s.x.toNat : Nat) : Int) < incrementalPrime := by exact_mod_cast hx
  have hx0 : (0 : Int) ≤ (s.x.toNat : Nat) := Int.natCast_nonneg _
  obtain ⟨i, hi, hip, hinv⟩ := modInverse_spec s.y.toNat s.y.isLt
  have hi' : (i : Int) < incrementalPrime := by exact_mod_cast hip
  have hi0 : (0 : Int) ≤ i := Int.natCast_nonneg _
  have hpos : (0 : Int) < incrementalPrime := by decide
  obtain ⟨d, hd⟩ : ∃ d : Int, d = t + (if t < s.x.toNat then (incrementalPrime : Int) else 0) - s.x.toNat := ⟨_, rfl⟩
  have hd0 : 0 ≤ d ∧ d < 2 ^ 32 := by
    rw [hd]; split_ifs <;> constructor <;> linarith
  have hs0 : 0 ≤ t + (if t < s.x.toNat then (incrementalPrime : Int) else 0) ∧
      t + (if t < s.x.toNat then (incrementalPrime : Int) else 0) < 2 ^ 64 := by
    split_ifs <;> constructor <;> linarith
  have hm : d * i < 2 ^ 64 := by
    have : d * i ≤ 2 ^ 32 * 2147483647 := by
      apply mul_le_mul <;> linarith
    linarith
  have hm0 : 0 ≤ d * i := mul_nonneg hd0.1 hi0
  refine ⟨d * i % incrementalPrime, ?_, ?_, Int.emod_nonneg _ hpos.ne', Int.emod_lt_of_pos _ hpos, ?_⟩
  · unfold tallyStep
    rw [hi]
    show Except.ok (machine (machine (machine (t + (if t < s.x.toNat then (incrementalPrime : Int) else 0)) - s.x.toNat) * i) % incrementalPrime) = _
    rw [machine_id hs0.1 hs0.2, ← hd, machine_id hd0.1 (by linarith [hd0.2]), machine_id hm0 hm]
  · unfold tallyStep
    rw [hi]
    show Except.ok (((t + (if t < s.x.toNat then (incrementalPrime : Int) else 0)) - s.x.toNat) * i % incrementalPrime) = _
    rw [← hd]
  · intro hy
    have hdz : (d : ZMod incrementalPrime) = t - s.x.toNat := by
      rw [hd]; split_ifs <;> push_cast <;> simp
    have e : ((d * i % (incrementalPrime : Int) : Int) : ZMod incrementalPrime) = d * i := by
      simp
    rw [e, hdz]
    have := hinv hy
    calc ((t : ZMod incrementalPrime) - s.x.toNat) * i * s.y.toNat + s.x.toNat
        = (t - s.x.toNat) * (s.y.toNat * i) + s.x.toNat := by ring
      _ = t := by rw [this]; ring

theorem reconstruct_toNat (t : BitVec 32) (s : Share) :
    (incrementalReconstruct t s).toNat = (t.toNat * s.y.toNat + s.x.toNat) % incrementalPrime ∧
    incrementalReconstructWith machine t s = incrementalReconstructWith exact t s := by
  have h1 := t.isLt
  have h2 := s.y.isLt
  have h3 := s.x.isLt
  have hb : t.toNat * s.y.toNat + s.x.toNat < 2 ^ 64 := by
    have : t.toNat * s.y.toNat ≤ (2 ^ 32 - 1) * (2 ^ 32 - 1) := Nat.mul_le_mul (by omega) (by omega)
    omega
  have m1 : machine ((t.toNat : Int) * s.y.toNat) = (t.toNat : Int) * s.y.toNat := by
    apply machine_id
    · positivity
    · have : t.toNat * s.y.toNat < 2 ^ 64 := by omega
      exact_mod_cast this
  have m2 : machine ((t.toNat : Int) * s.y.toNat + s.x.toNat) = (t.toNat : Int) * s.y.toNat + s.x.toNat := by
    apply machine_id
    · positivity
    · exact_mod_cast hb
  have e : incrementalReconstructWith machine t s = incrementalReconstructWith exact t s := by
    unfold incrementalReconstructWith
    rw [m1, m2]; rfl
  refine ⟨?_, e⟩
  unfold incrementalReconstruct
  rw [e]
  unfold incrementalReconstructWith exact
  have hc : (((t.toNat : Int) * s.y.toNat + s.x.toNat) % (incrementalPrime : Int)) =
      ((t.toNat * s.y.toNat + s.x.toNat) % incrementalPrime : Nat) := by push_cast; rfl
  rw [hc, BitVec.ofInt_natCast, BitVec.toNat_ofNat]
  apply Nat.mod_eq_of_lt
  have := Nat.mod_lt (t.toNat * s.y.toNat + s.x.toNat) (show incrementalPrime > 0 by decide)
  have : incrementalPrime < 2 ^ 32 := by decide
  omega

/-- The tally loop over a list of shares: it returns, machine and exact
arithmetic agree, and the result is below the prime unless no share was given. -/
theorem tallyLoop_spec (q : BitVec 32) (shares : List Share)
    (hs : ∀ s ∈ shares, XOk s) :
    ∃ t : BitVec 32, tallyLoop machine q.toNat shares = .ok (t.toNat : Int) ∧
      tallyLoop exact q.toNat shares = .ok (t.toNat : Int) ∧
      (shares = [] → t = q) ∧ (shares ≠ [] → t.toNat < incrementalPrime) := by
  induction shares with
  | nil => exact ⟨q, rfl, rfl, fun _ => rfl, fun h => absurd rfl h⟩
  | cons s rest ih =>
    obtain ⟨t', h1, h2, -, -⟩ := ih (fun u hu => hs u (List.mem_cons_of_mem _ hu))
    obtain ⟨r, hr1, hr2, hr0, hrp, -⟩ := tallyStep_spec t'.toNat s (Int.natCast_nonneg _)
      (by exact_mod_cast t'.isLt) (hs s List.mem_cons_self)
    have hP : (incrementalPrime : Int) = 2147483647 := rfl
    have hrn : ((BitVec.ofNat 32 r.toNat).toNat : Int) = r := by
      rw [BitVec.toNat_ofNat, Nat.mod_eq_of_lt (by omega), Int.toNat_of_nonneg hr0]
    refine ⟨BitVec.ofNat 32 r.toNat, ?_, ?_, by simp, ?_⟩
    · simp only [tallyLoop, h1]
      rw [hrn]; exact hr1
    · simp only [tallyLoop, h2]
      rw [hrn]; exact hr2
    · intro _
      have : ((BitVec.ofNat 32 r.toNat).toNat : Int) < incrementalPrime := by rw [hrn]; exact hrp
      exact_mod_cast this

/-- Field element of a 32-bit word. -/
def fld (b : BitVec 32) : ZMod incrementalPrime := (b.toNat : ZMod incrementalPrime)

theorem fld_inj {a b : BitVec 32} (ha : a.toNat < incrementalPrime) (hb : b.toNat < incrementalPrime)
    (h : fld a = fld b) : a = b := by
  unfold fld at h
  rw [ZMod.natCast_eq_natCast_iff'] at h
  rw [Nat.mod_eq_of_lt ha, Nat.mod_eq_of_lt hb] at h
  exact BitVec.eq_of_toNat_eq h

theorem fld_reconstruct (t : BitVec 32) (s : Share) :
    fld (incrementalReconstruct t s) = fld t * fld s.y + fld s.x := by
  unfold fld
  rw [(reconstruct_toNat t s).1]
  simp

theorem reconstruct_lt (t : BitVec 32) (s : Share) :
    (incrementalReconstruct t s).toNat < incrementalPrime := by
  rw [(reconstruct_toNat t s).1]
  exact Nat.mod_lt _ (by decide)

theorem generate_nil (q : BitVec 32) : generateIncrementalTally q [] = .ok q := by
  show Except.ok (BitVec.ofInt 32 (q.toNat : Int)) = _
  rw [BitVec.ofInt_natCast, BitVec.ofNat_toNat]; simp

/-- Peeling one share off a generated tally. -/
theorem generate_cons (q : BitVec 32) (s : Share) (rest : List Share)
    (hs : ∀ u ∈ s :: rest, XOk u) :
    ∃ t t' : BitVec 32, generateIncrementalTally q (s :: rest) = .ok t ∧
      generateIncrementalTally q rest = .ok t' ∧ t.toNat < incrementalPrime ∧
      (rest = [] → t' = q) ∧ (rest ≠ [] → t'.toNat < incrementalPrime) ∧
      (¬ incrementalPrime ∣ s.y.toNat → fld t * fld s.y + fld s.x = fld t') := by
  obtain ⟨t', h1, -, hnil, hcons⟩ := tallyLoop_spec q rest (fun u hu => hs u (List.mem_cons_of_mem _ hu))
  obtain ⟨t, g1, -, -, gcons⟩ := tallyLoop_spec q (s :: rest) hs
  obtain ⟨r, hr1, -, hr0, hrp, hz⟩ := tallyStep_spec t'.toNat s (Int.natCast_nonneg _)
      (by exact_mod_cast t'.isLt) (hs s List.mem_cons_self)
  have hrt : r = t.toNat := by
    have : tallyLoop machine q.toNat (s :: rest) = .ok r := by
      simp only [tallyLoop, h1]; exact hr1
    rw [g1] at this
    exact (Except.ok.inj this).symm
  have conv : ∀ u : BitVec 32, BitVec.ofInt 32 (u.toNat : Int) = u := by
    intro u; rw [BitVec.ofInt_natCast, BitVec.ofNat_toNat]; simp
  refine ⟨t, t', ?_, ?_, gcons (by simp), hnil, hcons, ?_⟩
  · unfold generateIncrementalTally generateIncrementalTallyWith
    rw [g1]; show Except.ok _ = _; rw [conv]
  · unfold generateIncrementalTally generateIncrementalTallyWith
    rw [h1]; show Except.ok _ = _; rw [conv]
  · intro hy
    have := hz hy
    rw [hrt] at this
    simpa [fld] using this

end DPPIR.Incremental
