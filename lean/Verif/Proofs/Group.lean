import Verif.Spec.Group
import Mathlib.Algebra.BigOperators.Intervals

/-!
# Changing several queries, one after the other
-/

namespace DPPIR.Main
open MeasureTheory

/-- What two steps lose. -/
theorem NoBetterThan.trans {rows : Nat} {ε δ ε' δ' : ℝ} {s s' s'' : (Fin rows → Draws) → (Fin rows → Nat) → Prop} (hδ : 0 ≤ δ) (hδ' : 0 ≤ δ')
    (h : NoBetterThan ε δ s s') (h' : NoBetterThan ε' δ' s' s'') : NoBetterThan (ε + ε') (δ + Real.exp ε * δ') s s'' := by
  intro T
  refine (h T).trans ?_
  have h1 : (Measure.pi fun _ : Fin rows => uniformDraws) {r | (∃ x, s' r x) ∧ ∀ x, s' r x → x ∈ T} ≤
      (Measure.pi fun _ : Fin rows => uniformDraws) {r | ∃ x ∈ T, s' r x} := by
    apply measure_mono
    rintro r ⟨⟨x, hx⟩, hT⟩
    exact ⟨x, hT x hx, hx⟩
  have h2 := mul_le_mul_right (h1.trans (h' T)) (ENNReal.ofReal (Real.exp ε))
  refine (add_le_add_left h2 _).trans (le_of_eq ?_)
  rw [mul_add, ← mul_assoc, ← ENNReal.ofReal_mul (Real.exp_nonneg _), ← Real.exp_add, add_assoc,
    ← ENNReal.ofReal_mul (Real.exp_nonneg _), ← ENNReal.ofReal_add (mul_nonneg (Real.exp_nonneg _) hδ') hδ, add_comm (Real.exp ε * δ')]

/-- The failure probability for `m` changes. -/
theorem group_sum (ε δ : ℝ) (m : Nat) :
    δ + Real.exp ε * (δ * ∑ i ∈ Finset.range m, Real.exp (i * ε)) = δ * ∑ i ∈ Finset.range (m + 1), Real.exp (i * ε) := by
  rw [Finset.sum_range_succ', mul_add, Nat.cast_zero, zero_mul, Real.exp_zero, mul_one, add_comm δ, mul_left_comm, Finset.mul_sum]
  congr 2
  refine Finset.sum_congr rfl fun i _ => ?_
  rw [← Real.exp_add]
  congr 1
  push_cast
  ring

/-- Several changes, at places that satisfy `P`. -/
theorem NoBetterThan.group {I : Type} [DecidableEq I] {P : I → Prop} {rows : Nat} {ε δ : ℝ} (hδ : 0 ≤ δ)
    {S : (I → Nat) → (Fin rows → Draws) → (Fin rows → Nat) → Prop}
    (h : ∀ f f' : I → Nat, ∀ e, P e → (∀ i, i ≠ e → f i = f' i) → NoBetterThan ε δ (S f) (S f'))
    (J : Finset I) (hJ : J.Nonempty) (hP : ∀ e ∈ J, P e) (f f' : I → Nat) (hf : ∀ i, i ∉ J → f i = f' i) :
    NoBetterThan (J.card * ε) (δ * ∑ i ∈ Finset.range J.card, Real.exp (i * ε)) (S f) (S f') := by
  induction hJ using Finset.Nonempty.cons_induction generalizing f with
  | singleton e =>
    simp only [Finset.card_singleton, Nat.cast_one, one_mul, Finset.range_one, Finset.sum_singleton, Nat.cast_zero, zero_mul, Real.exp_zero, mul_one]
    exact h f f' e (hP e (by simp)) fun i hi => hf i (by simpa using hi)
  | cons e J he hJ ih =>
    rw [Finset.card_cons, ← group_sum]
    have h1 := h f (Function.update f e (f' e)) e (hP e (by simp)) fun i hi => by rw [Function.update_of_ne hi]
    have h2 := ih (fun e he => hP e (by simp [he])) (Function.update f e (f' e)) fun i hi => by
      by_cases hie : i = e
      · rw [hie, Function.update_self]
      · rw [Function.update_of_ne hie]
        exact hf i (by simp [hie, hi])
    have := h1.trans hδ (mul_nonneg hδ (Finset.sum_nonneg fun i _ => Real.exp_nonneg _)) h2
    rwa [show ((J.card + 1 : ℕ) : ℝ) * ε = ε + J.card * ε by push_cast; ring]

variable {box : Onion.SealedBox}

theorem World.askingAll_asking (w : World box) (row : Nat → Nat → Nat) (s : Nat) (f : Nat → Nat) :
    (w.askingAll row).asking s f = w.askingAll (Function.update row s f) := by
  unfold World.asking World.askingAll
  congr 1
  funext s'
  by_cases h : s' = s
  · subst h
    simp
  · simp [Function.update_of_ne h]

theorem World.askingAll_self (w : World box) (row : Nat → Nat → Nat) (s : Nat) : (w.askingAll row).asking s (row s) = w.askingAll row := by
  rw [World.askingAll_asking, Function.update_eq_self]

end DPPIR.Main
