import Verif.Model.Base
import Mathlib.Data.List.Basic

namespace DPPIR

theorem rd_ok {α : Type} {l : List α} {i : Nat} (h : i < l.length) : rd l i = .ok l[i] := by
  simp [rd, h]

theorem rd_ub {α : Type} {l : List α} {i : Nat} (h : l.length ≤ i) : rd l i = .error .ub := by
  simp [rd, h]

theorem rd_eq_ok {α : Type} {l : List α} {i : Nat} {a : α} : rd l i = .ok a ↔ l[i]? = some a := by
  unfold rd
  cases h : l[i]? <;> simp

theorem wr_ok {α : Type} {l : List α} {i : Nat} {v : α} (h : i < l.length) :
    wr l i v = .ok (l.set i v) := by simp [wr, h]

@[simp] theorem bind_ok {α β : Type} (a : α) (f : α → Res β) : (Except.ok a >>= f : Res β) = f a := rfl
@[simp] theorem bind_error {α β : Type} (e : Fault) (f : α → Res β) :
    (Except.error e >>= f : Res β) = .error e := rfl

theorem bind_eq_ok {α β : Type} {x : Res α} {f : α → Res β} {b : β} :
    (x >>= f) = .ok b ↔ ∃ a, x = .ok a ∧ f a = .ok b := by
  cases x with
  | error e => simp
  | ok a => simp

/-- Loop rule for counting loops. -/
theorem forUp_inv {σ : Type} (Inv : Nat → σ → Prop) (f : Nat → σ → Res σ) (n i : Nat) (s : σ)
    (h0 : Inv i s)
    (hstep : ∀ j s, i ≤ j → j < i + n → Inv j s → ∃ s', f j s = .ok s' ∧ Inv (j + 1) s') :
    ∃ s', forUp n i f s = .ok s' ∧ Inv (i + n) s' := by
  induction n generalizing i s with
  | zero => exact ⟨s, rfl, h0⟩
  | succ n ih =>
    obtain ⟨s1, h1, h2⟩ := hstep i s (Nat.le_refl _) (by omega) h0
    obtain ⟨s2, h3, h4⟩ := ih (i + 1) s1 h2 (fun j s hj hj2 => hstep j s (by omega) (by omega))
    refine ⟨s2, ?_, by rw [show i + (n + 1) = i + 1 + n by omega]; exact h4⟩
    simp [forUp, h1, h3]

theorem forRange_inv {σ : Type} (Inv : Nat → σ → Prop) (f : Nat → σ → Res σ) (a b : Nat) (s : σ)
    (hab : a ≤ b) (h0 : Inv a s)
    (hstep : ∀ j s, a ≤ j → j < b → Inv j s → ∃ s', f j s = .ok s' ∧ Inv (j + 1) s') :
    ∃ s', forRange a b f s = .ok s' ∧ Inv b s' := by
  obtain ⟨s', h1, h2⟩ := forUp_inv Inv f (b - a) a s h0
    (fun j s hj hj2 => hstep j s hj (by omega))
  refine ⟨s', h1, ?_⟩
  rwa [show a + (b - a) = b by omega] at h2

theorem forUp_congr {σ : Type} (f g : Nat → σ → Res σ) (n i : Nat) (s : σ)
    (h : ∀ j s, i ≤ j → j < i + n → f j s = g j s) : forUp n i f s = forUp n i g s := by
  induction n generalizing i s with
  | zero => rfl
  | succ n ih =>
    simp only [forUp]
    rw [h i s (Nat.le_refl _) (by omega)]
    cases g i s with
    | error e => rfl
    | ok s' =>
      simp only [bind_ok]
      exact ih _ _ (fun j s hj hj2 => h j s (by omega) (by omega))

end DPPIR
