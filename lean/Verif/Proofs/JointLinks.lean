import Verif.Proofs.Deadlock
import Mathlib.Order.WellFounded
import Mathlib.Order.OrderIsoNat

/-!
# Who talks to whom

If the processes end with connections between linked processes only, nobody ever turns to
a process it is not linked with.
-/

namespace DPPIR.PNet
open Proc

variable {ι O : Type} [DecidableEq ι] {cap cap' : ι × ι → Nat} {n m : PNet ι O Unit}

theorem Step.mono (hc : ∀ x, cap x ≤ cap' x) {i : ι} (h : Step cap i n m) : Step cap' i n m := by
  cases h with
  | send h room => exact .send h (room.trans_le (hc _))
  | recv h data => exact .recv h data
  | obs h => exact .obs h
  | poll r h sound some => exact .poll r h sound some
  | read h some fits data => exact .read h some fits data

theorem Reach.mono (hc : ∀ x, cap x ≤ cap' x) (h : Reach cap n m) : Reach cap' n m := by
  induction h with
  | refl => exact .refl
  | step _ s ih => exact ih.step (s.mono hc)

/-- No connection holds more than its capacity. -/
theorem Step.within {i : ι} (h : Step cap i n m) (hn : ∀ x, (n.chan x).length ≤ cap x) (x : ι × ι) : (m.chan x).length ≤ cap x := by
  cases h with
  | @send d b k h room =>
    show (Function.update n.chan (i, d) _ x).length ≤ _
    by_cases e : x = (i, d)
    · subst e
      rw [Function.update_self]
      simp
      omega
    · rw [Function.update_of_ne e]; exact hn x
  | @recv s k b rest h data =>
    show (Function.update n.chan (s, i) _ x).length ≤ _
    by_cases e : x = (s, i)
    · subst e
      rw [Function.update_self]
      have := hn (s, i)
      rw [data] at this
      simp at this
      omega
    · rw [Function.update_of_ne e]; exact hn x
  | obs h => exact hn x
  | poll r h sound some => exact hn x
  | @read s l k c rest h some fits data =>
    show (Function.update n.chan (s, i) _ x).length ≤ _
    by_cases e : x = (s, i)
    · subst e
      rw [Function.update_self]
      have := hn (s, i)
      rw [data] at this
      simp at this
      omega
    · rw [Function.update_of_ne e]; exact hn x

theorem Reach.within (h : Reach cap n m) (hn : ∀ x, (n.chan x).length ≤ cap x) (x : ι × ι) : (m.chan x).length ≤ cap x := by
  induction h generalizing x with
  | refl => exact hn x
  | step _ s ih => exact s.within ih x

theorem start_within (prog : ι → PProc ι O Unit) (x : ι × ι) : ((start prog).chan x).length ≤ cap x := Nat.zero_le _

/-- A step of another process. -/
theorem Step.other {i j : ι} (h : Step cap i n m) (hj : j ≠ i) : m.proc j = n.proc j := by
  cases h <;> exact Function.update_of_ne hj _ _

/-- Without infinite runs there is an end. -/
theorem exists_end (h : ¬ ∃ f : Nat → PNet ι O Unit, f 0 = n ∧ ∀ k, ∃ i, Step cap i (f k) (f (k + 1))) :
    ∃ m, Reach cap n m ∧ ¬ m.CanStep cap := by
  by_contra hno
  simp only [not_exists, not_and, not_not] at hno
  have step : ∀ x : {m // Reach cap n m}, ∃ y : {m // Reach cap n m}, ∃ i, Step cap i x.1 y.1 := by
    rintro ⟨m, hm⟩
    obtain ⟨i, m', hs⟩ := hno m hm
    exact ⟨⟨m', hm.step hs⟩, i, hs⟩
  choose next hnext using step
  refine h ⟨fun k => (next^[k] ⟨n, .refl⟩).1, rfl, fun k => ?_⟩
  have := hnext (next^[k] ⟨n, .refl⟩)
  rw [← Function.iterate_succ_apply' next] at this
  exact this

/-- A run that continues another one. -/
theorem no_run_from {n0 : PNet ι O Unit} (h : ¬ ∃ f : Nat → PNet ι O Unit, f 0 = n0 ∧ ∀ k, ∃ i, Step cap i (f k) (f (k + 1)))
    (hr : Reach cap n0 n) : ¬ ∃ f : Nat → PNet ι O Unit, f 0 = n ∧ ∀ k, ∃ i, Step cap i (f k) (f (k + 1)) := by
  induction hr with
  | refl => exact h
  | @step m m' i hr s ih =>
    rintro ⟨f, h0, hf⟩
    refine ih ⟨fun k => match k with | 0 => m | k + 1 => f k, rfl, fun k => ?_⟩
    cases k with
    | zero =>
      refine ⟨i, ?_⟩
      show Step cap i m (f 0)
      rw [h0]
      exact s
    | succ k => exact hf k

/-- A process that does not move keeps all from returning. -/
theorem must_move {prog : ι → PProc ι O Unit}
    (hend : ∀ m, Reach cap (start prog) m → m.CanStep cap ∨ ∀ i, m.Returned i ())
    (hfin : ¬ ∃ f : Nat → PNet ι O Unit, f 0 = start prog ∧ ∀ k, ∃ i, Step cap i (f k) (f (k + 1)))
    (hn : Reach cap (start prog) n) (i : ι) (hp : n.proc i ≠ .done ()) :
    ∃ m m', Reach cap (start prog) m ∧ m.proc i = n.proc i ∧ Step cap i m m' := by
  by_contra hno
  obtain ⟨m, hm, hstuck⟩ := exists_end (no_run_from hfin hn)
  have hall : m.proc i = n.proc i := by
    clear hstuck
    induction hm with
    | refl => rfl
    | @step m m' j hr s ih =>
      by_cases e : j = i
      · subst e
        exact absurd ⟨m, m', hn.trans hr, ih, s⟩ hno
      · rw [s.other (Ne.symm e), ih]
  have := (hend m (hn.trans hm)).resolve_left hstuck i
  exact hp (hall ▸ this)

/-- Nobody turns to a process that it has no connection with. -/
theorem turns_to {prog : ι → PProc ι O Unit} {link : ι → ι → Prop} (hz : ∀ a b, ¬ link a b → cap (a, b) = 0)
    (hend : ∀ m, Reach cap (start prog) m → m.CanStep cap ∨ ∀ i, m.Returned i ())
    (hfin : ¬ ∃ f : Nat → PNet ι O Unit, f 0 = start prog ∧ ∀ k, ∃ i, Step cap i (f k) (f (k + 1)))
    (hn : Reach cap (start prog) n) (i : ι) :
    (∀ d b k, n.proc i = .send d b k → link i d) ∧ (∀ s k, n.proc i = .recv s k → link s i) ∧
    ∀ s l k, n.proc i = .read s l k → link s i := by
  have hempty : ∀ m, Reach cap (start prog) m → ∀ a b, ¬ link a b → m.chan (a, b) = [] := fun m hm a b hl => by
    have := hm.within (start_within prog) (a, b)
    rw [hz a b hl] at this
    exact List.length_eq_zero_iff.1 (by omega)
  refine ⟨fun d b k hp => ?_, fun s k hp => ?_, fun s l k hp => ?_⟩ <;> by_contra hl <;>
    obtain ⟨m, m', hm, he, hs⟩ := must_move hend hfin hn i (by rw [hp]; exact nofun) <;> rw [hp] at he
  · cases hs with
    | send h room =>
      rw [he] at h
      injection h with h1
      subst h1
      rw [hz _ _ hl] at room
      omega
    | recv h => rw [he] at h; cases h
    | obs h => rw [he] at h; cases h
    | poll _ h => rw [he] at h; cases h
    | read h => rw [he] at h; cases h
  · cases hs with
    | recv h data =>
      rw [he] at h
      injection h with h1
      subst h1
      rw [hempty m hm _ _ hl] at data
      cases data
    | send h => rw [he] at h; cases h
    | obs h => rw [he] at h; cases h
    | poll _ h => rw [he] at h; cases h
    | read h => rw [he] at h; cases h
  · cases hs with
    | read h hne fits data =>
      rw [he] at h
      injection h with h1
      subst h1
      rw [hempty m hm _ _ hl] at data
      exact hne (List.append_eq_nil_iff.1 data.symm).1
    | send h => rw [he] at h; cases h
    | obs h => rw [he] at h; cases h
    | poll _ h => rw [he] at h; cases h
    | recv h => rw [he] at h; cases h

end DPPIR.PNet
