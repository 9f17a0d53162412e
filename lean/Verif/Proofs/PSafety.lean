import Verif.Proofs.Safety
import Verif.Model.Polling

/-!
# Safety of a process that polls, whatever the others do
-/

namespace DPPIR
variable {ι O α β : Type}

namespace PProc

/-- As `Proc.Safe`, with any answers to `poll` and any portions of data. -/
def Safe (I : List O → O → Prop) (F : List O → Fault → Prop) : PProc ι O α → (α → List O → Prop) → List O → Prop
  | .done a, Q, h => Q a h
  | .fault e, _, h => F h e
  | .send _ _ k, Q, h => Safe I F k Q h
  | .recv _ k, Q, h => ∀ b, Safe I F (k b) Q h
  | .obs o k, Q, h => I h o ∧ Safe I F k Q (h ++ [o])
  | .poll srcs block k, Q, h => ∀ r : ι → Bool, (∀ j, r j = true → j ∈ srcs) → (block = true → ∃ j, r j = true) → Safe I F (k r) Q h
  | .read _ n k, Q, h => ∀ c, c ≠ [] → c.length ≤ n → Safe I F (k c) Q h

variable {I : List O → O → Prop} {F : List O → Fault → Prop}

theorem Safe.mono {p : PProc ι O α} {Q Q' : α → List O → Prop} {h : List O} (hs : Safe I F p Q h) (hQ : ∀ a h, Q a h → Q' a h) :
    Safe I F p Q' h := by
  induction p generalizing h with
  | done a => exact hQ _ _ hs
  | fault e => exact hs
  | send d b k ih => exact ih hs
  | recv s k ih => exact fun b => ih b (hs b)
  | obs o k ih => exact ⟨hs.1, ih hs.2⟩
  | poll ss bl k ih => exact fun r h1 h2 => ih r (hs r h1 h2)
  | read s n k ih => exact fun c h1 h2 => ih c (hs c h1 h2)

theorem Safe.bind {p : PProc ι O α} {f : α → PProc ι O β} {Q : β → List O → Prop} {h : List O}
    (hs : Safe I F p (fun a h => Safe I F (f a) Q h) h) : Safe I F (p.bind f) Q h := by
  induction p generalizing h with
  | done a => exact hs
  | fault e => exact hs
  | send d b k ih => exact ih hs
  | recv s k ih => exact fun b => ih b (hs b)
  | obs o k ih => exact ⟨hs.1, ih hs.2⟩
  | poll ss bl k ih => exact fun r h1 h2 => ih r (hs r h1 h2)
  | read s n k ih => exact fun c h1 h2 => ih c (hs c h1 h2)

theorem Safe.bind' {p : PProc ι O α} {f : α → PProc ι O β} {R : α → List O → Prop} {Q : β → List O → Prop} {h : List O}
    (hs : Safe I F p R h) (hf : ∀ a h, R a h → Safe I F (f a) Q h) : Safe I F (p.bind f) Q h :=
  Safe.bind (hs.mono hf)

theorem Safe.ofProc {p : Proc ι O α} {Q : α → List O → Prop} {h : List O} (hs : Proc.Safe I F p Q h) : Safe I F (ofProc p) Q h := by
  induction p generalizing h with
  | done a => exact hs
  | fault e => exact hs
  | send d b k ih => exact ih hs
  | recv s k ih => exact fun b => ih b (hs b)
  | obs o k ih => exact ⟨hs.1, ih hs.2⟩

/-- The record of a safe process in a network of arbitrary processes. -/
theorem Safe.net [DecidableEq ι] {cap : ι × ι → Nat} {Q : α → List O → Prop} {i : ι} {n n' : PNet ι O α}
    (hs : Safe I F (n.proc i) Q (n.seen i)) (hrun : PNet.Reach cap n n') :
    Safe I F (n'.proc i) Q (n'.seen i) ∧ ∃ t, n'.seen i = n.seen i ++ t ∧ ∀ a o b, t = a ++ o :: b → I (n.seen i ++ a) o := by
  induction hrun with
  | refl => exact ⟨hs, [], by simp, by simp⟩
  | @step m m' j _ st ih =>
    obtain ⟨h1, t, h2, h3⟩ := ih
    have key : Safe I F (m'.proc i) Q (m'.seen i) ∧ (m'.seen i = m.seen i ∨ ∃ o, m'.seen i = m.seen i ++ [o] ∧ I (m.seen i) o) := by
      by_cases hij : i = j
      · subst hij
        cases st with
        | @send d b k h room => rw [h] at h1; exact ⟨by simpa using (show Safe I F k Q (m.seen i) from h1), Or.inl rfl⟩
        | @recv s k b rest h data => rw [h] at h1; exact ⟨by simpa using h1 b, Or.inl rfl⟩
        | @obs o k h => rw [h] at h1; exact ⟨by simpa using h1.2, Or.inr ⟨o, by simp, h1.1⟩⟩
        | poll ready h sound some =>
          rw [h] at h1
          exact ⟨by simpa using h1 ready (fun j hj => (sound j hj).1) some, Or.inl rfl⟩
        | @read s l k c rest h some fits data => rw [h] at h1; exact ⟨by simpa using h1 c some fits, Or.inl rfl⟩
      · cases st <;> simpa [Function.update_of_ne hij] using h1
    refine ⟨key.1, ?_⟩
    rcases key.2 with hk | ⟨o, hk, hI⟩
    · exact ⟨t, hk.trans h2, h3⟩
    · refine ⟨t ++ [o], by rw [hk, h2, List.append_assoc], ?_⟩
      intro a o' b hab
      rcases List.eq_nil_or_concat b with rfl | ⟨b', x, rfl⟩
      · obtain ⟨rfl, h⟩ := List.append_inj' hab rfl
        obtain rfl := (List.cons.inj h).1
        rw [← h2]
        exact hI
      · have e : t ++ [o] = (a ++ o' :: b') ++ [x] := by rw [hab]; simp
        obtain ⟨e1, -⟩ := List.append_inj' e rfl
        exact h3 a o' b' e1

end PProc

end DPPIR
