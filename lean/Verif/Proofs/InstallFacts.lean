import Verif.Proofs.Install
import Verif.Spec.Process
import Mathlib.Data.Fintype.Basic
import Mathlib.Data.Fintype.Lattice
import Mathlib.Data.BitVec

/-!
# Consequences of `Justified` calls, and processes fed with bytes
-/

namespace DPPIR
open Proc

namespace Proc
variable {ι O α : Type} {I : List O → O → Prop} {F : List O → Fault → Prop}

theorem Safe.feed {p : Proc ι O α} {Q : α → List O → Prop} {h t : List O} {l : List Byte} {r : Except Fault α}
    (hs : Safe I F p Q h) (hf : feed l p = some (t, r)) :
    (∀ a o b, t = a ++ o :: b → I (h ++ a) o) ∧ (∀ a, r = .ok a → Q a (h ++ t)) ∧ (∀ e, r = .error e → F (h ++ t) e) := by
  induction p generalizing h t l r with
  | done a =>
    simp only [Proc.feed, Option.some.injEq, Prod.mk.injEq] at hf
    obtain ⟨rfl, rfl⟩ := hf
    refine ⟨by simp, ?_, by simp⟩
    rintro a' ha
    obtain rfl := Except.ok.inj ha
    simpa using (show Q _ h from hs)
  | fault e =>
    simp only [Proc.feed, Option.some.injEq, Prod.mk.injEq] at hf
    obtain ⟨rfl, rfl⟩ := hf
    refine ⟨by simp, by simp, ?_⟩
    rintro a' ha
    obtain rfl := Except.error.inj ha
    simpa using (show F h _ from hs)
  | send d b k ih => exact ih hs (by simpa [Proc.feed] using hf)
  | recv s k ih =>
    cases l with
    | nil => simp [Proc.feed] at hf
    | cons b l => exact ih b (hs b) (by simpa [Proc.feed] using hf)
  | obs o k ih =>
    cases hk : Proc.feed l k with
    | none => simp [Proc.feed, hk] at hf
    | some x =>
      obtain ⟨t', r'⟩ := x
      simp only [Proc.feed, hk, Option.map_some, Option.some.injEq, Prod.mk.injEq] at hf
      obtain ⟨rfl, rfl⟩ := hf
      obtain ⟨h1, h2, h3⟩ := ih hs.2 hk
      refine ⟨?_, by simpa using h2, by simpa using h3⟩
      intro a o' b hab
      cases a with
      | nil =>
        simp only [List.nil_append, List.cons.injEq] at hab
        rw [← hab.1]
        simpa using hs.1
      | cons o'' a =>
        simp only [List.cons_append, List.cons.injEq] at hab
        have := h1 a o' b hab.2
        rw [← hab.1]
        simpa using this

/-- With enough input every process ends. -/
theorem feed_ends (p : Proc ι O α) : ∃ N, ∀ l : List Byte, N ≤ l.length → ∃ x, feed l p = some x := by
  induction p with
  | done a => exact ⟨0, fun l _ => ⟨_, by cases l <;> rfl⟩⟩
  | fault e => exact ⟨0, fun l _ => ⟨_, by cases l <;> rfl⟩⟩
  | send d b k ih =>
    obtain ⟨N, hN⟩ := ih
    refine ⟨N, fun l hl => ?_⟩
    obtain ⟨x, hx⟩ := hN l hl
    exact ⟨x, by simpa [feed] using hx⟩
  | recv s k ih =>
    choose N hN using ih
    refine ⟨Finset.univ.sup (fun b : Fin (2 ^ 8) => N (BitVec.ofFin b)) + 1, fun l hl => ?_⟩
    cases l with
    | nil => simp at hl
    | cons b l =>
      obtain ⟨x, hx⟩ := hN b l (by
        have : N (BitVec.ofFin b.toFin) ≤ Finset.univ.sup (fun b : Fin (2 ^ 8) => N (BitVec.ofFin b)) :=
          Finset.le_sup (f := fun b : Fin (2 ^ 8) => N (BitVec.ofFin b)) (Finset.mem_univ b.toFin)
        simp only [List.length_cons] at hl
        have e : BitVec.ofFin b.toFin = b := rfl
        rw [e] at this
        omega)
      exact ⟨x, by simpa [feed] using hx⟩
  | obs o k ih =>
    obtain ⟨N, hN⟩ := ih
    refine ⟨N, fun l hl => ?_⟩
    obtain ⟨x, hx⟩ := hN l hl
    exact ⟨_, by simp [feed, hx]; rfl⟩

end Proc

namespace Protocol
open Onion
variable {box : SealedBox} {pk : box.PKey} {sk : box.SKey}

theorem justified_stores (t : List Obs) (h : ∀ a o b, t = a ++ o :: b → Justified pk sk a o) (j : Nat) (s : OfflineSecret)
    (hj : (stores t)[j]? = some s) : ∃ m plain, (ciphersRead t)[j]? = some m ∧ box.openMsg pk sk m = some plain ∧
      s = OfflineSecret.decode (plain.take secretSize) := by
  induction t using List.reverseRecOn with
  | nil => simp [stores] at hj
  | append_singleton t o ih =>
    have ih := ih (fun a o' b e => h a o' (b ++ [o]) (by rw [e]; simp))
    have ho := h t o [] rfl
    rw [stores_append] at hj
    rw [ciphersRead_append]
    by_cases hlt : j < (stores t).length
    · rw [List.getElem?_append_left hlt] at hj
      obtain ⟨m, plain, h1, h2⟩ := ih hj
      exact ⟨m, plain, by rw [List.getElem?_append_left (List.getElem?_eq_some_iff.1 h1).1]; exact h1, h2⟩
    · rw [List.getElem?_append_right (by omega)] at hj
      cases o <;> first | (simp [stores] at hj; done) | skip
      case store s' =>
        have hj' : j - (stores t).length = 0 ∧ s' = s := by
          have hx : (stores [Obs.store s']) = [s'] := rfl
          rw [hx, List.getElem?_singleton] at hj
          split at hj
          · exact ⟨by assumption, Option.some.inj hj⟩
          · cases hj
        obtain ⟨h0, rfl⟩ := hj'
        obtain ⟨m, plain, h1, h2⟩ := ho
        have : j = (stores t).length := by omega
        subst this
        exact ⟨m, plain, by rw [List.getElem?_append_left (List.getElem?_eq_some_iff.1 h1).1]; exact h1, h2⟩

theorem justified_bad {t : List Obs} (h : ∀ a o b, t = a ++ o :: b → Justified pk sk a o) {j : Nat} {m : List Byte}
    (hj : (ciphersRead t)[j]? = some m) (hm : box.openMsg pk sk m = none) : (stores t).length ≤ j := by
  by_contra hlt
  obtain ⟨m', plain, h1, h2, -⟩ := justified_stores t h j _ (List.getElem?_eq_getElem (by omega))
  rw [hj] at h1
  obtain rfl := Option.some.inj h1
  rw [hm] at h2
  cases h2

theorem justified_after {t : List Obs} (h : ∀ a o b, t = a ++ o :: b → Justified pk sk a o) {a b : List Obs} {o : Obs} {m : List Byte}
    (ht : t = a ++ o :: b) (hm : m ∈ ciphersRead a) (hbad : box.openMsg pk sk m = none) :
    (∃ c, o = .recvCipher c) ∨ ∃ s, o = .store s := by
  have ho := h a o b ht
  have ha : ∀ a' o' b', a = a' ++ o' :: b' → Justified pk sk a' o' := by
    intro a' o' b' e
    exact h a' o' (b' ++ o :: b) (by rw [ht, e]; simp)
  obtain ⟨j, hj, rfl⟩ := List.mem_iff_getElem.1 hm
  have := justified_bad ha (List.getElem?_eq_getElem hj) hbad
  cases o
  case store s => exact .inr ⟨s, rfl⟩
  case recvCipher s => exact .inl ⟨s, rfl⟩
  all_goals
    have ho' : (stores a).length = (ciphersRead a).length := ho
    omega

end Protocol
end DPPIR
