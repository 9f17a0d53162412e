import Verif.Proofs.ChainFacts
import Verif.Spec.Foreign

/-!
# A client that asks for rows the backend does not have

The deployment with such a client is compared with one in which the backend has these
rows, and in which no party makes noise for them.
-/

namespace DPPIR
open Proc

variable {ι O α β γ δ : Type}

/-- Program `p` does the same as `q` until it makes a bad call, after which it has run into
undefined behaviour. -/
inductive Proc.Dies (bad : O → Prop) (R : α → β → Prop) : Proc ι O α → Proc ι O β → Prop where
  | same (e : Fault) : Dies bad R (.fault e) (.fault e)
  | done {a : α} {b : β} (h : R a b) : Dies bad R (.done a) (.done b)
  | send {d : ι} {x : Byte} {p : Proc ι O α} {q : Proc ι O β} (h : Dies bad R p q) : Dies bad R (.send d x p) (.send d x q)
  | recv {s : ι} {p : Byte → Proc ι O α} {q : Byte → Proc ι O β} (h : ∀ x, Dies bad R (p x) (q x)) : Dies bad R (.recv s p) (.recv s q)
  | obs {o : O} {p : Proc ι O α} {q : Proc ι O β} (ho : ¬ bad o) (h : Dies bad R p q) : Dies bad R (.obs o p) (.obs o q)
  | bad {o : O} {q : Proc ι O β} (ho : bad o) : Dies bad R (.obs o (.fault .ub)) (.obs o q)

namespace Proc.Dies
variable {bad : O → Prop}

theorem bind {R : α → β → Prop} {T : γ → δ → Prop} {p : Proc ι O α} {q : Proc ι O β} {f : α → Proc ι O γ}
    {g : β → Proc ι O δ} (h : Dies bad R p q) (hf : ∀ a b, R a b → Dies bad T (f a) (g b)) : Dies bad T (p.bind f) (q.bind g) := by
  induction h with
  | same e => exact .same e
  | done h => exact hf _ _ h
  | send _ ih => exact .send ih
  | recv _ ih => exact .recv ih
  | obs ho _ ih => exact .obs ho ih
  | bad ho => exact .bad ho

/-- No bad call in a program. -/
inductive Good (bad : O → Prop) : Proc ι O α → Prop where
  | fault (e : Fault) : Good bad (.fault e)
  | done (a : α) : Good bad (.done a)
  | send {d : ι} {x : Byte} {p : Proc ι O α} (h : Good bad p) : Good bad (.send d x p)
  | recv {s : ι} {p : Byte → Proc ι O α} (h : ∀ x, Good bad (p x)) : Good bad (.recv s p)
  | obs {o : O} {p : Proc ι O α} (ho : ¬ bad o) (h : Good bad p) : Good bad (.obs o p)

theorem Good.refl {p : Proc ι O α} (h : Good bad p) : Dies bad Eq p p := by
  induction h with
  | fault e => exact .same e
  | done a => exact .done rfl
  | send _ ih => exact .send ih
  | recv _ ih => exact .recv ih
  | obs ho _ ih => exact .obs ho ih

theorem Good.bind {p : Proc ι O α} {f : α → Proc ι O β} (h : Good bad p) (hf : ∀ a, Good bad (f a)) : Good bad (p.bind f) := by
  induction h with
  | fault e => exact .fault e
  | done a => exact hf a
  | send _ ih => exact .send ih
  | recv _ ih => exact .recv ih
  | obs ho _ ih => exact .obs ho ih

theorem Good.lift (r : Res α) : Good bad (Proc.lift r : Proc ι O α) := by
  cases r with
  | ok a => exact .done a
  | error e => exact .fault e

theorem Good.sendBytes (d : ι) (l : List Byte) : Good bad (Proc.sendBytes d l) := by
  induction l with
  | nil => exact .done _
  | cons b l ih => exact .send ih

theorem Good.recvBytesFrom (s : ι) (n : Nat) (got : List Byte) : Good bad (Proc.recvBytesFrom s n got : Proc ι O (List Byte)) := by
  induction n generalizing got with
  | zero => exact .done _
  | succ n ih => exact .recv fun b => ih _

theorem loop {σ σ' : Type} {R : σ → σ' → Prop} {f : Nat → σ → Proc ι O σ} {g : Nat → σ' → Proc ι O σ'}
    (h : ∀ i s s', R s s' → Dies bad R (f i s) (g i s')) (n i : Nat) (s : σ) (s' : σ') (hs : R s s') :
    Dies bad R (Proc.loop n i f s) (Proc.loop n i g s') := by
  induction n generalizing i s s' with
  | zero => exact .done hs
  | succ n ih => exact bind (h i s s' hs) fun a b hab => ih _ a b hab

theorem each {σ σ' : Type} {R : σ → σ' → Prop} {f : γ → σ → Proc ι O σ} {g : γ → σ' → Proc ι O σ'}
    (h : ∀ c s s', R s s' → Dies bad R (f c s) (g c s')) (l : List γ) (s : σ) (s' : σ') (hs : R s s') :
    Dies bad R (Proc.each f l s) (Proc.each g l s') := by
  induction l generalizing s s' with
  | nil => exact .done hs
  | cons c l ih => exact bind (h c s s' hs) fun a b hab => ih a b hab

end Proc.Dies

namespace Net
variable [DecidableEq ι]

/-- Two networks that differ in process `i` only. -/
structure DiesAt (bad : O → Prop) (i : ι) (n m : Net ι O) : Prop where
  others : ∀ j, j ≠ i → n.proc j = m.proc j
  chan : n.chan = m.chan
  seen : n.seen = m.seen
  state : (n.proc i = .fault .ub ∧ ∃ o ∈ n.seen i, bad o) ∨
    (Proc.Dies bad (fun _ _ => True) (n.proc i) (m.proc i) ∧ ¬ ∃ o ∈ n.seen i, bad o)

theorem DiesAt.step {bad : O → Prop} {i : ι} {n m n' : Net ι O} {cap : ι × ι → Nat} {j : ι} (h : DiesAt bad i n m)
    (hn : n.step cap j = some n') : ∃ m', m.step cap j = some m' ∧ DiesAt bad i n' m' := by
  by_cases hj : j = i
  · subst hj
    rcases h.state with ⟨hf, -⟩ | ⟨hd, hb⟩
    · unfold Net.step at hn
      rw [hf] at hn
      cases hn
    unfold Net.step at hn ⊢
    cases hp : n.proc j with
    | done a => rw [hp] at hn; cases hn
    | fault e => rw [hp] at hn; cases hn
    | send d b k =>
      rw [hp] at hn hd
      cases hq : m.proc j <;> rw [hq] at hd <;> cases hd
      rename_i q hd
      rw [h.chan] at hn
      simp only at hn ⊢
      split at hn
      · rename_i hlt
        rw [if_pos hlt]
        obtain rfl := Option.some.inj hn
        refine ⟨_, rfl, ⟨fun l hl => ?_, rfl, h.seen, Or.inr ⟨?_, hb⟩⟩⟩
        · simp only [Function.update_of_ne hl]; exact h.others l hl
        · simpa only [Function.update_self] using hd
      · cases hn
    | recv s k =>
      rw [hp] at hn hd
      cases hq : m.proc j <;> rw [hq] at hd <;> cases hd
      rename_i q hd
      rw [h.chan] at hn
      simp only at hn ⊢
      cases hc : m.chan (s, j) with
      | nil => rw [hc] at hn; cases hn
      | cons b rest =>
        rw [hc] at hn
        obtain rfl := Option.some.inj hn
        refine ⟨_, rfl, ⟨fun l hl => ?_, rfl, h.seen, Or.inr ⟨?_, hb⟩⟩⟩
        · simp only [Function.update_of_ne hl]; exact h.others l hl
        · simpa only [Function.update_self] using hd b
    | obs o k =>
      rw [hp] at hn hd
      cases hq : m.proc j <;> rw [hq] at hd <;> cases hd
      · rename_i q ho hd
        obtain rfl := Option.some.inj hn
        refine ⟨_, rfl, ⟨fun l hl => ?_, h.chan, ?_, Or.inr ⟨?_, ?_⟩⟩⟩
        · simp only [Function.update_of_ne hl]; exact h.others l hl
        · simp only; rw [h.seen]
        · simpa only [Function.update_self] using hd
        · rintro ⟨o', ho', hb'⟩
          simp only [Function.update_self, List.mem_append, List.mem_singleton] at ho'
          rcases ho' with ho' | rfl
          · exact hb ⟨o', ho', hb'⟩
          · exact absurd hb' ho
      · rename_i q ho
        obtain rfl := Option.some.inj hn
        refine ⟨_, rfl, ⟨fun l hl => ?_, h.chan, ?_, Or.inl ⟨?_, o, ?_, ho⟩⟩⟩
        · simp only [Function.update_of_ne hl]; exact h.others l hl
        · simp only; rw [h.seen]
        · simp only [Function.update_self]
        · simp only [Function.update_self, List.mem_append, List.mem_singleton, or_true]
  · have e := h.others j hj
    unfold Net.step at hn ⊢
    rw [e, h.chan] at hn
    have key : ∀ k, DiesAt bad i { n with proc := Function.update n.proc j k } { m with proc := Function.update m.proc j k } := fun k => by
      refine ⟨fun l hl => ?_, h.chan, h.seen, ?_⟩
      · by_cases hlj : l = j
        · subst hlj; simp only [Function.update_self]
        · simp only [Function.update_of_ne hlj]; exact h.others l hl
      · simp only [Function.update_of_ne (Ne.symm hj)]; exact h.state
    cases hq : m.proc j with
    | done a => rw [hq] at hn; cases hn
    | fault e => rw [hq] at hn; cases hn
    | send d b k =>
      rw [hq] at hn
      simp only at hn ⊢
      split at hn
      · rename_i hlt
        rw [if_pos hlt]
        obtain rfl := Option.some.inj hn
        have hk := key k
        exact ⟨_, rfl, ⟨hk.others, rfl, hk.seen, hk.state⟩⟩
      · cases hn
    | recv s k =>
      rw [hq] at hn
      simp only at hn ⊢
      cases hc : m.chan (s, j) with
      | nil => rw [hc] at hn; cases hn
      | cons b rest =>
        rw [hc] at hn
        obtain rfl := Option.some.inj hn
        have hk := key (k b)
        exact ⟨_, rfl, ⟨hk.others, rfl, hk.seen, hk.state⟩⟩
    | obs o k =>
      rw [hq] at hn
      obtain rfl := Option.some.inj hn
      have hk := key k
      refine ⟨_, rfl, ⟨hk.others, rfl, ?_, ?_⟩⟩
      · simp only; rw [h.seen]
      · simp only [Function.update_of_ne (Ne.symm hj)]; exact h.state

theorem DiesAt.run {bad : O → Prop} {i : ι} {cap : ι × ι → Nat} (s : List ι) {n m n' : Net ι O} (h : DiesAt bad i n m)
    (hn : n.run cap s = some n') : ∃ m', m.run cap s = some m' ∧ DiesAt bad i n' m' := by
  induction s generalizing n m with
  | nil =>
    simp only [Net.run] at hn
    cases hn
    exact ⟨m, rfl, h⟩
  | cons j s ih =>
    simp only [Net.run, Option.bind_eq_some_iff] at hn ⊢
    obtain ⟨a, h1, h2⟩ := hn
    obtain ⟨b, h3, h4⟩ := h.step h1
    obtain ⟨m', h5, h6⟩ := ih h4 h2
    exact ⟨m', ⟨b, h3, h5⟩, h6⟩

theorem DiesAt.canStep {bad : O → Prop} {i : ι} {cap : ι × ι → Nat} {n m : Net ι O} (h : DiesAt bad i n m) (hm : m.CanStep cap) :
    n.CanStep cap ∨ n.proc i = .fault .ub := by
  obtain ⟨j, hj⟩ := hm
  by_cases hji : j = i
  · subst hji
    rcases h.state with ⟨hf, -⟩ | ⟨hd, -⟩
    · exact Or.inr hf
    generalize hp : n.proc j = p at hd
    generalize hq : m.proc j = q at hd
    cases hd with
    | same e => unfold Net.step at hj; rw [hq] at hj; cases hj
    | done _ => unfold Net.step at hj; rw [hq] at hj; cases hj
    | send _ =>
      refine Or.inl ⟨j, ?_⟩
      unfold Net.step at hj ⊢
      rw [hq] at hj
      rw [hp, h.chan]
      simp only at hj ⊢
      split at hj
      · rename_i hlt
        rw [if_pos hlt]
        rfl
      · cases hj
    | recv _ =>
      refine Or.inl ⟨j, ?_⟩
      unfold Net.step at hj ⊢
      rw [hq] at hj
      rw [hp, h.chan]
      simp only at hj ⊢
      split at hj
      · cases hj
      · rfl
    | obs _ _ => exact Or.inl ⟨j, by unfold Net.step; rw [hp]; rfl⟩
    | bad _ => exact Or.inl ⟨j, by unfold Net.step; rw [hp]; rfl⟩
  · refine Or.inl ⟨j, ?_⟩
    have e := h.others j hji
    unfold Net.step at hj ⊢
    rw [e, h.chan]
    cases hq : m.proc j with
    | done a => rw [hq] at hj; cases hj
    | fault e => rw [hq] at hj; cases hj
    | send d b k =>
      rw [hq] at hj
      simp only at hj ⊢
      split at hj
      · rename_i hlt
        rw [if_pos hlt]
        rfl
      · cases hj
    | recv s k =>
      rw [hq] at hj
      simp only at hj ⊢
      split at hj
      · cases hj
      · rfl
    | obs o k => rfl

end Net

end DPPIR
