import Verif.Proofs.ChainFacts

/-!
# Safety of a process whatever the others do

`Safe I F p Q h`: the process `p`, started with the record of calls `h` and fed with
arbitrary bytes, makes a call `o` only when `I` allows it after the record so far, stops
abnormally only when `F` allows it, and returns only with `Q`.
-/

namespace DPPIR
variable {ι O α β : Type}

namespace Proc

def Safe (I : List O → O → Prop) (F : List O → Fault → Prop) : Proc ι O α → (α → List O → Prop) → List O → Prop
  | .done a, Q, h => Q a h
  | .fault e, _, h => F h e
  | .send _ _ k, Q, h => Safe I F k Q h
  | .recv _ k, Q, h => ∀ b, Safe I F (k b) Q h
  | .obs o k, Q, h => I h o ∧ Safe I F k Q (h ++ [o])

variable {I : List O → O → Prop} {F : List O → Fault → Prop}

theorem Safe.mono {p : Proc ι O α} {Q Q' : α → List O → Prop} {h : List O} (hs : Safe I F p Q h) (hQ : ∀ a h, Q a h → Q' a h) :
    Safe I F p Q' h := by
  induction p generalizing h with
  | done a => exact hQ _ _ hs
  | fault e => exact hs
  | send d b k ih => exact ih hs
  | recv s k ih => exact fun b => ih b (hs b)
  | obs o k ih => exact ⟨hs.1, ih hs.2⟩

theorem Safe.bind {p : Proc ι O α} {f : α → Proc ι O β} {Q : β → List O → Prop} {h : List O}
    (hs : Safe I F p (fun a h => Safe I F (f a) Q h) h) : Safe I F (p.bind f) Q h := by
  induction p generalizing h with
  | done a => exact hs
  | fault e => exact hs
  | send d b k ih => exact ih hs
  | recv s k ih => exact fun b => ih b (hs b)
  | obs o k ih => exact ⟨hs.1, ih hs.2⟩

theorem Safe.bind' {p : Proc ι O α} {f : α → Proc ι O β} {R : α → List O → Prop} {Q : β → List O → Prop} {h : List O}
    (hs : Safe I F p R h) (hf : ∀ a h, R a h → Safe I F (f a) Q h) : Safe I F (p.bind f) Q h :=
  Safe.bind (hs.mono hf)

theorem Safe.lift {r : Res α} {Q : α → List O → Prop} {h : List O} (hok : ∀ a, r = .ok a → Q a h) (herr : ∀ e, r = .error e → F h e) :
    Safe I F (lift r : Proc ι O α) Q h := by
  cases r with
  | ok a => exact hok a rfl
  | error e => exact herr e rfl

theorem Safe.loop {σ : Type} {f : Nat → σ → Proc ι O σ} (Inv : Nat → σ → List O → Prop) (n i : Nat) (s : σ) (h : List O)
    (h0 : Inv i s h) (hstep : ∀ j s h, i ≤ j → j < i + n → Inv j s h → Safe I F (f j s) (Inv (j + 1)) h) :
    Safe I F (loop n i f s) (Inv (i + n)) h := by
  induction n generalizing i s h with
  | zero => exact h0
  | succ n ih =>
    refine Safe.bind' (hstep i s h (Nat.le_refl _) (by omega) h0) (fun s' h' hs' => ?_)
    have := ih (i + 1) s' h' hs' (fun j s h hj hj' => hstep j s h (by omega) (by omega))
    rw [show i + 1 + n = i + (n + 1) by omega] at this
    exact this

theorem Safe.each {σ γ : Type} {f : γ → σ → Proc ι O σ} (Inv : σ → List O → Prop) (l : List γ) (s : σ) (h : List O)
    (h0 : Inv s h) (hstep : ∀ c s h, Inv s h → Safe I F (f c s) Inv h) : Safe I F (each f l s) Inv h := by
  induction l generalizing s h with
  | nil => exact h0
  | cons c l ih => exact Safe.bind' (hstep c s h h0) (fun s' h' hs' => ih s' h' hs')

theorem Safe.sendBytes {d : ι} {l : List Byte} {Q : Unit → List O → Prop} {h : List O} (hQ : Q () h) :
    Safe I F (sendBytes d l) Q h := by
  induction l with
  | nil => exact hQ
  | cons b l ih => exact ih

theorem Safe.recvBytesFrom {s : ι} {Q : List Byte → List O → Prop} {h : List O} (n : Nat) (got : List Byte)
    (hQ : ∀ l, l.length = got.length + n → Q l h) : Safe I F (recvBytesFrom s n got) Q h := by
  induction n generalizing got with
  | zero => exact hQ _ rfl
  | succ n ih => exact fun b => ih _ (fun l hl => hQ l (by simp at hl; omega))

theorem Safe.recvBytes {s : ι} {Q : List Byte → List O → Prop} {h : List O} (n : Nat)
    (hQ : ∀ l, l.length = n → Q l h) : Safe I F (recvBytes s n) Q h :=
  Safe.recvBytesFrom n [] (fun l hl => hQ l (by simpa using hl))

/-- The record of a safe process in a network of arbitrary processes. -/
theorem Safe.net [DecidableEq ι] {cap : ι × ι → Nat} {Q : Unit → List O → Prop} {i : ι} (s : List ι) (n n' : Net ι O)
    (hs : Safe I F (n.proc i) Q (n.seen i)) (hrun : n.run cap s = some n') :
    Safe I F (n'.proc i) Q (n'.seen i) ∧ ∃ t, n'.seen i = n.seen i ++ t ∧ ∀ a o b, t = a ++ o :: b → I (n.seen i ++ a) o := by
  induction s generalizing n with
  | nil =>
    obtain rfl := Option.some.inj hrun
    exact ⟨hs, [], by simp, by simp⟩
  | cons j s ih =>
    rw [Net.run] at hrun
    cases hst : n.step cap j with
    | none => rw [hst] at hrun; cases hrun
    | some m =>
      rw [hst] at hrun
      have key : Safe I F (m.proc i) Q (m.seen i) ∧ (m.seen i = n.seen i ∨ ∃ o, m.seen i = n.seen i ++ [o] ∧ I (n.seen i) o) := by
        unfold Net.step at hst
        cases hp : n.proc j with
        | done a => rw [hp] at hst; cases hst
        | fault e => rw [hp] at hst; cases hst
        | send d b k =>
          rw [hp] at hst
          simp only at hst
          split at hst
          · obtain rfl := Option.some.inj hst
            refine ⟨?_, Or.inl rfl⟩
            by_cases hij : i = j
            · subst hij
              rw [hp] at hs
              simpa using (show Safe I F k Q (n.seen i) from hs)
            · simpa [Function.update_of_ne hij] using hs
          · cases hst
        | recv c k =>
          rw [hp] at hst
          simp only at hst
          split at hst
          · cases hst
          · rename_i b rest hb
            obtain rfl := Option.some.inj hst
            refine ⟨?_, Or.inl rfl⟩
            by_cases hij : i = j
            · subst hij
              rw [hp] at hs
              simpa using hs b
            · simpa [Function.update_of_ne hij] using hs
        | obs o k =>
          rw [hp] at hst
          obtain rfl := Option.some.inj hst
          by_cases hij : i = j
          · subst hij
            rw [hp] at hs
            exact ⟨by simpa using hs.2, Or.inr ⟨o, by simp, hs.1⟩⟩
          · exact ⟨by simpa [Function.update_of_ne hij] using hs, Or.inl (by simp [Function.update_of_ne hij])⟩
      obtain ⟨h1, t, h2, h3⟩ := ih m key.1 hrun
      refine ⟨h1, ?_⟩
      rcases key.2 with hk | ⟨o, hk, hI⟩
      · rw [hk] at h2 h3
        exact ⟨t, h2, h3⟩
      · rw [hk] at h2 h3
        refine ⟨o :: t, by rw [h2, List.append_assoc]; rfl, ?_⟩
        intro a o' b hab
        cases a with
        | nil =>
          rw [List.nil_append, List.cons.injEq] at hab
          rw [← hab.1, List.append_nil]
          exact hI
        | cons x a =>
          rw [List.cons_append, List.cons.injEq] at hab
          have := h3 a o' b hab.2
          rw [← hab.1]
          simpa using this

end Proc

theorem forRange_ok_inv {σ : Type} (Inv : Nat → σ → Prop) (f : Nat → σ → Res σ) {a b : Nat} {s s' : σ} (hab : a ≤ b) (h0 : Inv a s)
    (hstep : ∀ j s s', a ≤ j → j < b → Inv j s → f j s = .ok s' → Inv (j + 1) s') (h : forRange a b f s = .ok s') : Inv b s' := by
  unfold forRange at h
  obtain ⟨n, hn⟩ : ∃ n, n = b - a := ⟨_, rfl⟩
  rw [← hn] at h
  induction n generalizing a s with
  | zero =>
    obtain rfl : a = b := by omega
    obtain rfl := Except.ok.inj h
    exact h0
  | succ n ih =>
    rw [forUp] at h
    cases hf : f a s with
    | error e => rw [hf] at h; cases h
    | ok s1 =>
      rw [hf, bind_ok] at h
      exact ih (by omega) (hstep a s s1 (Nat.le_refl _) (by omega) h0 hf)
        (fun j s s' hj => hstep j s s' (by omega)) h (by omega)

end DPPIR
