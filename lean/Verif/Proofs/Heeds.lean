import Verif.Proofs.PSafety
import Verif.Proofs.Polling
import Verif.Spec.Hearing

/-!
# Safety of a process, in terms of what it read

`Heeds F p Q L h`: the process `p`, which has read `L` and made the calls `h`, stops
abnormally only when `F` allows it and returns only with `Q`, whatever the others send.
-/

namespace DPPIR
variable {ι O α β : Type} [DecidableEq ι]

/-- What was read, with some more bytes from `s`. -/
def hear (L : ι → List Byte) (s : ι) (c : List Byte) : ι → List Byte := Function.update L s (L s ++ c)

namespace PProc

def Heeds (F : (ι → List Byte) → List O → Fault → Prop) :
    PProc ι O α → (α → (ι → List Byte) → List O → Prop) → (ι → List Byte) → List O → Prop
  | .done a, Q, L, h => Q a L h
  | .fault e, _, L, h => F L h e
  | .send _ _ k, Q, L, h => Heeds F k Q L h
  | .recv s k, Q, L, h => ∀ b, Heeds F (k b) Q (hear L s [b]) h
  | .obs o k, Q, L, h => Heeds F k Q L (h ++ [o])
  | .poll srcs block k, Q, L, h =>
      ∀ r : ι → Bool, (∀ j, r j = true → j ∈ srcs) → (block = true → ∃ j, r j = true) → Heeds F (k r) Q L h
  | .read s n k, Q, L, h => ∀ c, c ≠ [] → c.length ≤ n → Heeds F (k c) Q (hear L s c) h

variable {F : (ι → List Byte) → List O → Fault → Prop}

theorem Heeds.mono {p : PProc ι O α} {Q Q' : α → (ι → List Byte) → List O → Prop} {L : ι → List Byte} {h : List O}
    (hs : Heeds F p Q L h) (hQ : ∀ a L h, Q a L h → Q' a L h) : Heeds F p Q' L h := by
  induction p generalizing L h with
  | done a => exact hQ _ _ _ hs
  | fault e => exact hs
  | send d b k ih => exact ih hs
  | recv s k ih => exact fun b => ih b (hs b)
  | obs o k ih => exact ih hs
  | poll ss bl k ih => exact fun r h1 h2 => ih r (hs r h1 h2)
  | read s n k ih => exact fun c h1 h2 => ih c (hs c h1 h2)

theorem Heeds.bind {p : PProc ι O α} {f : α → PProc ι O β} {Q : β → (ι → List Byte) → List O → Prop} {L : ι → List Byte} {h : List O}
    (hs : Heeds F p (fun a L h => Heeds F (f a) Q L h) L h) : Heeds F (p.bind f) Q L h := by
  induction p generalizing L h with
  | done a => exact hs
  | fault e => exact hs
  | send d b k ih => exact ih hs
  | recv s k ih => exact fun b => ih b (hs b)
  | obs o k ih => exact ih hs
  | poll ss bl k ih => exact fun r h1 h2 => ih r (hs r h1 h2)
  | read s n k ih => exact fun c h1 h2 => ih c (hs c h1 h2)

theorem Heeds.bind' {p : PProc ι O α} {f : α → PProc ι O β} {R : α → (ι → List Byte) → List O → Prop}
    {Q : β → (ι → List Byte) → List O → Prop} {L : ι → List Byte} {h : List O}
    (hs : Heeds F p R L h) (hf : ∀ a L h, R a L h → Heeds F (f a) Q L h) : Heeds F (p.bind f) Q L h :=
  Heeds.bind (hs.mono hf)

theorem Heeds.lift_ok {r : Res α} {a : α} (hr : r = .ok a) {f : α → PProc ι O β} {Q : β → (ι → List Byte) → List O → Prop}
    {L : ι → List Byte} {h : List O} (hs : Heeds F (f a) Q L h) : Heeds F ((PProc.lift r).bind f) Q L h := by
  rw [hr]; exact hs

/-- Whatever happens, once `F` allows everything for good. -/
theorem Heeds.any (p : PProc ι O α) (P : (ι → List Byte) → List O → Prop) (hF : ∀ L h e, P L h → F L h e)
    (hL : ∀ L h s c, P L h → P (hear L s c) h) (hh : ∀ L h o, P L h → P L (h ++ [o]))
    {L : ι → List Byte} {h : List O} (h0 : P L h) : Heeds F p (fun _ L h => P L h) L h := by
  induction p generalizing L h with
  | done a => exact h0
  | fault e => exact hF _ _ _ h0
  | send d b k ih => exact ih h0
  | recv s k ih => exact fun b => ih b (hL _ _ _ _ h0)
  | obs o k ih => exact ih (hh _ _ _ h0)
  | poll ss bl k ih => exact fun r h1 h2 => ih r h0
  | read s n k ih => exact fun c h1 h2 => ih c (hL _ _ _ _ h0)

/-- A process in a network of arbitrary processes. -/
theorem Heeds.net {cap : ι × ι → Nat} {Q : α → (ι → List Byte) → List O → Prop} {i : ι} {n m : PNet ι O α} {L : ι → List Byte}
    (hs : Heeds F (n.proc i) Q (fun _ => []) (n.seen i)) (hrun : PNet.Hears cap i n m L) : Heeds F (m.proc i) Q L (m.seen i) := by
  induction hrun with
  | refl => exact hs
  | @other m m' L j _ st hj ih =>
    cases st <;> simpa [Function.update_of_ne (Ne.symm hj)] using ih
  | @quiet m m' L _ st hq ih =>
    cases st with
    | @send d b k h room => rw [h] at ih; simpa using (show Heeds F k Q L (m.seen i) from ih)
    | @recv s k b rest h data => exact absurd h (hq.1 _ _)
    | @obs o k h => rw [h] at ih; simpa using (show Heeds F k Q L (m.seen i ++ [o]) from ih)
    | poll ready h sound some => rw [h] at ih; simpa using ih ready (fun j hj => (sound j hj).1) some
    | @read s l k c rest h some fits data => exact absurd h (hq.2 _ _ _)
  | @recv m L src k b rest _ h data ih => rw [h] at ih; simpa [hear] using ih b
  | @read m L src l k c rest _ h some fits data ih => rw [h] at ih; simpa [hear] using ih c some fits

end PProc

/-! ### Programs that do not poll -/

namespace Proc

/-- The program reads only from processes in `S`. -/
def Only (S : ι → Prop) : Proc ι O α → Prop
  | .done _ => True
  | .fault _ => True
  | .send _ _ k => Only S k
  | .recv s k => S s ∧ ∀ b, Only S (k b)
  | .obs _ k => Only S k

omit [DecidableEq ι] in
theorem Only.bind {S : ι → Prop} {p : Proc ι O α} {f : α → Proc ι O β} (hp : Only S p) (hf : ∀ a, Only S (f a)) :
    Only S (p.bind f) := by
  induction p with
  | done a => exact hf a
  | fault e => trivial
  | send d b k ih => exact ih hp
  | recv s k ih => exact ⟨hp.1, fun b => ih b (hp.2 b)⟩
  | obs o k ih => exact ih hp

omit [DecidableEq ι] in
theorem Only.lift {S : ι → Prop} (r : Res α) : Only S (lift r : Proc ι O α) := by cases r <;> trivial

omit [DecidableEq ι] in
theorem Only.loop {σ : Type} {S : ι → Prop} {f : Nat → σ → Proc ι O σ} (hf : ∀ j s, Only S (f j s)) (n i : Nat) (s : σ) :
    Only S (loop n i f s) := by
  induction n generalizing i s with
  | zero => trivial
  | succ n ih => exact Only.bind (hf i s) (fun s' => ih _ s')

omit [DecidableEq ι] in
theorem Only.each {σ γ : Type} {S : ι → Prop} {f : γ → σ → Proc ι O σ} (hf : ∀ c s, Only S (f c s)) (l : List γ) (s : σ) :
    Only S (each f l s) := by
  induction l generalizing s with
  | nil => trivial
  | cons c l ih => exact Only.bind (hf c s) (fun s' => ih s')

omit [DecidableEq ι] in
theorem Only.sendBytes {S : ι → Prop} (d : ι) (l : List Byte) : Only S (sendBytes d l : Proc ι O Unit) := by
  induction l with
  | nil => trivial
  | cons b l ih => exact ih

omit [DecidableEq ι] in
theorem Only.recvBytesFrom {S : ι → Prop} {s : ι} (hs : S s) (n : Nat) (got : List Byte) :
    Only S (recvBytesFrom s n got : Proc ι O (List Byte)) := by
  induction n generalizing got with
  | zero => trivial
  | succ n ih => exact ⟨hs, fun b => ih _⟩

omit [DecidableEq ι] in
theorem Only.recvBytes {S : ι → Prop} {s : ι} (hs : S s) (n : Nat) : Only S (recvBytes s n : Proc ι O (List Byte)) :=
  Only.recvBytesFrom hs n []

/-- What was read from processes outside of `S` is the same. -/
def SameOff (S : ι → Prop) (L L' : ι → List Byte) : Prop := ∀ j, ¬ S j → L' j = L j

end Proc

open Proc in
theorem PProc.Heeds.ofProc {I : List O → O → Prop} {F0 : List O → Fault → Prop} {F : (ι → List Byte) → List O → Fault → Prop}
    {S : ι → Prop} {p : Proc ι O α} {Q : α → List O → Prop} {L : ι → List Byte} {h : List O}
    (hs : Proc.Safe I F0 p Q h) (ho : Only S p) (hF : ∀ L' h' e, SameOff S L L' → F0 h' e → F L' h' e) :
    Heeds F (ofProc p) (fun a L' h' => Q a h' ∧ SameOff S L L') L h := by
  suffices H : ∀ L0, SameOff S L L0 → Heeds F (PProc.ofProc p) (fun a L' h' => Q a h' ∧ SameOff S L L') L0 h from H L (fun _ _ => rfl)
  induction p generalizing h with
  | done a => exact fun L0 h0 => ⟨hs, h0⟩
  | fault e => exact fun L0 h0 => hF _ _ _ h0 hs
  | send d b k ih => exact fun L0 h0 => ih hs ho L0 h0
  | recv s k ih =>
    intro L0 h0 b
    refine ih b (hs b) (ho.2 b) _ ?_
    intro j hj
    unfold hear
    rw [Function.update_of_ne (by rintro rfl; exact hj ho.1)]
    exact h0 j hj
  | obs o k ih => exact fun L0 h0 => ih hs.2 ho L0 h0

/-! ### From runs among well-behaved processes -/

namespace PProc

/-- A program that gets through an exchange with any bytes of the right number from each
process also does so when these bytes come from arbitrary processes. -/
theorem Heeds.ofDoes {F : (ι → List Byte) → List O → Fault → Prop} (p : PProc ι O α) (len : ι → Nat)
    (Q : (ι → List Byte) → α → Prop)
    (hd : ∀ is : ι → List Byte, (∀ j, (is j).length = len j) → ∃ os av, Does (Q is) p [.xchg os is av]) (L : ι → List Byte) (h : List O) :
    Heeds F p (fun a L' h' => h' = h ∧ ∃ is : ι → List Byte, (∀ j, (is j).length = len j) ∧ (∀ j, L' j = L j ++ is j) ∧ Q is a) L h := by
  have some := hd (fun j => List.replicate (len j) 0) (by simp)
  have nil : ∀ {Q : α → Prop} {p : PProc ι O α}, Does Q p [] → ∃ a, p = .done a ∧ Q a := by
    intro Q p hd
    cases hd with
    | done h => exact ⟨_, rfl, h⟩
  -- bytes put before those still to be read
  have put : ∀ (is : ι → List Byte) (len : ι → Nat) (s : ι) (c : List Byte), c.length ≤ len s →
      (∀ j, (is j).length = Function.update len s (len s - c.length) j) →
      (∀ j, (Function.update is s (c ++ is s) j).length = len j) := by
    intro is len s c hc his j
    by_cases hj : j = s
    · subst hj
      rw [Function.update_self, List.length_append, his, Function.update_self]
      omega
    · rw [Function.update_of_ne hj, his, Function.update_of_ne hj]
  have fin : ∀ (is : ι → List Byte) (L L' : ι → List Byte) (s : ι) (c : List Byte), (∀ j, L' j = hear L s c j ++ is j) →
      ∀ j, L' j = L j ++ Function.update is s (c ++ is s) j := by
    intro is L L' s c hL j
    rw [hL]
    unfold hear
    by_cases hj : j = s
    · subst hj; rw [Function.update_self, Function.update_self, List.append_assoc]
    · rw [Function.update_of_ne hj, Function.update_of_ne hj]
  induction p generalizing len Q L h with
  | done a =>
    obtain ⟨os, av, hd0⟩ := some
    have hlen : ∀ j, len j = 0 := by
      cases hd0 with
      | xend hi h => intro j; have := congrArg List.length (hi j); simpa using this
    obtain ⟨os, av, hd1⟩ := hd (fun _ => []) (by simp [hlen])
    refine ⟨rfl, fun _ => [], by simp [hlen], by simp, ?_⟩
    cases hd1 with
    | xend hi h =>
      obtain ⟨b, e, hb⟩ := nil h
      cases e
      exact hb
  | fault e =>
    obtain ⟨os, av, hd0⟩ := some
    cases hd0 with
    | xend hi h => obtain ⟨b, e, -⟩ := nil h; cases e
  | send d b k ih =>
    have key : ∀ is : ι → List Byte, (∀ j, (is j).length = len j) → ∃ os av, Does (Q is) k [.xchg os is av] := by
      intro is his
      obtain ⟨os, av, hd0⟩ := hd is his
      cases hd0 with
      | xsend h => exact ⟨_, _, h⟩
      | xend hi h => obtain ⟨b, e, -⟩ := nil h; cases e
    exact ih len Q key L h (key _ (by simp))
  | recv s k ih =>
    intro b
    have hpos : 1 ≤ len s := by
      obtain ⟨os, av, hd0⟩ := some
      cases hd0 with
      | xrecv hi h => have := congrArg List.length hi; simp at this; omega
      | xend hi h => obtain ⟨b, e, -⟩ := nil h; cases e
    have key : ∀ is : ι → List Byte, (∀ j, (is j).length = Function.update len s (len s - 1) j) →
        ∃ os av, Does (Q (Function.update is s (b :: is s))) (k b) [.xchg os is av] := by
      intro is his
      obtain ⟨os, av, hd0⟩ := hd _ (put is len s [b] hpos his)
      cases hd0 with
      | xrecv hi h =>
        rw [Function.update_self] at hi
        obtain ⟨rfl, rfl⟩ := List.cons.inj hi
        rw [show ([] : List Byte).append (is s) = is s from rfl] at h
        simp only [Function.update_idem, Function.update_eq_self] at h
        exact ⟨_, _, h⟩
      | xend hi h => obtain ⟨b, e, -⟩ := nil h; cases e
    refine (ih b _ _ key (hear L s [b]) h (key _ (by simp))).mono ?_
    rintro a L' h' ⟨rfl, is, h1, h2, h3⟩
    exact ⟨rfl, _, put is len s [b] hpos h1, fin is L L' s [b] h2, h3⟩
  | obs o k ih =>
    obtain ⟨os, av, hd0⟩ := some
    cases hd0 with
    | xend hi h => obtain ⟨b, e, -⟩ := nil h; cases e
  | poll ss bl k ih =>
    intro r h1 h2
    have key : ∀ is : ι → List Byte, (∀ j, (is j).length = len j) → ∃ os av, Does (Q is) (k r) [.xchg os is av] := by
      intro is his
      obtain ⟨os, av, hd0⟩ := hd is his
      cases hd0 with
      | xpoll hs hb h => exact ⟨_, _, h r h1 h2⟩
      | xend hi h => obtain ⟨b, e, -⟩ := nil h; cases e
    exact ih r len Q key L h (key _ (by simp))
  | read s n k ih =>
    intro c hc hcn
    have hpos : c.length ≤ len s := by
      obtain ⟨os, av, hd0⟩ := some
      cases hd0 with
      | xread hn hl hav h => simp at hl; omega
      | xend hi h => obtain ⟨b, e, -⟩ := nil h; cases e
    have key : ∀ is : ι → List Byte, (∀ j, (is j).length = Function.update len s (len s - c.length) j) →
        ∃ os av, Does (Q (Function.update is s (c ++ is s))) (k c) [.xchg os is av] := by
      intro is his
      obtain ⟨os, av, hd0⟩ := hd _ (put is len s c hpos his)
      cases hd0 with
      | xread hn hl hav h =>
        have := h c hc hcn (by rw [Function.update_self]; exact List.prefix_append _ _)
        rw [Function.update_self, List.drop_left] at this
        simp only [Function.update_idem, Function.update_eq_self] at this
        exact ⟨_, _, this⟩
      | xend hi h => obtain ⟨b, e, -⟩ := nil h; cases e
    refine (ih c _ _ key (hear L s c) h (key _ (by simp))).mono ?_
    rintro a L' h' ⟨rfl, is, h1, h2, h3⟩
    exact ⟨rfl, _, put is len s c hpos h1, fin is L L' s c h2, h3⟩

end PProc

end DPPIR
