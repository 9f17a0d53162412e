import Verif.Proofs.Heeds
import Verif.Model.Exchange

/-!
# Exchanges with handlers that may fail an assertion

`Falls R p q`: the program `p` does what `q` does, or stops by a failed assertion.
-/

namespace DPPIR
open Proc
variable {ι O α β γ δ : Type}

namespace PProc

inductive Falls (R : α → β → Prop) : PProc ι O α → PProc ι O β → Prop where
  | done {a b} (h : R a b) : Falls R (.done a) (.done b)
  | stop {q} : Falls R (.fault .assertFail) q
  | fault {e} : Falls R (.fault e) (.fault e)
  | send {d b k l} (h : Falls R k l) : Falls R (.send d b k) (.send d b l)
  | recv {s k l} (h : ∀ b, Falls R (k b) (l b)) : Falls R (.recv s k) (.recv s l)
  | obs {o k l} (h : Falls R k l) : Falls R (.obs o k) (.obs o l)
  | poll {ss bl k l} (h : ∀ r, Falls R (k r) (l r)) : Falls R (.poll ss bl k) (.poll ss bl l)
  | read {s n k l} (h : ∀ c, Falls R (k c) (l c)) : Falls R (.read s n k) (.read s n l)

theorem Falls.bind {R : α → β → Prop} {T : γ → δ → Prop} {p : PProc ι O α} {q : PProc ι O β} {f : α → PProc ι O γ} {g : β → PProc ι O δ}
    (h : Falls R p q) (hf : ∀ a b, R a b → Falls T (f a) (g b)) : Falls T (p.bind f) (q.bind g) := by
  induction h with
  | done h => exact hf _ _ h
  | stop => exact .stop
  | fault => exact .fault
  | send _ ih => exact .send ih
  | recv _ ih => exact .recv ih
  | obs _ ih => exact .obs ih
  | poll _ ih => exact .poll ih
  | read _ ih => exact .read ih

theorem Falls.refl (p : PProc ι O α) : Falls (fun a b => a = b) p p := by
  induction p with
  | done a => exact .done rfl
  | fault e => exact .fault
  | send d b k ih => exact .send ih
  | recv s k ih => exact .recv ih
  | obs o k ih => exact .obs ih
  | poll ss bl k ih => exact .poll ih
  | read s n k ih => exact .read ih

theorem Falls.heeds [DecidableEq ι] {F : (ι → List Byte) → List O → Fault → Prop} (hF : ∀ L h, F L h .assertFail) {R : α → β → Prop}
    {p : PProc ι O α} {q : PProc ι O β} (hf : Falls R p q) {Q : β → (ι → List Byte) → List O → Prop} {L : ι → List Byte} {h : List O}
    (hq : Heeds F q Q L h) : Heeds F p (fun a L h => ∃ b, R a b ∧ Q b L h) L h := by
  induction hf generalizing L h with
  | done hr => exact ⟨_, hr, hq⟩
  | stop => exact hF _ _
  | fault => exact hq
  | send _ ih => exact ih hq
  | recv _ ih => exact fun b => ih b (hq b)
  | obs _ ih => exact ih hq
  | poll _ ih => exact fun r h1 h2 => ih r (hq r h1 h2)
  | read _ ih => exact fun c h1 h2 => ih c (hq c h1 h2)

end PProc

/-- The same for computations. -/
def RFalls (R : α → β → Prop) (r : Res α) (q : Res β) : Prop :=
  r = .error .assertFail ∨ (∃ a b, r = .ok a ∧ q = .ok b ∧ R a b) ∨ ∃ e, r = .error e ∧ q = .error e

theorem RFalls.refl (r : Res α) : RFalls (fun a b => a = b) r r := by
  cases r with
  | ok a => exact Or.inr (Or.inl ⟨a, a, rfl, rfl, rfl⟩)
  | error e => exact Or.inr (Or.inr ⟨e, rfl, rfl⟩)

theorem RFalls.bind {R : α → β → Prop} {T : γ → δ → Prop} {r : Res α} {q : Res β} {f : α → Res γ} {g : β → Res δ} (h : RFalls R r q)
    (hf : ∀ a b, R a b → RFalls T (f a) (g b)) : RFalls T (r >>= f) (q >>= g) := by
  rcases h with rfl | ⟨a, b, rfl, rfl, hr⟩ | ⟨e, rfl, rfl⟩
  · exact Or.inl rfl
  · exact hf a b hr
  · exact Or.inr (Or.inr ⟨e, rfl, rfl⟩)

theorem RFalls.lift {R : α → β → Prop} {r : Res α} {q : Res β} (h : RFalls R r q) :
    PProc.Falls R (PProc.lift r : PProc ι O α) (PProc.lift q) := by
  rcases h with rfl | ⟨a, b, rfl, rfl, hr⟩ | ⟨e, rfl, rfl⟩
  · exact .stop
  · exact .done hr
  · exact .fault

namespace Protocol
variable {σ σ' τ : Type}

/-- The two states of an exchange differ in the caller's state only. -/
structure FRel (R : σ → σ' → Prop) (x : XState σ) (y : XState σ') : Prop where
  st : R x.st y.st
  received : x.received = y.received
  wbuf : x.wbuf = y.wbuf
  left : x.left = y.left
  ignored : x.ignored = y.ignored
  readCount : x.readCount = y.readCount

section
variable {R : σ → σ' → Prop} {h : Handlers ι σ τ} {h' : Handlers ι σ' τ} {X : Exchange ι}
  (hsend : ∀ t x y, FRel R x y → PProc.Falls (FRel R) (PProc.ofProc (h.send t x)) (PProc.ofProc (h'.send t y)))
  (hrecv : ∀ src m s s' rc, R s s' → RFalls (fun a b => R a.1 b.1 ∧ a.2 = b.2) (h.recv src m (s, rc)) (h'.recv src m (s', rc)))

include hrecv in
theorem falls_deliver (src : Nat) (ms : List (List Byte)) (s : σ) (s' : σ') (rc : List Nat) (hr : R s s') :
    RFalls (fun a b => R a.1 b.1 ∧ a.2 = b.2) (deliver h src ms (s, rc)) (deliver h' src ms (s', rc)) := by
  induction ms generalizing s s' rc with
  | nil => exact Or.inr (Or.inl ⟨_, _, rfl, rfl, hr, rfl⟩)
  | cons m ms ih =>
    unfold deliver
    refine RFalls.bind (hrecv src m s s' rc hr) ?_
    rintro ⟨a, rc1⟩ ⟨b, rc2⟩ ⟨h1, h2⟩
    obtain rfl : rc1 = rc2 := h2
    exact ih _ _ _ h1

include hrecv in
theorem falls_readFrom (src : Nat) (found : Bool) (x : XState σ) (y : XState σ') (hx : FRel R x y) :
    PProc.Falls (fun a b => a.1 = b.1 ∧ FRel R a.2 b.2) (XState.readFrom X h src (found, x)) (XState.readFrom X h' src (found, y)) := by
  unfold XState.readFrom
  simp only [PProc.bind_def]
  rw [hx.received]
  refine PProc.Falls.bind (RFalls.refl _).lift ?_
  rintro got _ rfl
  rw [hx.left]
  split
  · refine PProc.Falls.bind (PProc.Falls.refl _) ?_
    rintro c _ rfl
    refine PProc.Falls.bind (RFalls.lift (falls_deliver hrecv src _ _ _ _ hx.st)) ?_
    rintro ⟨s, rc⟩ ⟨s', rc'⟩ ⟨h1, h2⟩
    obtain rfl : rc = rc' := h2
    refine PProc.Falls.bind (RFalls.refl _).lift ?_
    rintro got' _ rfl
    refine .done ⟨rfl, ⟨h1, rfl, hx.wbuf, ?_, ?_, ?_⟩⟩
    · simp only [hx.left]
    · simp only [hx.ignored]
    · simp only [hx.readCount]
  · exact .done ⟨rfl, hx⟩

theorem falls_ploop {α β : Type} {T : α → β → Prop} {f : Nat → α → PProg ι α} {g : Nat → β → PProg ι β}
    (hf : ∀ i a b, T a b → PProc.Falls T (f i a) (g i b)) (n i : Nat) (a : α) (b : β) (h : T a b) :
    PProc.Falls T (ploop n i f a) (ploop n i g b) := by
  induction n generalizing i a b with
  | zero => exact .done h
  | succ n ih => exact PProc.Falls.bind (hf i a b h) (fun a b h => ih _ a b h)

include hrecv in
theorem falls_pollRound (block : Bool) (x : XState σ) (y : XState σ') (hx : FRel R x y) :
    PProc.Falls (fun a b => a.1 = b.1 ∧ FRel R a.2 b.2) (x.pollRound X h block) (y.pollRound X h' block) := by
  unfold XState.pollRound
  simp only [PProc.bind_def]
  rw [show x.polled X = y.polled X by unfold XState.polled; rw [hx.ignored]]
  refine PProc.Falls.bind (PProc.Falls.refl _) ?_
  rintro ready _ rfl
  refine falls_ploop ?_ _ _ _ _ ⟨rfl, hx⟩
  rintro i ⟨f1, x⟩ ⟨f2, y⟩ ⟨h1, h2⟩
  obtain rfl : f1 = f2 := h1
  split
  · exact falls_readFrom hrecv i f1 x y h2
  · exact .done ⟨rfl, h2⟩

include hrecv in
theorem falls_drain (fuel : Nat) (x : XState σ) (y : XState σ') (hx : FRel R x y) :
    PProc.Falls (FRel R) (x.drain X h fuel) (y.drain X h' fuel) := by
  induction fuel generalizing x y with
  | zero => exact .fault
  | succ n ih =>
    unfold XState.drain
    simp only [PProc.bind_def]
    refine PProc.Falls.bind (falls_pollRound hrecv false x y hx) ?_
    rintro ⟨f1, x⟩ ⟨f2, y⟩ ⟨h1, h2⟩
    obtain rfl : f1 = f2 := h1
    have e : x.readCount = y.readCount := h2.readCount
    simp only [e]
    by_cases hc : (f1 && decide (y.readCount > 0)) = true
    · rw [if_pos hc, if_pos hc]
      exact ih x y h2
    · rw [if_neg hc, if_neg hc]
      exact .done h2

include hsend in
theorem falls_sendMany (ts : List τ) (x : XState σ) (y : XState σ') (hx : FRel R x y) :
    PProc.Falls (FRel R) (PProc.ofProc (XState.sendMany h ts x)) (PProc.ofProc (XState.sendMany h' ts y)) := by
  induction ts generalizing x y with
  | nil => exact .done hx
  | cons t ts ih =>
    unfold XState.sendMany
    rw [Proc.bind_def, Proc.bind_def, PProc.ofProc_bind, PProc.ofProc_bind]
    exact PProc.Falls.bind (hsend t x y hx) (fun x y h => ih x y h)

include hsend hrecv in
theorem falls_sendLoop (rate fuel : Nat) (items : List τ) (x : XState σ) (y : XState σ') (hx : FRel R x y) :
    PProc.Falls (FRel R) (x.sendLoop X h rate fuel items) (y.sendLoop X h' rate fuel items) := by
  induction fuel generalizing items x y with
  | zero =>
    cases items with
    | nil => exact .done hx
    | cons t ts => exact .fault
  | succ n ih =>
    cases items with
    | nil => exact .done hx
    | cons t ts =>
      unfold XState.sendLoop
      simp only [PProc.bind_def, hx.readCount]
      refine PProc.Falls.bind (falls_sendMany hsend _ x y hx) ?_
      intro x y hx
      simp only [hx.readCount]
      split
      · exact ih _ x y hx
      · exact PProc.Falls.bind (falls_drain hrecv _ x y hx) (fun x y h => ih _ x y h)

include hrecv in
theorem falls_finish (fuel : Nat) (x : XState σ) (y : XState σ') (hx : FRel R x y) :
    PProc.Falls (FRel R) (x.finish X h fuel) (y.finish X h' fuel) := by
  induction fuel generalizing x y with
  | zero =>
    unfold XState.finish
    rw [hx.readCount]
    split
    · exact .fault
    · exact .done hx
  | succ n ih =>
    unfold XState.finish
    simp only [PProc.bind_def, hx.readCount]
    split
    · refine PProc.Falls.bind (falls_pollRound hrecv true x y hx) ?_
      rintro ⟨f1, x⟩ ⟨f2, y⟩ ⟨-, h2⟩
      exact ih x y h2
    · exact .done hx

include hsend hrecv in
theorem falls_sendAndPoll (items : List τ) (count : Nat) (s : σ) (s' : σ') (hs : R s s') :
    PProc.Falls R (sendAndPoll X h items count s) (sendAndPoll X h' items count s') := by
  unfold sendAndPoll
  simp only [PProc.bind_def]
  refine PProc.Falls.bind (RFalls.refl _).lift ?_
  rintro rc _ rfl
  refine PProc.Falls.bind (falls_sendLoop hsend hrecv _ _ _ _ _ ⟨hs, rfl, rfl, rfl, rfl, rfl⟩) ?_
  intro x y hx
  rw [show x.flushAll X = y.flushAll X by unfold XState.flushAll; rw [hx.wbuf]]
  refine PProc.Falls.bind (PProc.Falls.refl _) ?_
  rintro _ _ -
  rw [hx.readCount]
  refine PProc.Falls.bind (falls_finish hrecv _ x y hx) ?_
  intro x y hx
  exact .done hx.st

end

end Protocol

end DPPIR
