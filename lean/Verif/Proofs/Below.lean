import Verif.Proofs.Union

/-!
# Programs that may stop earlier than others

`Below F R p q`: program `p` does the same as `q` unless it stops abnormally in a way that
`F` tells; the results are related by `R`.
-/

namespace DPPIR
open Proc

variable {ι O α β γ δ : Type}

namespace PProc

inductive Below (F : Fault → Prop) (R : α → β → Prop) : PProc ι O α → PProc ι O β → Prop where
  | fault (e : Fault) (h : F e) (q : PProc ι O β) : Below F R (.fault e) q
  | same (e : Fault) : Below F R (.fault e) (.fault e)
  | done {a : α} {b : β} (h : R a b) : Below F R (.done a) (.done b)
  | send {d : ι} {x : Byte} {p : PProc ι O α} {q : PProc ι O β} (h : Below F R p q) : Below F R (.send d x p) (.send d x q)
  | recv {s : ι} {p : Byte → PProc ι O α} {q : Byte → PProc ι O β} (h : ∀ x, Below F R (p x) (q x)) : Below F R (.recv s p) (.recv s q)
  | obs {o : O} {p : PProc ι O α} {q : PProc ι O β} (h : Below F R p q) : Below F R (.obs o p) (.obs o q)
  | poll {l : List ι} {bl : Bool} {p : (ι → Bool) → PProc ι O α} {q : (ι → Bool) → PProc ι O β} (h : ∀ x, Below F R (p x) (q x)) :
      Below F R (.poll l bl p) (.poll l bl q)
  | read {s : ι} {m : Nat} {p : List Byte → PProc ι O α} {q : List Byte → PProc ι O β} (h : ∀ x, Below F R (p x) (q x)) :
      Below F R (.read s m p) (.read s m q)

variable {F : Fault → Prop}

theorem Below.bind {R : α → β → Prop} {T : γ → δ → Prop} {p : PProc ι O α} {q : PProc ι O β} {f : α → PProc ι O γ}
    {g : β → PProc ι O δ} (h : Below F R p q) (hf : ∀ a b, R a b → Below F T (f a) (g b)) : Below F T (p.bind f) (q.bind g) := by
  induction h with
  | fault e he q => exact .fault e he _
  | same e => exact .same e
  | done h => exact hf _ _ h
  | send _ ih => exact .send ih
  | recv _ ih => exact .recv ih
  | obs _ ih => exact .obs ih
  | poll _ ih => exact .poll ih
  | read _ ih => exact .read ih

theorem Below.refl (p : PProc ι O α) : Below F Eq p p := by
  induction p with
  | done a => exact .done rfl
  | fault e => exact .same e
  | send d b k ih => exact .send ih
  | recv s k ih => exact .recv ih
  | obs o k ih => exact .obs ih
  | poll l b k ih => exact .poll ih
  | read s m k ih => exact .read ih

theorem Below.mono {R T : α → β → Prop} {p : PProc ι O α} {q : PProc ι O β} (h : Below F R p q) (hT : ∀ a b, R a b → T a b) : Below F T p q := by
  induction h with
  | fault e he q => exact .fault e he _
  | same e => exact .same e
  | done h => exact .done (hT _ _ h)
  | send _ ih => exact .send ih
  | recv _ ih => exact .recv ih
  | obs _ ih => exact .obs ih
  | poll _ ih => exact .poll ih
  | read _ ih => exact .read ih

/-- The same program, then different ones. -/
theorem Below.bindEq {T : γ → δ → Prop} (p : PProc ι O α) {f : α → PProc ι O γ} {g : α → PProc ι O δ}
    (hf : ∀ a, Below F T (f a) (g a)) : Below F T (p.bind f) (p.bind g) :=
  (Below.refl p).bind (by rintro a _ rfl; exact hf a)

theorem Below.lift {R : α → β → Prop} {x : Res α} {y : Res β} (h : ∀ a, x = .ok a → ∃ b, y = .ok b ∧ R a b)
    (he : ∀ e, x = .error e → F e ∨ y = .error e) :
    Below F R (PProc.lift x : PProc ι O α) (PProc.lift y) := by
  cases x with
  | error e =>
    rcases he e rfl with h | rfl
    · exact .fault e h _
    · exact .same e
  | ok a =>
    obtain ⟨b, rfl, hR⟩ := h a rfl
    exact .done hR

end PProc

/-! ### Networks -/

namespace PNet
variable [DecidableEq ι] {F : Fault → Prop} {R : ι → α → β → Prop}

/-- The same network except that some processes of the first have stopped. -/
structure Sim (F : Fault → Prop) (R : ι → α → β → Prop) (n : PNet ι O α) (m : PNet ι O β) : Prop where
  proc : ∀ i, PProc.Below F (R i) (n.proc i) (m.proc i)
  chan : n.chan = m.chan
  seen : n.seen = m.seen

theorem Sim.set {n : PNet ι O α} {m : PNet ι O β} (h : Sim F R n m) {i : ι} {p : PProc ι O α} {q : PProc ι O β}
    (hpq : PProc.Below F (R i) p q) (j : ι) :
    PProc.Below F (R j) (Function.update n.proc i p j) (Function.update m.proc i q j) := by
  by_cases hj : j = i
  · subst hj; simpa using hpq
  · rw [Function.update_of_ne hj, Function.update_of_ne hj]; exact h.proc j

theorem Sim.step {cap : ι × ι → Nat} {n n' : PNet ι O α} {m : PNet ι O β} (h : Sim F R n m) {i : ι} (hs : Step cap i n n') :
    ∃ m', Step cap i m m' ∧ Sim F R n' m' := by
  have hi := h.proc i
  cases hs with
  | send hp room =>
    rw [hp] at hi
    generalize hq : m.proc i = q at hi
    cases hi with
    | send hb =>
      refine ⟨_, .send hq (by rw [← h.chan]; exact room), ⟨h.set hb, ?_, h.seen⟩⟩
      simp only [h.chan]
  | recv hp data =>
    rw [hp] at hi
    generalize hq : m.proc i = q at hi
    cases hi with
    | recv hb =>
      refine ⟨_, .recv hq (by rw [← h.chan]; exact data), ⟨h.set (hb _), ?_, h.seen⟩⟩
      simp only [h.chan]
  | obs hp =>
    rw [hp] at hi
    generalize hq : m.proc i = q at hi
    cases hi with
    | obs hb =>
      refine ⟨_, .obs hq, ⟨h.set hb, h.chan, ?_⟩⟩
      simp only [h.seen]
  | poll ready hp sound some =>
    rw [hp] at hi
    generalize hq : m.proc i = q at hi
    cases hi with
    | poll hb => exact ⟨_, .poll ready hq (by rw [← h.chan]; exact sound) some, ⟨h.set (hb _), h.chan, h.seen⟩⟩
  | read hp some fits data =>
    rw [hp] at hi
    generalize hq : m.proc i = q at hi
    cases hi with
    | read hb =>
      refine ⟨_, .read hq some fits (by rw [← h.chan]; exact data), ⟨h.set (hb _), ?_, h.seen⟩⟩
      simp only [h.chan]

/-- What the second can do, the first can unless the process has stopped. -/
theorem Sim.back {cap : ι × ι → Nat} {n : PNet ι O α} {m m' : PNet ι O β} (h : Sim F R n m) {i : ι} (hs : Step cap i m m') :
    (∃ e, F e ∧ n.proc i = .fault e) ∨ ∃ n', Step cap i n n' := by
  have hi := h.proc i
  cases hs with
  | send hp room =>
    rw [hp] at hi
    generalize hq : n.proc i = q at hi
    cases hi with
    | fault e he => exact .inl ⟨e, he, rfl⟩
    | send hb => exact .inr ⟨_, .send hq (by rw [h.chan]; exact room)⟩
  | recv hp data =>
    rw [hp] at hi
    generalize hq : n.proc i = q at hi
    cases hi with
    | fault e he => exact .inl ⟨e, he, rfl⟩
    | recv hb => exact .inr ⟨_, .recv hq (by rw [h.chan]; exact data)⟩
  | obs hp =>
    rw [hp] at hi
    generalize hq : n.proc i = q at hi
    cases hi with
    | fault e he => exact .inl ⟨e, he, rfl⟩
    | obs hb => exact .inr ⟨_, .obs hq⟩
  | poll ready hp sound some =>
    rw [hp] at hi
    generalize hq : n.proc i = q at hi
    cases hi with
    | fault e he => exact .inl ⟨e, he, rfl⟩
    | poll hb => exact .inr ⟨_, .poll ready hq (by rw [h.chan]; exact sound) some⟩
  | read hp some fits data =>
    rw [hp] at hi
    generalize hq : n.proc i = q at hi
    cases hi with
    | fault e he => exact .inl ⟨e, he, rfl⟩
    | read hb => exact .inr ⟨_, .read hq some fits (by rw [h.chan]; exact data)⟩

theorem Sim.reach {cap : ι × ι → Nat} {n n' : PNet ι O α} {m : PNet ι O β} (h : Sim F R n m) (hr : Reach cap n n') :
    ∃ m', Reach cap m m' ∧ Sim F R n' m' := by
  induction hr with
  | refl => exact ⟨m, .refl, h⟩
  | step _ hs ih =>
    obtain ⟨m', h1, h2⟩ := ih
    obtain ⟨m'', h3, h4⟩ := h2.step hs
    exact ⟨m'', .step h1 h3, h4⟩

omit [DecidableEq ι] in
theorem Sim.returned {n : PNet ι O α} {m : PNet ι O β} (h : Sim F R n m) {i : ι} {a : α} (hr : n.Returned i a) :
    ∃ b, m.Returned i b ∧ R i a b := by
  have hi := h.proc i
  rw [show n.proc i = .done a from hr] at hi
  generalize hq : m.proc i = q at hi
  cases hi with
  | done hb => exact ⟨_, hq, hb⟩

/-- If the second network follows a script, so does the first as long as its processes
have not stopped: what they have done is as scripted, who has stopped did so as `F` tells,
who has returned has a result that is related to a good one; if connections are large
enough, a process can go on unless one has stopped or all have returned. -/
theorem below_script {cap : ι × ι → Nat} {G : List (GSeg ι)} {cap' : ι × ι → Nat} (hG : ∀ g ∈ G, GSeg.Ok cap' g)
    {p : ι → PProc ι O α} {q : ι → PProc ι O β} (hpq : ∀ i, PProc.Below F (R i) (p i) (q i))
    {L : ι → List (Seg ι O)} {Q : ι → β → Prop} (hd : ∀ i, PProc.Does (Q i) (q i) (L i)) (hL : ∀ i, segComm (L i) = proj i G)
    {n : PNet ι O α} (hr : Reach cap (PNet.start p) n) :
    (∀ i, n.seen i <+: segObs (L i)) ∧ (∀ i e, n.proc i = .fault e → F e) ∧
    (∀ i a, n.Returned i a → ∃ b, R i a b ∧ Q i b) ∧
    ((∀ g ∈ G, GSeg.Ok cap g) → CanStep cap n ∨ (∃ i, n.Faulted i) ∨ ∀ i, ∃ a b, n.Returned i a ∧ R i a b ∧ Q i b) := by
  have h0 : Sim F R (PNet.start p) (PNet.start q) := ⟨hpq, rfl, rfl⟩
  obtain ⟨m, hm, hs⟩ := h0.reach hr
  obtain ⟨h1, h2, h3⟩ := script_safe hG hd hL hm
  refine ⟨fun i => by rw [hs.seen]; exact h2 i, fun i e hi => ?_, fun i a ha => ?_, fun hok => ?_⟩
  · have hb := hs.proc i
    rw [hi] at hb
    generalize hq : m.proc i = q at hb
    cases hb with
    | fault _ h => exact h
    | same => exact absurd ⟨e, hq⟩ (h1 i)
  · obtain ⟨b, hb, hR⟩ := hs.returned ha
    exact ⟨b, hR, (h3 i b hb).1⟩
  · rcases (script_net hok hd hL hm).2.2 with ⟨i, m', hstep⟩ | hall
    · rcases hs.back hstep with ⟨e, -, hf⟩ | ⟨n', hn'⟩
      · exact .inr (.inl ⟨i, e, hf⟩)
      · exact .inl ⟨i, n', hn'⟩
    · by_cases hf : ∃ i, n.Faulted i
      · exact .inr (.inl hf)
      · refine .inr (.inr fun i => ?_)
        obtain ⟨⟨b, hb, hQ⟩, -⟩ := hall.1 i
        have hi := hs.proc i
        rw [show m.proc i = .done b from hb] at hi
        generalize hp : n.proc i = q at hi
        cases hi with
        | fault e => exact absurd ⟨i, e, hp⟩ hf
        | done hR => exact ⟨_, b, hp, hR, hQ⟩

end PNet

/-! ### Exchanges -/

namespace Protocol
variable {σ σ' τ : Type} {F : Fault → Prop} {R : σ → σ' → Prop}

/-- Two states of an exchange that differ in the caller's state only. -/
structure XRel (R : σ → σ' → Prop) (x : XState σ) (y : XState σ') : Prop where
  st : R x.st y.st
  received : x.received = y.received
  wbuf : x.wbuf = y.wbuf
  left : x.left = y.left
  ignored : x.ignored = y.ignored
  readCount : x.readCount = y.readCount

/-- Two handlers the first of which may fail more often. -/
structure HRel (F : Fault → Prop) (R : σ → σ' → Prop) (h : Handlers ι σ τ) (h' : Handlers ι σ' τ) : Prop where
  send : ∀ t x y, XRel R x y → PProc.Below F (XRel R) (PProc.ofProc (h.send t x) : PProg ι _) (PProc.ofProc (h'.send t y))
  recv : ∀ i m s s' rc a, R s s' → h.recv i m (s, rc) = .ok a → ∃ b, h'.recv i m (s', rc) = .ok b ∧ R a.1 b.1 ∧ a.2 = b.2
  error : ∀ i m s s' rc e, R s s' → h.recv i m (s, rc) = .error e → F e ∨ h'.recv i m (s', rc) = .error e

theorem deliver_rel {h : Handlers ι σ τ} {h' : Handlers ι σ' τ} (hh : HRel F R h h') (i : Nat) (ms : List (List Byte)) :
    ∀ s s' rc a, R s s' → deliver h i ms (s, rc) = .ok a → ∃ b, deliver h' i ms (s', rc) = .ok b ∧ R a.1 b.1 ∧ a.2 = b.2 := by
  induction ms with
  | nil =>
    intro s s' rc a hR e
    obtain rfl := Except.ok.inj e
    exact ⟨_, rfl, hR, rfl⟩
  | cons m ms ih =>
    intro s s' rc a hR e
    unfold deliver at e ⊢
    cases e1 : h.recv i m (s, rc) with
    | error e2 => rw [e1] at e; cases e
    | ok c =>
      obtain ⟨c1, c2⟩ := c
      rw [e1, bind_ok] at e
      obtain ⟨⟨b1, b2⟩, hb, hR', rfl⟩ := hh.recv i m s s' rc _ hR e1
      rw [hb, bind_ok]
      exact ih _ _ _ _ hR' e

theorem deliver_error {h : Handlers ι σ τ} {h' : Handlers ι σ' τ} (hh : HRel F R h h') (i : Nat) (ms : List (List Byte)) :
    ∀ s s' rc e, R s s' → deliver h i ms (s, rc) = .error e → F e ∨ deliver h' i ms (s', rc) = .error e := by
  induction ms with
  | nil => intro s s' rc e _ h1; cases h1
  | cons m ms ih =>
    intro s s' rc e hR h1
    unfold deliver at h1 ⊢
    cases e1 : h.recv i m (s, rc) with
    | error e2 =>
      rw [e1] at h1
      obtain rfl := Except.error.inj h1
      rcases hh.error i m s s' rc _ hR e1 with h2 | h2
      · exact .inl h2
      · rw [h2]; exact .inr rfl
    | ok c =>
      obtain ⟨c1, c2⟩ := c
      rw [e1, bind_ok] at h1
      obtain ⟨⟨b1, b2⟩, hb, hR', rfl⟩ := hh.recv i m s s' rc _ hR e1
      rw [hb, bind_ok]
      exact ih _ _ _ _ hR' h1

theorem ploop_rel {T : σ → σ' → Prop} {f : Nat → σ → PProg ι σ} {f' : Nat → σ' → PProg ι σ'}
    (hf : ∀ i s s', T s s' → PProc.Below F T (f i s) (f' i s')) (n : Nat) :
    ∀ i s s', T s s' → PProc.Below F T (ploop n i f s) (ploop n i f' s') := by
  induction n with
  | zero => intro i s s' h; exact .done h
  | succ n ih => intro i s s' h; exact (hf i s s' h).bind (ih (i + 1))

theorem readFrom_rel (X : Exchange ι) {h : Handlers ι σ τ} {h' : Handlers ι σ' τ} (hh : HRel F R h h') (i : Nat) (found : Bool)
    {x : XState σ} {y : XState σ'} (hx : XRel R x y) :
    PProc.Below F (fun a b => a.1 = b.1 ∧ XRel R a.2 b.2) (XState.readFrom X h i (found, x)) (XState.readFrom X h' i (found, y)) := by
  unfold XState.readFrom
  simp only [PProc.bind_def]
  rw [← hx.received, ← hx.left]
  refine PProc.Below.bindEq _ (fun got => ?_)
  split
  · refine PProc.Below.bindEq _ (fun c => ?_)
    refine PProc.Below.bind (R := fun (a : σ × List Nat) (b : σ' × List Nat) => R a.1 b.1 ∧ a.2 = b.2) (PProc.Below.lift (deliver_rel hh i _ _ _ _ · hx.st) (deliver_error hh i _ _ _ _ · hx.st)) ?_
    rintro ⟨s, rc⟩ ⟨s', rc'⟩ ⟨hR, e⟩
    dsimp only at e hR
    subst e
    refine PProc.Below.bindEq _ (fun got' => ?_)
    exact .done ⟨rfl, ⟨hR, rfl, hx.wbuf, rfl, by simp only [hx.ignored], by simp only [hx.readCount]⟩⟩
  · exact .done ⟨rfl, hx⟩

theorem pollRound_rel (X : Exchange ι) {h : Handlers ι σ τ} {h' : Handlers ι σ' τ} (hh : HRel F R h h') (block : Bool)
    {x : XState σ} {y : XState σ'} (hx : XRel R x y) :
    PProc.Below F (fun a b => a.1 = b.1 ∧ XRel R a.2 b.2) (x.pollRound X h block) (y.pollRound X h' block) := by
  unfold XState.pollRound XState.polled
  simp only [PProc.bind_def]
  rw [← hx.ignored]
  refine PProc.Below.bindEq _ (fun ready => ?_)
  refine ploop_rel (T := fun (a : Bool × XState σ) (b : Bool × XState σ') => a.1 = b.1 ∧ XRel R a.2 b.2) ?_ _ _ _ _ ⟨rfl, hx⟩
  rintro i ⟨f, x⟩ ⟨f', y⟩ ⟨e, hx⟩
  dsimp only at e hx
  subst e
  split
  · exact readFrom_rel X hh i f hx
  · exact .done ⟨rfl, hx⟩

theorem drain_rel (X : Exchange ι) {h : Handlers ι σ τ} {h' : Handlers ι σ' τ} (hh : HRel F R h h') (fuel : Nat) :
    ∀ {x : XState σ} {y : XState σ'}, XRel R x y → PProc.Below F (XRel R) (x.drain X h fuel) (y.drain X h' fuel) := by
  induction fuel with
  | zero => intro x y _; exact .same _
  | succ fuel ih =>
    intro x y hx
    unfold XState.drain
    simp only [PProc.bind_def]
    refine (pollRound_rel X hh false hx).bind ?_
    rintro ⟨f, x⟩ ⟨f', y⟩ ⟨e, hx⟩
    dsimp only at e hx
    subst e
    simp only [← hx.readCount]
    split
    · exact ih hx
    · exact .done hx

theorem sendMany_rel {h : Handlers ι σ τ} {h' : Handlers ι σ' τ} (hh : HRel F R h h') (ts : List τ) :
    ∀ {x : XState σ} {y : XState σ'}, XRel R x y →
      PProc.Below F (XRel R) (PProc.ofProc (XState.sendMany h ts x) : PProg ι _) (PProc.ofProc (XState.sendMany h' ts y)) := by
  induction ts with
  | nil => intro x y hx; exact .done hx
  | cons t ts ih =>
    intro x y hx
    unfold XState.sendMany
    rw [Proc.bind_def, Proc.bind_def, PProc.ofProc_bind, PProc.ofProc_bind]
    exact (hh.send t x y hx).bind (fun a b hab => ih hab)

theorem sendLoop_rel (X : Exchange ι) {h : Handlers ι σ τ} {h' : Handlers ι σ' τ} (hh : HRel F R h h') (rate fuel : Nat) :
    ∀ (items : List τ) {x : XState σ} {y : XState σ'}, XRel R x y →
      PProc.Below F (XRel R) (x.sendLoop X h rate fuel items) (y.sendLoop X h' rate fuel items) := by
  induction fuel with
  | zero =>
    intro items x y hx
    cases items with
    | nil => unfold XState.sendLoop; exact .done hx
    | cons t ts => unfold XState.sendLoop; exact .same _
  | succ fuel ih =>
    intro items x y hx
    cases items with
    | nil => unfold XState.sendLoop; exact .done hx
    | cons t ts =>
      unfold XState.sendLoop
      simp only [PProc.bind_def]
      rw [← hx.readCount]
      refine (sendMany_rel hh _ hx).bind (fun x y hx => ?_)
      rw [← hx.readCount]
      split
      · exact PProc.Below.bind (R := XRel R) (.done hx) (fun x y hx => ih _ hx)
      · exact (drain_rel X hh _ hx).bind (fun x y hx => ih _ hx)

theorem finish_rel (X : Exchange ι) {h : Handlers ι σ τ} {h' : Handlers ι σ' τ} (hh : HRel F R h h') (fuel : Nat) :
    ∀ {x : XState σ} {y : XState σ'}, XRel R x y → PProc.Below F (XRel R) (x.finish X h fuel) (y.finish X h' fuel) := by
  induction fuel with
  | zero =>
    intro x y hx
    unfold XState.finish
    rw [← hx.readCount]
    split
    · exact .same _
    · exact .done hx
  | succ fuel ih =>
    intro x y hx
    unfold XState.finish
    simp only [PProc.bind_def]
    rw [← hx.readCount]
    split
    · refine (pollRound_rel X hh true hx).bind ?_
      rintro ⟨f, x⟩ ⟨f', y⟩ ⟨-, hx⟩
      exact ih hx
    · exact .done hx

theorem sendAndPoll_rel (X : Exchange ι) {h : Handlers ι σ τ} {h' : Handlers ι σ' τ} (hh : HRel F R h h') (items : List τ)
    (readCount : Nat) {s : σ} {s' : σ'} (hs : R s s') :
    PProc.Below F R (sendAndPoll X h items readCount s) (sendAndPoll X h' items readCount s') := by
  unfold sendAndPoll
  simp only [PProc.bind_def]
  refine PProc.Below.bindEq _ (fun rc => ?_)
  refine (sendLoop_rel X hh _ _ _ ⟨hs, rfl, rfl, rfl, rfl, rfl⟩).bind (fun x y hx => ?_)
  have e : x.flushAll X = y.flushAll X := by unfold XState.flushAll; rw [hx.wbuf]
  rw [e, ← hx.readCount]
  refine PProc.Below.bindEq _ (fun _ => ?_)
  exact (finish_rel X hh _ hx).bind (fun x y hx => .done hx.st)

theorem loop_rel {T : σ → σ' → Prop} {f : Nat → σ → Prog ι σ} {f' : Nat → σ' → Prog ι σ'}
    (hf : ∀ i s s', T s s' → PProc.Below F T (PProc.ofProc (f i s) : PProg ι _) (PProc.ofProc (f' i s'))) (n : Nat) :
    ∀ i s s', T s s' → PProc.Below F T (PProc.ofProc (loop n i f s) : PProg ι _) (PProc.ofProc (loop n i f' s')) := by
  induction n with
  | zero => intro i s s' h; exact .done h
  | succ n ih =>
    intro i s s' h
    unfold loop
    rw [PProc.ofProc_bind, PProc.ofProc_bind]
    exact (hf i s s' h).bind (ih (i + 1))

theorem broadcastSecret_rel (X : Exchange ι) (t : OfflineSecret) {x : XState σ} {y : XState σ'} (hx : XRel R x y) :
    PProc.Below F (XRel R) (PProc.ofProc (broadcastSecret X t x) : PProg ι _) (PProc.ofProc (broadcastSecret X t y)) := by
  refine loop_rel ?_ _ _ _ _ hx
  intro i x y hx
  split
  · unfold XState.sendTo
    rw [Proc.bind_def, Proc.bind_def, PProc.ofProc_bind, PProc.ofProc_bind, ← hx.wbuf]
    refine PProc.Below.bindEq _ (fun w => ?_)
    exact .done ⟨hx.st, hx.received, rfl, hx.left, hx.ignored, hx.readCount⟩
  · exact .done hx

/-- Broadcasting with a `store` that fails more often. -/
theorem broadcastSecrets_rel (me servers : Nat) (sib : Nat → ι) (items : List OfflineSecret) {store : OfflineSecret → σ → Res σ}
    {store' : OfflineSecret → σ' → Res σ'} (hst : ∀ x s s' a, R s s' → store x s = .ok a → ∃ b, store' x s' = .ok b ∧ R a b)
    (herr : ∀ x s s' e, R s s' → store x s = .error e → F e ∨ store' x s' = .error e)
    {s : σ} {s' : σ'} (hs : R s s') :
    PProc.Below F R (broadcastSecrets me servers sib items store s) (broadcastSecrets me servers sib items store' s') := by
  unfold broadcastSecrets
  simp only [PProc.bind_def]
  refine PProc.Below.bindEq _ (fun counts => ?_)
  refine sendAndPoll_rel _ ⟨fun t x y hx => broadcastSecret_rel _ t hx, ?_, ?_⟩ _ _ hs
  · intro i m s s' rc a hR e
    simp only at e ⊢
    cases e1 : store (OfflineSecret.decode m) s with
    | error e2 => rw [e1] at e; cases e
    | ok c =>
      obtain ⟨b, hb, hR'⟩ := hst _ _ _ _ hR e1
      rw [e1, bind_ok] at e
      rw [hb, bind_ok]
      cases e2 : rd rc i with
      | error e3 => rw [e2] at e; cases e
      | ok k =>
        rw [e2, bind_ok] at e
        rw [bind_ok]
        cases e3 : wr rc i (wrap32 (k + 1)) with
        | error e4 => rw [e3] at e; cases e
        | ok l =>
          rw [e3, bind_ok] at e
          rw [bind_ok]
          obtain rfl := Except.ok.inj e
          exact ⟨_, rfl, hR', rfl⟩
  · intro i m s s' rc e hR h1
    simp only at h1 ⊢
    cases e1 : store (OfflineSecret.decode m) s with
    | error e2 =>
      rw [e1] at h1
      obtain rfl := Except.error.inj h1
      rcases herr _ _ _ _ hR e1 with h2 | h2
      · exact .inl h2
      · rw [h2]; exact .inr rfl
    | ok c =>
      obtain ⟨b, hb, hR'⟩ := hst _ _ _ _ hR e1
      rw [e1, bind_ok] at h1
      rw [hb, bind_ok]
      right
      cases e2 : rd rc i with
      | error e3 => rw [e2] at h1; obtain rfl := Except.error.inj h1; rfl
      | ok k =>
        rw [e2, bind_ok] at h1
        rw [bind_ok]
        cases e3 : wr rc i (wrap32 (k + 1)) with
        | error e4 => rw [e3] at h1; obtain rfl := Except.error.inj h1; rfl
        | ok l => rw [e3, bind_ok] at h1; cases h1

end Protocol

end DPPIR
