import Verif.Proofs.JointPlan
import Verif.Proofs.JointLinks
import Mathlib.Order.GameAdd

/-!
# Connecting and running the protocol, interleaved

A network in which some processes still connect while others run the protocol is one of
connection set-up next to one of the protocol.
-/

namespace DPPIR.Joint
open DPPIR.Connect DPPIR.Main
open DPPIR.Protocol (Node Obs)
open Classical

variable {ι A : Type} [DecidableEq ι] [DecidableEq A] {pl : Plan A}
variable {pos : ι → Node} {cap : Sock Node → Nat} {prog : ι → PProc ι Obs Unit}

/-- The capacities as the protocol sees them. -/
noncomputable def capOf (pl : Plan A) (pos : ι → Node) (cap : Sock Node → Nat) (x : ι × ι) : Nat :=
  if Linked pl.P pl.S (pos x.1) (pos x.2) then cap (pl.endOf (pos x.1) (pos x.2)) else 0

theorem capOf_linked {a b : ι} (h : Linked pl.P pl.S (pos a) (pos b)) : capOf pl pos cap (a, b) = cap (pl.endOf (pos a) (pos b)) :=
  if_pos h

theorem capOf_not {a b : ι} (h : ¬ Linked pl.P pl.S (pos a) (pos b)) : capOf pl pos cap (a, b) = 0 := if_neg h

/-- The network `J` is `C` next to `P`. -/
structure Rel (pl : Plan A) (pos : ι → Node) (cap : Sock Node → Nat) (prog : ι → PProc ι Obs Unit)
    (J : JNet ι A Obs) (C : CNet Node A (Wiring Node)) (P : PNet ι Obs Unit) : Prop where
  inv : ∃ st, Inv pl C st
  reach : PNet.Reach (capOf pl pos cap) (PNet.start prog) P
  proc : J.net.proc = C.proc
  listener : J.net.listener = C.listener
  pending : J.net.pending = C.pending
  dials : J.net.dials = C.dials
  run : J.run = P.proc
  seen : J.seen = P.seen
  chan : ∀ a b, Linked pl.P pl.S (pos a) (pos b) → J.net.chan (pl.endOf (pos a) (pos b)) = C.chan (pl.endOf (pos a) (pos b)) ++ P.chan (a, b)
  rest : ∀ s, (∀ a b, Linked pl.P pl.S (pos a) (pos b) → s ≠ pl.endOf (pos a) (pos b)) → J.net.chan s = C.chan s
  idle : ∀ i, (∀ w, C.proc (pos i) ≠ .done w) → ∀ b, P.chan (i, b) = []

/-- Nobody turns to a process it has no connection with. -/
def Turns (pl : Plan A) (pos : ι → Node) (cap : Sock Node → Nat) (prog : ι → PProc ι Obs Unit) : Prop :=
  ∀ P, PNet.Reach (capOf pl pos cap) (PNet.start prog) P → ∀ i,
    (∀ d b k, P.proc i = .send d b k → Linked pl.P pl.S (pos i) (pos d)) ∧
    (∀ s k, P.proc i = .recv s k → Linked pl.P pl.S (pos s) (pos i)) ∧
    ∀ s l k, P.proc i = .read s l k → Linked pl.P pl.S (pos s) (pos i)

variable {J J' : JNet ι A Obs} {C : CNet Node A (Wiring Node)} {P : PNet ι Obs Unit}

theorem Rel.start {setup : Node → CProc Node A (Wiring Node)} {st : Node → St} (h0 : Inv pl (CNet.start setup) st) :
    Rel pl pos cap prog (JNet.start setup prog) (CNet.start setup) (PNet.start prog) where
  inv := ⟨st, h0⟩
  reach := .refl
  proc := rfl
  listener := rfl
  pending := rfl
  dials := rfl
  run := rfl
  seen := rfl
  chan _ _ _ := rfl
  rest _ _ := rfl
  idle _ _ _ := rfl

/-- What is in transit on a connection: what was sent while connecting comes first. -/
theorem Rel.chan_append (h : Rel pl pos cap prog J C P) (s : Sock Node) : ∃ t, J.net.chan s = C.chan s ++ t := by
  by_cases hs : ∀ a b, Linked pl.P pl.S (pos a) (pos b) → s ≠ pl.endOf (pos a) (pos b)
  · exact ⟨[], by rw [h.rest s hs, List.append_nil]⟩
  · simp only [not_forall, not_not] at hs
    obtain ⟨a, b, hl, rfl⟩ := hs
    exact ⟨_, h.chan a b hl⟩

/-- Nothing is in transit between processes that have no connection. -/
theorem Rel.chan_not (h : Rel pl pos cap prog J C P) {a b : ι} (hl : ¬ Linked pl.P pl.S (pos a) (pos b)) : P.chan (a, b) = [] := by
  have := h.reach.within (PNet.start_within prog) (a, b)
  rw [capOf_not hl] at this
  exact List.length_eq_zero_iff.1 (by omega)

/-- A byte that a connecting process reads is one that was sent while connecting. -/
theorem Rel.greeting (h : Rel pl pos cap prog J C P) {i : Node} {s : Sock Node} {k : Byte → CProc Node A (Wiring Node)}
    (hp : C.proc i = .recv s k) {b : Byte} {rest : List Byte} (data : J.net.chan s = b :: rest) :
    ∃ r t, C.chan s = b :: r ∧ rest = r ++ t := by
  obtain ⟨st, hi⟩ := h.inv
  obtain ⟨j, hl, hx, hne⟩ := hi.receives hp
  obtain ⟨t, ht⟩ := h.chan_append s
  have hc : C.chan s ≠ [] := by
    intro hc
    by_cases hs : ∀ a b, Linked pl.P pl.S (pos a) (pos b) → s ≠ pl.endOf (pos a) (pos b)
    · rw [h.rest s hs, hc] at data
      cases data
    · simp only [not_forall, not_not] at hs
      obtain ⟨a, b, hl', rfl⟩ := hs
      have e := (Plan.endOf_inj hl' hl hx).1
      rw [h.chan a b hl', hc, h.idle a (fun w hw => hne w (e ▸ hw) hc) b] at data
      cases data
  obtain ⟨b', r, hr⟩ := List.exists_cons_of_ne_nil hc
  rw [ht, hr, List.cons_append] at data
  injection data with h1 h2
  exact ⟨r, t, by rw [hr, h1], h2.symm⟩

/-- A step while connecting. -/
theorem Rel.setup (h : Rel pl pos cap prog J C P) (hd : pl.Distinct) (hS : pl.S ≤ 256) {j : Node} {m : CNet Node A (Wiring Node)}
    (hs : CNet.Step j J.net m) : ∃ C', CNet.Step j C C' ∧ Rel pl pos cap prog { J with net := m } C' P := by
  obtain ⟨⟨proc, lis, pend, dials, chan⟩, run, seen⟩ := J
  obtain ⟨proc', lis', pend', dials', cchan⟩ := C
  have hh := h
  obtain ⟨⟨st, hi⟩, h2, h3, h4, h5, h6, h7, h8, h9, h10, h11⟩ := h
  dsimp only at h3 h4 h5 h6 h7 h8 h9 h10 h11
  subst h3 h4 h5 h6
  have key : ∀ C', CNet.Step j ⟨proc, lis, pend, dials, cchan⟩ C' → (m.proc = C'.proc) → m.listener = C'.listener →
      m.pending = C'.pending → m.dials = C'.dials →
      (∀ a b, Linked pl.P pl.S (pos a) (pos b) → m.chan (pl.endOf (pos a) (pos b)) = C'.chan (pl.endOf (pos a) (pos b)) ++ P.chan (a, b)) →
      (∀ s, (∀ a b, Linked pl.P pl.S (pos a) (pos b) → s ≠ pl.endOf (pos a) (pos b)) → m.chan s = C'.chan s) →
      ∃ C', CNet.Step j ⟨proc, lis, pend, dials, cchan⟩ C' ∧ Rel pl pos cap prog ⟨m, run, seen⟩ C' P := by
    intro C' hs' e1 e2 e3 e4 e5 e6
    obtain ⟨-, s', hi', -⟩ := hi.step hd hS hs'
    refine ⟨C', hs', ⟨_, hi'⟩, h2, e1, e2, e3, e4, h7, h8, e5, e6, fun i hw => h11 i (fun w hw' => hw w ?_)⟩
    exact step_done hs' hw'
  cases hs with
  | listen h' free => exact key _ (.listen h' free) rfl rfl rfl rfl h9 h10
  | inUse h' taken => exact key _ (.inUse h' taken) rfl rfl rfl rfl h9 h10
  | accept h' waiting => exact key _ (.accept h' waiting) rfl rfl rfl rfl h9 h10
  | connect h' up room => exact key _ (.connect h' up room) rfl rfl rfl rfl h9 h10
  | @send x b k h' =>
    refine key _ (.send h') rfl rfl rfl rfl (fun a c hl => ?_) (fun s hs => ?_)
    · obtain ⟨j', hl', e⟩ := hi.sends h'
      dsimp only at e ⊢
      by_cases hx : pl.endOf (pos a) (pos c) = ⟨x.conn, !x.server⟩
      · rw [hx, Function.update_self, Function.update_self, ← hx, h9 a c hl]
        rw [e] at hx
        have ea := (Plan.endOf_inj hl hl' hx).1
        rw [h11 a (fun w hw => by rw [ea] at hw; have := h'.symm.trans hw; cases this) c]
        simp
      · rw [Function.update_of_ne hx, Function.update_of_ne hx, h9 a c hl]
    · dsimp only
      by_cases hx : s = ⟨x.conn, !x.server⟩
      · rw [← hx, Function.update_self, Function.update_self, h10 s hs]
      · rw [Function.update_of_ne hx, Function.update_of_ne hx, h10 s hs]
  | @recv x b k rest h' data =>
    obtain ⟨r, t, hr, ht⟩ := hh.greeting h' data
    refine key _ (.recv h' hr) rfl rfl rfl rfl (fun a c hl => ?_) (fun s hs => ?_)
    · dsimp only
      by_cases hx : pl.endOf (pos a) (pos c) = x
      · subst hx
        rw [Function.update_self, Function.update_self]
        have e := h9 a c hl
        dsimp only at data hr
        rw [data, hr, List.cons_append] at e
        injection e
      · rw [Function.update_of_ne hx, Function.update_of_ne hx, h9 a c hl]
    · dsimp only
      by_cases hx : s = x
      · subst hx
        rw [Function.update_self, Function.update_self]
        have e := h10 s hs
        dsimp only at data hr
        rw [data, hr] at e
        injection e
      · rw [Function.update_of_ne hx, Function.update_of_ne hx, h10 s hs]

/-- A step of the protocol that changes no connection. -/
theorem Rel.quiet (h : Rel pl pos cap prog J C P) {P' : PNet ι Obs Unit} {i : ι} (hs : PNet.Step (capOf pl pos cap) i P P') (e : P'.chan = P.chan)
    {r : ι → PProc ι Obs Unit} {o : ι → List Obs} (hr : r = P'.proc) (ho : o = P'.seen) :
    Rel pl pos cap prog { J with run := r, seen := o } C P' where
  inv := h.inv
  reach := h.reach.step hs
  proc := h.proc
  listener := h.listener
  pending := h.pending
  dials := h.dials
  run := hr
  seen := ho
  chan a b hl := by rw [e]; exact h.chan a b hl
  rest := h.rest
  idle := by rw [e]; exact h.idle

/-- A step of the protocol that changes one connection. -/
theorem Rel.loud (h : Rel pl pos cap prog J C P) (hpos : Function.Injective pos) {P' : PNet ι Obs Unit} {i : ι}
    (hs : PNet.Step (capOf pl pos cap) i P P') {a b : ι}
    (hl : Linked pl.P pl.S (pos a) (pos b)) (hidle : (∀ w, C.proc (pos a) ≠ .done w) → P'.chan (a, b) = []) {l l' : List Byte}
    (e : P'.chan = Function.update P.chan (a, b) l') (el : l = C.chan (pl.endOf (pos a) (pos b)) ++ l')
    {r : ι → PProc ι Obs Unit} {o : ι → List Obs} (hr : r = P'.proc) (ho : o = P'.seen) :
    Rel pl pos cap prog { J with run := r, seen := o, net := { J.net with chan := Function.update J.net.chan (pl.endOf (pos a) (pos b)) l } } C P' where
  inv := h.inv
  reach := h.reach.step hs
  proc := h.proc
  listener := h.listener
  pending := h.pending
  dials := h.dials
  run := hr
  seen := ho
  chan a' b' hl' := by
    dsimp only
    rw [e]
    by_cases hx : pl.endOf (pos a') (pos b') = pl.endOf (pos a) (pos b)
    · obtain ⟨e1, e2⟩ := Plan.endOf_inj hl' hl hx
      obtain rfl := hpos e1
      obtain rfl := hpos e2
      rw [Function.update_self, Function.update_self, el]
    · rw [Function.update_of_ne hx, Function.update_of_ne, h.chan a' b' hl']
      rintro ⟨⟩
      exact hx rfl
  rest s hs := by
    dsimp only
    rw [Function.update_of_ne (hs a b hl), h.rest s hs]
  idle i hi b' := by
    by_cases hx : (i, b') = (a, b)
    · obtain ⟨rfl, rfl⟩ := Prod.mk.injEq _ _ _ _ ▸ hx
      exact hidle hi
    · rw [e, Function.update_of_ne hx, h.idle i hi]

/-- Every step is one of connection set-up or one of the protocol. -/
theorem Rel.step (h : Rel pl pos cap prog J C P) (hd : pl.Distinct) (hS : pl.S ≤ 256) (hpos : Function.Injective pos)
    (ht : Turns pl pos cap prog) (hs : JNet.Step pos cap J J') :
    ∃ C' P', Rel pl pos cap prog J' C' P' ∧
      (((∃ j, CNet.Step j C C') ∧ P' = P) ∨ ((∃ i, PNet.Step (capOf pl pos cap) i P P') ∧ C' = C)) := by
  have hsock : ∀ {i w}, J.net.Returned (pos i) w → ∀ j, socket w (pos i) j = if Linked pl.P pl.S j (pos i) then some (pl.endOf j (pos i)) else none := by
    intro i w hw j
    obtain ⟨st, hi⟩ := h.inv
    refine hi.socket (n := C) ?_ j
    rw [← h.proc]
    exact hw
  have hdone : ∀ {i w}, J.net.Returned (pos i) w → C.proc (pos i) = .done w := fun hw => by
    rw [← h.proc]
    exact hw
  have hempty : ∀ {i w}, J.net.Returned (pos i) w → ∀ a, Linked pl.P pl.S a (pos i) → C.chan (pl.endOf a (pos i)) = [] := by
    intro i w hw a hl
    obtain ⟨st, hi⟩ := h.inv
    exact hi.chan_done (hdone hw) hl
  have hrun : ∀ i p, J.run i = p → P.proc i = p := fun i p e => by rw [← h.run]; exact e
  have hseen := h.seen
  cases hs with
  | @setup j m h' =>
    obtain ⟨C', h1, h2⟩ := h.setup hd hS h'
    exact ⟨C', P, h2, Or.inl ⟨⟨j, h1⟩, rfl⟩⟩
  | @send i d w b k s ready h' hs room =>
    have hp := hrun _ _ h'
    have hl := (ht P h.reach i).1 _ _ _ hp
    rw [hsock ready, if_pos (linked_symm hl)] at hs
    injection hs with hs
    subst hs
    rw [Plan.other_endOf (linked_symm hl)] at room ⊢
    rw [h.chan i d hl, List.length_append] at room
    have hst : PNet.Step (capOf pl pos cap) i P _ := .send hp (by rw [capOf_linked hl]; omega)
    have := h.loud hpos hst hl (fun hw => absurd (hdone ready) (hw w)) (l := J.net.chan (pl.endOf (pos i) (pos d)) ++ [b]) rfl
      (by rw [h.chan i d hl, List.append_assoc]) (congrArg (fun f => Function.update f i _) h.run) h.seen
    exact ⟨C, _, this, Or.inr ⟨⟨i, hst⟩, rfl⟩⟩
  | @recv i d w b k s rest ready h' hs data =>
    have hp := hrun _ _ h'
    have hl := (ht P h.reach i).2.1 _ _ hp
    rw [hsock ready, if_pos hl] at hs
    injection hs with hs
    subst hs
    have hc := hempty ready _ hl
    rw [h.chan d i hl, hc, List.nil_append] at data
    have hst : PNet.Step (capOf pl pos cap) i P _ := .recv hp data
    have := h.loud hpos hst hl (fun hw => by have := h.idle d hw i; rw [data] at this; cases this) (l := rest) rfl (by rw [hc, List.nil_append])
      (congrArg (fun f => Function.update f i _) h.run) h.seen
    exact ⟨C, _, this, Or.inr ⟨⟨i, hst⟩, rfl⟩⟩
  | @obs i w o k ready h' =>
    have hp := hrun _ _ h'
    have hst : PNet.Step (capOf pl pos cap) i P _ := .obs hp
    have := h.quiet hst rfl (congrArg (fun f => Function.update f i _) h.run)
      (congrArg (fun f => Function.update f i (f i ++ [o])) h.seen)
    exact ⟨C, _, this, Or.inr ⟨⟨i, hst⟩, rfl⟩⟩
  | @poll i w srcs block k r ready h' sound some =>
    have hp := hrun _ _ h'
    have hst : PNet.Step (capOf pl pos cap) i P _ := .poll r hp (fun j hj => by
      obtain ⟨h1, s, h2, h3⟩ := sound j hj
      refine ⟨h1, ?_⟩
      rw [hsock ready] at h2
      by_cases hl : Linked pl.P pl.S (pos j) (pos i)
      · rw [if_pos hl] at h2
        injection h2 with h2
        subst h2
        rwa [h.chan j i hl, hempty ready _ hl, List.nil_append] at h3
      · rw [if_neg hl] at h2
        cases h2) some
    have := h.quiet hst rfl (congrArg (fun f => Function.update f i _) h.run) h.seen
    exact ⟨C, _, this, Or.inr ⟨⟨i, hst⟩, rfl⟩⟩
  | @read i d w m k s c rest ready h' hs some fits data =>
    have hp := hrun _ _ h'
    have hl := (ht P h.reach i).2.2 _ _ _ hp
    rw [hsock ready, if_pos hl] at hs
    injection hs with hs
    subst hs
    have hc := hempty ready _ hl
    rw [h.chan d i hl, hc, List.nil_append] at data
    have hst : PNet.Step (capOf pl pos cap) i P _ := .read hp some fits data
    have := h.loud hpos hst hl (fun hw => by
      have := h.idle d hw i
      rw [data] at this
      exact absurd (List.append_eq_nil_iff.1 this).1 some) (l := rest) rfl (by rw [hc, List.nil_append])
      (congrArg (fun f => Function.update f i _) h.run) h.seen
    exact ⟨C, _, this, Or.inr ⟨⟨i, hst⟩, rfl⟩⟩
  | @noSocket i d w ready h' hs =>
    exfalso
    have hl : Linked pl.P pl.S (pos d) (pos i) := by
      obtain ⟨b, k, h'⟩ | ⟨k, h'⟩ | ⟨m, k, h'⟩ := h'
      · exact linked_symm ((ht P h.reach i).1 _ _ _ (hrun _ _ h'))
      · exact (ht P h.reach i).2.1 _ _ (hrun _ _ h')
      · exact (ht P h.reach i).2.2 _ _ _ (hrun _ _ h')
    rw [hsock ready, if_pos hl] at hs
    cases hs

/-- Some process can move when one of those networks can. -/
theorem Rel.canStep (h : Rel pl pos cap prog J C P) (ht : Turns pl pos cap prog) :
    (C.CanStep → J.CanStep pos cap) ∧ (¬ C.CanStep → P.CanStep (capOf pl pos cap) → J.CanStep pos cap) := by
  have happ := h.chan_append
  have hh := h
  obtain ⟨⟨proc, lis, pend, dials, chan⟩, run, seen⟩ := J
  obtain ⟨proc', lis', pend', dials', cchan⟩ := C
  obtain ⟨⟨st, hi⟩, h2, h3, h4, h5, h6, h7, h8, h9, h10, h11⟩ := h
  dsimp only at h3 h4 h5 h6 h7 h8 h9 h10 h11
  subst h3 h4 h5 h6 h7 h8
  refine ⟨?_, ?_⟩
  · rintro ⟨j, m, hs⟩
    cases hs with
    | listen h' free => exact ⟨_, .setup (.listen h' free)⟩
    | inUse h' taken => exact ⟨_, .setup (.inUse h' taken)⟩
    | accept h' waiting => exact ⟨_, .setup (.accept h' waiting)⟩
    | connect h' up room => exact ⟨_, .setup (.connect h' up room)⟩
    | send h' => exact ⟨_, .setup (.send h')⟩
    | @recv x b k rest h' data =>
      obtain ⟨t, e⟩ := happ x
      dsimp only at e data
      rw [data, List.cons_append] at e
      exact ⟨_, .setup (.recv h' e)⟩
  · rintro hstuck ⟨i, m, hs⟩
    obtain ⟨hall, hch⟩ := hi.stuck hstuck
    dsimp only at hall hch
    obtain ⟨w, hw⟩ := hall (pos i)
    have hchan : ∀ a b, Linked pl.P pl.S (pos a) (pos b) → chan (pl.endOf (pos a) (pos b)) = P.chan (a, b) := fun a b hl => by
      rw [h9 a b hl, hch, List.nil_append]
    have hsock := hi.socket (n := ⟨proc, lis, pend, dials, cchan⟩) hw
    cases hs with
    | @send d b k h' room =>
      have hl := (ht P h2 i).1 _ _ _ h'
      refine ⟨_, .send hw h' ((hsock _).trans (if_pos (linked_symm hl))) ?_⟩
      rw [Plan.other_endOf (linked_symm hl)]
      dsimp only
      rw [hchan i d hl]
      rw [capOf_linked hl] at room
      exact room
    | @recv d k b rest h' data =>
      have hl := (ht P h2 i).2.1 _ _ h'
      exact ⟨_, .recv hw h' ((hsock _).trans (if_pos hl)) ((hchan d i hl).trans data)⟩
    | obs h' => exact ⟨_, .obs hw h'⟩
    | poll r h' sound some =>
      refine ⟨_, .poll r hw h' (fun j hj => ⟨(sound j hj).1, ?_⟩) some⟩
      have hl : Linked pl.P pl.S (pos j) (pos i) := by
        by_contra hl
        exact (sound j hj).2 (hh.chan_not hl)
      refine ⟨_, (hsock _).trans (if_pos hl), ?_⟩
      dsimp only
      rw [hchan j i hl]
      exact (sound j hj).2
    | @read d l k c rest h' some fits data =>
      have hl := (ht P h2 i).2.2 _ _ _ h'
      exact ⟨_, .read hw h' ((hsock _).trans (if_pos hl)) some fits ((hchan d i hl).trans data)⟩

/-- No infinite run. -/
theorem Rel.finite (hd : pl.Distinct) (hS : pl.S ≤ 256) (hpos : Function.Injective pos) (ht : Turns pl pos cap prog)
    {x : CNet Node A (Wiring Node) × PNet ι Obs Unit}
    (hx : Acc (Prod.GameAdd (fun m' m => ∃ j, CNet.Step j m m') (fun m' m => ∃ i, PNet.Step (capOf pl pos cap) i m m')) x) :
    ∀ J, Rel pl pos cap prog J x.1 x.2 → ¬ ∃ f : Nat → JNet ι A Obs, f 0 = J ∧ ∀ k, JNet.Step pos cap (f k) (f (k + 1)) := by
  induction hx with
  | intro x _ ih =>
    rintro J h ⟨f, h0, hf⟩
    have hs := hf 0
    rw [h0] at hs
    obtain ⟨C', P', h', hor⟩ := h.step hd hS hpos ht hs
    refine ih (C', P') ?_ (f 1) h' ⟨fun k => f (k + 1), rfl, fun k => hf (k + 1)⟩
    obtain ⟨C, P⟩ := x
    obtain ⟨hj, rfl⟩ | ⟨hi, rfl⟩ := hor
    · exact .fst hj
    · exact .snd hi

/-- Nobody turns to a process it has no connection with, if all are answered. -/
theorem turns {capacity S : Nat} {client : Nat → ι} {count : Nat → Nat} {rows : Nat} {row : Nat → Nat → Nat}
    (ha : Answers prog (fun a b => Linked pl.P pl.S (pos a) (pos b)) capacity S client count rows row) : Turns pl pos cap prog := by
  intro P hP i
  let cap' : ι × ι → Nat := fun x => if Linked pl.P pl.S (pos x.1) (pos x.2) then capOf pl pos cap x + capacity + 1 else 0
  have hpos : ∀ a b, Linked pl.P pl.S (pos a) (pos b) → cap' (a, b) = capOf pl pos cap (a, b) + capacity + 1 := fun a b h => if_pos h
  obtain ⟨h1, h2⟩ := ha cap' (fun a b h => by rw [hpos a b h]; omega)
  have hmono : ∀ x, capOf pl pos cap x ≤ cap' x := by
    rintro ⟨a, b⟩
    by_cases h : Linked pl.P pl.S (pos a) (pos b)
    · rw [hpos a b h]; omega
    · rw [capOf_not h]; omega
  exact PNet.turns_to (cap := cap') (link := fun a b => Linked pl.P pl.S (pos a) (pos b)) (fun a b h => if_neg h)
    (fun m hm => ((h1 m hm).2.1 (fun a b h => by rw [hpos a b h]; omega)).imp id (fun h => h.1)) h2 (hP.mono hmono) i

/-- Processes that find each other and answer their clients when connected do both. -/
theorem connects_and_answers (hd : pl.Distinct) (hS : pl.S ≤ 256) (hpos : Function.Injective pos)
    {setup : Node → CProc Node A (Wiring Node)} {st : Node → St} (h0 : Inv pl (CNet.start setup) st)
    {capacity S : Nat} {client : Nat → ι} {count : Nat → Nat} {rows : Nat} {row : Nat → Nat → Nat}
    (ha : Answers prog (fun a b => Linked pl.P pl.S (pos a) (pos b)) capacity S client count rows row) :
    ConnectsAndAnswers pos setup prog capacity S client count rows row := by
  intro cap hcap
  have ht : Turns pl pos cap prog := turns ha
  obtain ⟨h1, h2⟩ := ha (capOf pl pos cap) (fun a b h => by rw [capOf_linked h]; exact hcap _)
  refine ⟨fun n hn => ?_, ?_⟩
  · obtain ⟨C, P, h⟩ : ∃ C P, Rel pl pos cap prog n C P := by
      induction hn with
      | refl => exact ⟨_, _, .start h0⟩
      | step _ s ih =>
        obtain ⟨C, P, h⟩ := ih
        obtain ⟨C', P', h', -⟩ := h.step hd hS hpos ht s
        exact ⟨C', P', h'⟩
    obtain ⟨st', hi⟩ := h.inv
    obtain ⟨a1, a2, a3⟩ := h1 P h.reach
    have hset : ∀ j, ¬ n.net.Faulted j := by
      rintro j ⟨e, he⟩
      rw [h.proc] at he
      by_cases hin : pl.In j
      · exact progAt_not_fault j hin (st' j) e (hi.ok j hin) ((hi.proc j hin).symm.trans he)
      · rw [hi.out j hin] at he; cases he
    refine ⟨fun i => ?_, hset, fun hcap' => ?_, fun s hs d hdb => ?_⟩
    · rintro (hf | ⟨e, he⟩)
      · exact hset _ hf
      · rw [h.run] at he
        exact a1 i ⟨e, he⟩
    · by_cases hc : C.CanStep
      · exact Or.inl ((h.canStep ht).1 hc)
      · obtain ⟨b1, b2⟩ := hi.stuck hc
        obtain hp | ⟨hp1, hp2⟩ := a2 (fun a b hl => by rw [capOf_linked hl]; exact hcap' _)
        · exact Or.inl ((h.canStep ht).2 hc hp)
        · right
          have hret : ∀ j, ∃ w, n.net.Returned j w := fun j => by
            obtain ⟨w, hw⟩ := b1 j
            refine ⟨w, ?_⟩
            show n.net.proc j = _
            rw [h.proc]
            exact hw
          refine ⟨fun i => ⟨hret _, ?_⟩, hret, fun s => ?_⟩
          · rw [h.run]
            exact hp1 i
          · by_cases hs : ∀ a b, Linked pl.P pl.S (pos a) (pos b) → s ≠ pl.endOf (pos a) (pos b)
            · rw [h.rest s hs, b2]
            · simp only [not_forall, not_not] at hs
              obtain ⟨a, b, hl, rfl⟩ := hs
              rw [h.chan a b hl, b2, hp2]
              rfl
    · have := a3 s hs d hdb
      rw [h.seen]
      refine ⟨this.1, fun hr => this.2 ?_⟩
      have := hr.2
      rw [h.run] at this
      exact this
  · refine Rel.finite hd hS hpos ht (x := (CNet.start setup, PNet.start prog)) (Acc.prod_gameAdd (h0.acc hd hS) ?_) _ (.start h0)
    rw [← not_not (a := Acc _ _), not_acc_iff_exists_descending_chain]
    exact h2

end DPPIR.Joint
