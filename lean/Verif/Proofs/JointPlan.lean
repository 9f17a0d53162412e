import Verif.Proofs.ConnectSetup
import Verif.Proofs.ConnectRun
import Verif.Spec.Joint

/-!
# Connection set-up next to the protocol: which socket is which
-/

namespace DPPIR.Connect
open DPPIR.Protocol (Node)
open DPPIR.Main (Linked)
open DPPIR.Joint (socket other)
open Classical

variable {A : Type} {pl : Plan A}

/-- The first of two processes connects to the second. -/
def Before (a b : Node) : Prop := a.1 < b.1 ∨ (a.1 = b.1 ∧ a.2 < b.2)

/-- The socket of `b` for its peer `a`. -/
noncomputable def Plan.endOf (pl : Plan A) (a b : Node) : Sock Node :=
  if Before a b then ⟨pl.link a b, true⟩ else ⟨pl.link b a, false⟩

theorem linked_symm {P S : Nat} {a b : Node} (h : Linked P S a b) : Linked P S b a := by
  obtain ⟨h1, h2, h3, h4, h5⟩ := h
  exact ⟨h3, h4, h1, h2, by omega⟩

theorem linked_lk {a b : Node} (h : Linked pl.P pl.S a b) (hb : Before a b) : pl.Lk a b := by
  obtain ⟨h1, h2, h3, h4, h5⟩ := h
  unfold Before at hb
  exact ⟨⟨h1, h2⟩, ⟨h3, h4⟩, by omega, by omega⟩

theorem linked_before {a b : Node} (h : Linked pl.P pl.S a b) : Before b a ↔ ¬ Before a b := by
  obtain ⟨h1, h2, h3, h4, h5⟩ := h
  unfold Before
  omega

theorem lk_linked {a b : Node} (h : pl.Lk a b) : Linked pl.P pl.S a b ∧ Before a b := by
  obtain ⟨⟨h1, h2⟩, ⟨h3, h4⟩, h5, h6⟩ := h
  refine ⟨⟨h1, h2, h3, h4, by omega⟩, ?_⟩
  unfold Before
  omega

theorem Plan.endOf_lk {a b : Node} (h : pl.Lk a b) : pl.endOf a b = ⟨pl.link a b, true⟩ := if_pos (lk_linked h).2

theorem Plan.other_endOf {a b : Node} (h : Linked pl.P pl.S a b) : other (pl.endOf a b) = pl.endOf b a := by
  unfold endOf
  by_cases hb : Before a b
  · rw [if_pos hb, if_neg (fun h' => (linked_before h).1 h' hb)]
    rfl
  · rw [if_neg hb, if_pos ((linked_before h).2 hb)]
    rfl

theorem Plan.endOf_inj {a b a' b' : Node} (h : Linked pl.P pl.S a b) (h' : Linked pl.P pl.S a' b')
    (e : pl.endOf a b = pl.endOf a' b') : a = a' ∧ b = b' := by
  unfold endOf at e
  by_cases hb : Before a b <;> by_cases hb' : Before a' b'
  · rw [if_pos hb, if_pos hb'] at e
    exact link_inj (linked_lk h hb) (linked_lk h' hb') (congrArg Sock.conn e)
  · rw [if_pos hb, if_neg hb'] at e
    cases congrArg Sock.server e
  · rw [if_neg hb, if_pos hb'] at e
    cases congrArg Sock.server e
  · rw [if_neg hb, if_neg hb'] at e
    exact (link_inj (linked_lk (linked_symm h) ((linked_before h).2 hb)) (linked_lk (linked_symm h') ((linked_before h').2 hb'))
      (congrArg Sock.conn e)).symm

/-- The sockets a process uses. -/
theorem Plan.socket_wiring {i j : Node} (hi : pl.In i) :
    socket (pl.wiring i) i j = if Linked pl.P pl.S j i then some (pl.endOf j i) else none := by
  obtain ⟨h1, h2⟩ := hi
  unfold socket
  by_cases c1 : j = (i.1 + 1, i.2)
  · rw [if_pos c1]
    subst c1
    show pl.nextSock i = _
    unfold nextSock
    by_cases hP : i.1 < pl.P
    · have hl : Linked pl.P pl.S (i.1 + 1, i.2) i := ⟨hP, h2, h1, h2, Or.inl ⟨rfl, Or.inr rfl⟩⟩
      have hb : ¬ Before (i.1 + 1, i.2) i := by unfold Before; simp only; omega
      rw [if_pos hP, if_pos hl, endOf, if_neg hb]
    · have hl : ¬ Linked pl.P pl.S (i.1 + 1, i.2) i := fun h => hP h.1
      rw [if_neg hP, if_neg hl]
  · rw [if_neg c1]
    by_cases c2 : i = (j.1 + 1, j.2)
    · rw [if_pos c2]
      show pl.backSock i = _
      unfold backSock
      subst c2
      have hl : Linked pl.P pl.S j (j.1 + 1, j.2) := ⟨by simp only at h1; omega, h2, h1, h2, Or.inl ⟨rfl, Or.inl rfl⟩⟩
      have hb : Before j (j.1 + 1, j.2) := by unfold Before; simp only; omega
      rw [if_pos (Nat.succ_pos _), if_pos hl, endOf, if_pos hb]
      rfl
    · rw [if_neg c2]
      by_cases c3 : j.1 = i.1
      · rw [if_pos c3]
        show (if 0 < i.1 then pl.tabD i pl.S else fun _ => none) j.2 = _
        have ej : (i.1, j.2) = j := Prod.ext c3.symm rfl
        by_cases h0 : 0 < i.1
        · rw [if_pos h0]
          unfold tabD
          rw [ej]
          by_cases c4 : j.2 < i.2
          · have hl : Linked pl.P pl.S j i := ⟨by omega, by omega, h1, h2, Or.inr ⟨c3, by omega, by omega⟩⟩
            have hb : Before j i := by unfold Before; omega
            rw [if_pos c4, if_pos hl, endOf, if_pos hb]
          · rw [if_neg c4]
            by_cases c5 : i.2 < j.2 ∧ j.2 < pl.S
            · have hl : Linked pl.P pl.S j i := ⟨by omega, by omega, h1, h2, Or.inr ⟨c3, by omega, by omega⟩⟩
              have hb : ¬ Before j i := by unfold Before; omega
              rw [if_pos c5, if_pos hl, endOf, if_neg hb]
            · have hl : ¬ Linked pl.P pl.S j i := by
                rintro ⟨-, h4, -, -, h5⟩
                omega
              rw [if_neg c5, if_neg hl]
        · have hl : ¬ Linked pl.P pl.S j i := by
            rintro ⟨-, h4, -, -, h5⟩
            omega
          rw [if_neg h0, if_neg hl]
      · have hl : ¬ Linked pl.P pl.S j i := by
          rintro ⟨-, h4, -, -, ⟨h5, h6 | h6⟩ | h5⟩
          · exact c2 (Prod.ext h6.symm h5.symm)
          · exact c1 (Prod.ext h6.symm h5)
          · exact c3 h5.1
        rw [if_neg c3, if_neg hl]

theorem socket_empty (i j : Node) : socket {} i j = none := by
  unfold socket
  split_ifs <;> rfl

variable [DecidableEq A] {n : CNet Node A (Wiring Node)} {st : Node → St}

/-- The sockets of a process that has returned. -/
theorem Inv.socket (h : Inv pl n st) {i : Node} {w : Wiring Node} (hw : n.proc i = .done w) (j : Node) :
    Joint.socket w i j = if Linked pl.P pl.S j i then some (pl.endOf j i) else none := by
  by_cases hi : pl.In i
  · have e := progAt_done i hi (h.ok i hi) ((h.proc i hi).symm.trans hw)
    rw [e.2]
    exact Plan.socket_wiring hi
  · have e := h.out i hi
    rw [hw] at e
    injection e with e
    subst e
    rw [socket_empty, if_neg]
    rintro ⟨-, -, h3, h4, -⟩
    exact hi ⟨h3, h4⟩

/-- A process that has returned has read all that its peers sent while connecting. -/
theorem Inv.chan_done (h : Inv pl n st) {a i : Node} {w : Wiring Node} (hw : n.proc i = .done w) (hl : Linked pl.P pl.S a i) :
    n.chan (pl.endOf a i) = [] := by
  have hi : pl.In i := ⟨hl.2.2.1, hl.2.2.2.1⟩
  have e := progAt_done i hi (h.ok i hi) ((h.proc i hi).symm.trans hw)
  by_cases hb : Before a i
  · rw [Plan.endOf, if_pos hb, h.net.chan a i (linked_lk hl hb), if_neg]
    rintro ⟨h1, h2⟩
    exact h2 ⟨h1.1, by rw [e.1]; trivial⟩
  · by_contra hx
    obtain ⟨j, k, -, e2⟩ := h.net.other _ hx
    rw [Plan.endOf, if_neg hb] at e2
    cases congrArg Sock.server e2

theorem Plan.progAt_ne_recv {i : Node} (hi : pl.In i) {s : St} (hok : pl.Ok i s) {x : Sock Node} {k : Byte → CProc Node A (Wiring Node)}
    (h : pl.progAt i s = .recv x k) : ∃ r t l, s = .ident r (t :: l) ∧ x = ⟨pl.link (i.1, t) i, true⟩ := by
  cases s with
  | back0 => cases h
  | back1 => cases h
  | next => rw [progAt_next hok] at h; cases h
  | sib0 => cases h
  | sibAcc l => rw [progAt_sibAcc hok.2.1] at h; cases h
  | ident r l =>
    cases l with
    | nil => exact absurd rfl hok.2.1
    | cons t l =>
      rw [progAt_ident] at h
      injection h with h1
      exact ⟨r, t, l, rfl, h1.symm⟩
  | dial t => rw [progAt_dial hok.2.2] at h; cases h
  | greet t => cases h
  | fin => cases h

theorem Plan.progAt_ne_send {i : Node} (hi : pl.In i) {s : St} (hok : pl.Ok i s) {x : Sock Node} {b : Byte} {k : CProc Node A (Wiring Node)}
    (h : pl.progAt i s = .send x b k) : ∃ t, s = .greet t ∧ x = ⟨pl.link i (i.1, t), false⟩ := by
  cases s with
  | back0 => cases h
  | back1 => cases h
  | next => rw [progAt_next hok] at h; cases h
  | sib0 => cases h
  | sibAcc l => rw [progAt_sibAcc hok.2.1] at h; cases h
  | ident r l =>
    cases l with
    | nil => exact absurd rfl hok.2.1
    | cons t l => rw [progAt_ident] at h; cases h
  | dial t => rw [progAt_dial hok.2.2] at h; cases h
  | greet t =>
    injection h with h1
    exact ⟨t, rfl, h1.symm⟩
  | fin => cases h

/-- A process that sends while connecting sends to a peer. -/
theorem Inv.sends (h : Inv pl n st) {i : Node} {x : Sock Node} {b : Byte} {k : CProc Node A (Wiring Node)}
    (hp : n.proc i = .send x b k) : ∃ j, Linked pl.P pl.S i j ∧ (⟨x.conn, !x.server⟩ : Sock Node) = pl.endOf i j := by
  have hi : pl.In i := by
    by_contra hi
    rw [h.out i hi] at hp
    cases hp
  have hok := h.ok i hi
  obtain ⟨t, e, rfl⟩ := Plan.progAt_ne_send hi hok ((h.proc i hi).symm.trans hp)
  rw [e] at hok
  have hl : pl.Lk i (i.1, t) := lk_dial hi hok.1 hok.2.1 hok.2.2
  exact ⟨(i.1, t), (lk_linked hl).1, (Plan.endOf_lk hl).symm⟩

/-- A process that reads while connecting reads from a peer; what a peer that has returned
has sent is there. -/
theorem Inv.receives (h : Inv pl n st) {i : Node} {x : Sock Node} {k : Byte → CProc Node A (Wiring Node)}
    (hp : n.proc i = .recv x k) : ∃ j, Linked pl.P pl.S j i ∧ x = pl.endOf j i ∧ ∀ w, n.proc j = .done w → n.chan x ≠ [] := by
  have hi : pl.In i := by
    by_contra hi
    rw [h.out i hi] at hp
    cases hp
  have hok := h.ok i hi
  obtain ⟨r, t, l, e, rfl⟩ := Plan.progAt_ne_recv hi hok ((h.proc i hi).symm.trans hp)
  rw [e] at hok
  obtain ⟨h0, -, -, h3, h4⟩ := hok
  have hl : pl.Lk (i.1, t) i := lk_sib hi h0 (h4 t (by simp))
  refine ⟨(i.1, t), (lk_linked hl).1, (Plan.endOf_lk hl).symm, fun w hw => ?_⟩
  have e2 := progAt_done _ hl.1 (h.ok _ hl.1) ((h.proc _ hl.1).symm.trans hw)
  rw [h.net.chan _ _ hl, if_pos]
  · exact List.cons_ne_nil _ _
  · refine ⟨⟨rfl, by rw [e2.1]; trivial⟩, ?_⟩
    rintro ⟨-, hr⟩
    rw [e] at hr
    have hr : t ∈ r := hr
    exact (List.nodup_append.1 h3).2.2 t hr t (by simp) rfl

/-- A step leaves the processes that have returned as they are. -/
theorem step_done {m : CNet Node A (Wiring Node)} {i j : Node} (hs : CNet.Step i n m) {w : Wiring Node} (hw : n.proc j = .done w) :
    m.proc j = .done w := by
  have hij : j ≠ i := by
    rintro rfl
    exact not_step_done hw hs
  cases hs <;> exact (Function.update_of_ne hij _ _).trans hw

/-- Connection set-up ends. -/
theorem Inv.acc (hd : pl.Distinct) (hS : pl.S ≤ 256) (h : Inv pl n st) :
    Acc (fun m' m : CNet Node A (Wiring Node) => ∃ i, CNet.Step i m m') n := by
  rw [← not_not (a := Acc _ _), not_acc_iff_exists_descending_chain]
  rintro ⟨f, h0, hf⟩
  exact Inv.finite (f := f) (st := st) (by rw [h0]; exact h) hd hS hf

/-- When set-up can not go on, all have returned and all bytes are read. -/
theorem Inv.stuck (h : Inv pl n st) (hstuck : ¬ n.CanStep) : (∀ i, ∃ w, n.proc i = .done w) ∧ ∀ x, n.chan x = [] := by
  have hfin : ∀ i, pl.In i → st i = .fin := fun i hin => stuck_fin h hstuck i.2 i hin rfl
  refine ⟨fun i => ?_, fun x => ?_⟩
  · by_cases hin : pl.In i
    · exact ⟨_, (h.proc i hin).trans (by rw [hfin i hin]; rfl)⟩
    · exact ⟨_, h.out i hin⟩
  · by_contra hx
    obtain ⟨j, i, hl, rfl⟩ := h.net.other x hx
    rw [h.net.chan j i hl] at hx
    apply hx
    rw [if_neg]
    rintro ⟨hg, hrd⟩
    apply hrd
    simp only [know, hfin i hl.2.1]
    exact ⟨hg.1, by simp⟩

end DPPIR.Connect
