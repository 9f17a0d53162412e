import Verif.Proofs.ConnectStep
import Mathlib.Algebra.Order.BigOperators.Group.Finset
import Mathlib.Data.Finset.Prod

/-!
# Invariants of connection set-up, part 5: every step
-/

namespace DPPIR.Connect
open DPPIR.Protocol (Node)
open Classical

variable {A : Type} [DecidableEq A] {pl : Plan A} {n m : CNet Node A (Wiring Node)} {st : Node → St} {i : Node}

/-- `List.Nodup.mem_erase_iff`, for any equality test. -/
theorem mem_erase {β : Type} {I : BEq β} (L : LawfulBEq β) {l : List β} (h : l.Nodup) (a b : β) : a ∈ l.erase b ↔ a ≠ b ∧ a ∈ l :=
  h.mem_erase_iff

theorem nodup_erase {β : Type} {I : BEq β} (L : LawfulBEq β) {l : List β} (h : l.Nodup) (b : β) : (l.erase b).Nodup :=
  h.erase b

/-- Process `i` can go from `n` to `m`, to a later stage. -/
def Advance (pl : Plan A) (m : CNet Node A (Wiring Node)) (st : Node → St) (i : Node) : Prop :=
  ∃ s, Inv pl m (Function.update st i s) ∧ pl.rank i s < pl.rank i (st i)

theorem Inv.free (h : Inv pl n st) {k : Bool} (he : pl.End i k) (hk : ¬ (st i).lis k) : n.listener (pl.ad i k) = none := by
  rw [h.net.lis i k he]; exact if_neg hk

theorem step_back0 (h : Inv pl n st) (hd : pl.Distinct) (hi : pl.In i) (hst : st i = .back0) (hs : CNet.Step i n m) :
    Advance pl m st i := by
  have hp := h.proc i hi
  have ho := h.ok i hi
  rw [hst] at hp ho
  have he : pl.End i false := ⟨hi, ho, fun h => by cases h⟩
  have hfree : n.listener (pl.ad i false) = none := h.free he (by rw [hst]; exact id)
  cases hs with
  | listen h' free =>
    rw [hp] at h'
    cases h'
    refine ⟨.back1, h.update hi rfl rfl ho (Or.inr ?_) (fun _ _ => rfl) (h.net.listen hd he _) (agree_update ?_ ?_ ?_ ?_ ?_ ?_ ?_ ?_ ?_ ?_), ?_⟩
    · rcases h.dials i hi with h' | h'
      · rw [hst] at h'; cases h'
      · rw [hst] at h'; exact h'
    · intro k _; cases k <;> simp [know, hst]
    · intro j k hj; simp [know, hj]
    · intro j _; simp [know, hst]
    · intro j a ha; rfl
    · intro a _; simp [know, hst]
    · intro j a ha; rfl
    · intro a _; simp [know, hst]
    · intro j a ha; rfl
    · intro a _; simp [know, hst]
    · intro j a ha; rfl
    · rw [hst]; simp [Plan.rank]
  | inUse h' taken =>
    rw [hp] at h'
    cases h'
    exact absurd hfree taken
  | accept h' => rw [hp] at h'; cases h'
  | connect h' => rw [hp] at h'; cases h'
  | send h' => rw [hp] at h'; cases h'
  | recv h' => rw [hp] at h'; cases h'

theorem step_sib0 (h : Inv pl n st) (hd : pl.Distinct) (hi : pl.In i) (hst : st i = .sib0) (hs : CNet.Step i n m) :
    Advance pl m st i := by
  have hp := h.proc i hi
  have ho := h.ok i hi
  rw [hst] at hp ho
  have he : pl.End i true := ⟨hi, ho.1, fun _ => ho.2⟩
  have hfree : n.listener (pl.ad i true) = none := h.free he (by rw [hst]; exact id)
  cases hs with
  | listen h' free =>
    rw [hp] at h'
    cases h'
    refine ⟨.sibAcc [], h.update hi rfl rfl ⟨ho.1, ho.2, by simp, by simp⟩ (Or.inr ?_) (fun _ _ => rfl) (h.net.listen hd he _) (agree_update ?_ ?_ ?_ ?_ ?_ ?_ ?_ ?_ ?_ ?_), ?_⟩
    · rcases h.dials i hi with h' | h'
      · rw [hst] at h'; cases h'
      · rw [hst] at h'; exact h'
    · intro k _; cases k <;> simp [know, hst]
    · intro j k hj; simp [know, hj]
    · intro j _; simp [know, hst]
    · intro j a ha; rfl
    · intro a _; simp [know, hst]
    · intro j a ha; rfl
    · intro a _; simp [know, hst]
    · intro j a ha; rfl
    · intro a _; simp [know, hst]
    · intro j a ha; rfl
    · rw [hst]; simp [Plan.rank]; omega
  | inUse h' taken =>
    rw [hp] at h'
    cases h'
    exact absurd hfree taken
  | accept h' => rw [hp] at h'; cases h'
  | connect h' => rw [hp] at h'; cases h'
  | send h' => rw [hp] at h'; cases h'
  | recv h' => rw [hp] at h'; cases h'

theorem step_back1 (h : Inv pl n st) (hd : pl.Distinct) (hi : pl.In i) (hst : st i = .back1) (hs : CNet.Step i n m) :
    Advance pl m st i := by
  have hp := h.proc i hi
  have ho := h.ok i hi
  rw [hst] at hp ho
  have he : pl.End i false := ⟨hi, ho, fun h => by cases h⟩
  cases hs with
  | accept h' waiting =>
    rename_i c
    rw [hp] at h'
    cases h'
    obtain ⟨j, hl, hk, rfl, -, -⟩ := (h.net.pend _ _ he _).mp waiting
    rcases lk_cases hl with ⟨h1, h2, h3, h4⟩ | ⟨h1, -⟩
    swap
    · simp [Plan.knd, h1] at hk
    have hnet := fun l => h.net.accept hd hl (hk ▸ waiting) (Function.update n.proc i (pl.nextPart i (some ⟨pl.link j i, true⟩))) (l := l)
    rw [← hk] at hnet
    obtain ⟨f1, f2, f3, f4, f5, f6, f7⟩ := afterBack_facts (pl := pl) hi
    obtain ⟨f4a, f4b⟩ := f4 ho
    have hdial : n.dials i = 0 := by
      rcases h.dials i hi with h' | h'
      · rw [hst] at h'; cases h'
      · rw [hst] at h'; exact h'
    refine ⟨pl.afterBack i, h.update hi rfl ?_ f6 (f7.imp_right (fun e => hdial.trans e.symm)) (fun _ _ => rfl) (hnet _ (nodup_erase inferInstance (h.net.nodup _ _ he) _) (fun c => mem_erase inferInstance (h.net.nodup _ _ he) _ _)) (agree_update ?_ ?_ ?_ ?_ ?_ ?_ ?_ ?_ ?_ ?_), ?_⟩
    · show pl.nextPart i (some ⟨pl.link j i, true⟩) = _
      rw [Plan.progAt_afterBack hi, Plan.backSock, if_pos (show 0 < i.1 from ho), h2]
    · intro k hk
      cases k
      · simp [know, hst, f1]
      · have := (f4a 0 (hk.2.2 rfl)).2.2
        simp [know, hst, this]
    · intro j k hj; simp [know]
    · intro a ha
      rcases lk_cases ha with ⟨g1, g2, -⟩ | ⟨g1, g2, g3⟩
      · have : a = j := by rw [g2, h2]
        simp [this, h1, f2]
      · have : a ≠ j := by rintro rfl; exact h1 g1
        simp [know, hst, g1, this, (f4a a.2 g3).1]
    · intro j a ha; simp [ha]
    · intro a ha
      rcases lk_cases' ha with ⟨g1, g2, g3⟩ | ⟨g1, g2, g3, g4, g5⟩
      · simp [know, hst, g1, f3 g3]
      · simp [know, hst, g1, (f4b a.2 g4 g5).1]
    · intro j a ha; rfl
    · intro a ha
      rcases lk_cases' ha with ⟨g1, g2, g3⟩ | ⟨g1, g2, g3, g4, g5⟩
      · simp [know, g1]
      · simp [know, hst, (f4b a.2 g4 g5).2]
    · intro j a ha; rfl
    · intro a ha
      rcases lk_cases ha with ⟨g1, g2, -⟩ | ⟨g1, g2, g3⟩
      · simp [know, g1]
      · simp [know, hst, (f4a a.2 g3).2.1]
    · intro j a ha; rfl
    · rw [hst]; exact f5
  | listen h' => rw [hp] at h'; cases h'
  | inUse h' => rw [hp] at h'; cases h'
  | connect h' => rw [hp] at h'; cases h'
  | send h' => rw [hp] at h'; cases h'
  | recv h' => rw [hp] at h'; cases h'

theorem step_next (h : Inv pl n st) (hd : pl.Distinct) (hi : pl.In i) (hst : st i = .next) (hs : CNet.Step i n m) :
    Advance pl m st i := by
  have hp := h.proc i hi
  have ho := h.ok i hi
  rw [hst] at hp ho
  rw [Plan.progAt_next ho] at hp
  have hl := lk_next hi ho
  have hk : Plan.knd i (i.1 + 1, i.2) = false := by simp [Plan.knd]
  have hnd : ¬ (know st).dial i (i.1 + 1, i.2) := by simp [know, hst]
  cases hs with
  | connect h' up room =>
    rename_i j b
    rw [hp] at h'
    cases h'
    have hdial : n.dials i = 0 := by
      rcases h.dials i hi with h' | h'
      · rw [hst] at h'; cases h'
      · rw [hst] at h'; exact h'
    have hlink : pl.link i (i.1 + 1, i.2) = (i, n.dials i) := by simp [Plan.link, hdial]
    have hnet := h.net.connect hd hl hnd (Function.update n.proc i (pl.sibPart i (pl.backSock i) (some ⟨(i, n.dials i), false⟩)))
      (Function.update n.dials i (n.dials i + 1))
    rw [hk, hlink] at hnet
    obtain ⟨f1, f2, f3, f4, f5, f6, f7⟩ := afterNext_facts (pl := pl) hi
    refine ⟨pl.afterNext i, h.update hi rfl ?_ f6 (f7.imp_right (fun e => ?_)) (fun j hj => Function.update_of_ne hj _ _) hnet (agree_update ?_ ?_ ?_ ?_ ?_ ?_ ?_ ?_ ?_ ?_), ?_⟩
    · show pl.sibPart i (pl.backSock i) (some ⟨(i, n.dials i), false⟩) = _
      rw [Plan.progAt_afterNext hi, Plan.nextSock, if_pos (show i.1 < pl.P from ho), hlink]
    · show Function.update n.dials i (n.dials i + 1) i = _
      rw [Function.update_self, e, hdial, Plan.first, if_pos (show i.1 < pl.P from ho)]
    · intro k hk
      cases k
      · simp [know, hst, f1]
      · have := ((f4 hk.2.1).1 0 (hk.2.2 rfl)).2.2
        simp [know, hst, this]
    · intro j k hj; rfl
    · intro a ha
      rcases lk_cases ha with ⟨g1, g2, -⟩ | ⟨g1, g2, g3⟩
      · simp [know, hst, g1, f2]
      · simp [know, hst, g1, ((f4 ha.2.2.1).1 a.2 g3).1]
    · intro j a ha; rfl
    · intro a ha
      rcases lk_cases' ha with ⟨g1, g2, g3⟩ | ⟨g1, g2, g3, g4, g5⟩
      · simp only [g1, if_false, f3, iff_true]
        exact Or.inr ⟨trivial, g2⟩
      · have : a ≠ (a.1 + 1, i.2) := by intro e; rw [Prod.ext_iff] at e; simp at e
        simp [know, hst, g1, ((f4 g2).2 a.2 g4 g5).1, this]
    · intro j a ha; simp [ha]
    · intro a ha
      rcases lk_cases' ha with ⟨g1, g2, g3⟩ | ⟨g1, g2, g3, g4, g5⟩
      · simp [know, g1]
      · simp [know, hst, ((f4 g2).2 a.2 g4 g5).2]
    · intro j a ha; rfl
    · intro a ha
      rcases lk_cases ha with ⟨g1, g2, -⟩ | ⟨g1, g2, g3⟩
      · simp [know, g1]
      · simp [know, hst, ((f4 ha.2.2.1).1 a.2 g3).2.1]
    · intro j a ha; rfl
    · rw [hst]; exact f5
  | listen h' => rw [hp] at h'; cases h'
  | inUse h' => rw [hp] at h'; cases h'
  | accept h' => rw [hp] at h'; cases h'
  | send h' => rw [hp] at h'; cases h'
  | recv h' => rw [hp] at h'; cases h'

theorem step_sibAcc (h : Inv pl n st) (hd : pl.Distinct) (hi : pl.In i) {l : List Nat} (hst : st i = .sibAcc l)
    (hs : CNet.Step i n m) : Advance pl m st i := by
  have hp := h.proc i hi
  have ho := h.ok i hi
  rw [hst] at hp ho
  obtain ⟨o1, o2, o3, o4⟩ := ho
  rw [Plan.progAt_sibAcc o2] at hp
  have he : pl.End i true := ⟨hi, o1, fun _ => by omega⟩
  cases hs with
  | accept h' waiting =>
    rename_i c
    rw [hp] at h'
    cases h'
    obtain ⟨j, hl, hk, rfl, -, hna⟩ := (h.net.pend _ _ he _).mp waiting
    rcases lk_cases hl with ⟨h1, -⟩ | ⟨h1, h2, h3⟩
    · simp [Plan.knd, h1] at hk
    have hnew : j.2 ∉ l := by simpa [know, hst, h1] using hna
    have hnet := fun l' => h.net.accept hd hl (hk ▸ waiting) (Function.update n.proc i (pl.accepts i (pl.backSock i) (pl.nextSock i)
      (i.2 - (l.length + 1)) (pl.socks i l ++ [⟨pl.link j i, true⟩]))) (l := l')
    rw [← hk] at hnet
    have hdial : n.dials i = pl.first i := by
      rcases h.dials i hi with h' | h'
      · rw [hst] at h'; cases h'
      · rw [hst] at h'; exact h'
    have hnd : (l ++ [j.2]).Nodup := by
      rw [List.nodup_append]
      exact ⟨o3, by simp, by rintro a ha b hb rfl; simp at hb; exact hnew (hb ▸ ha)⟩
    have hlt : ∀ t ∈ l ++ [j.2], t < i.2 := by
      intro t ht
      rcases List.mem_append.mp ht with ht | ht
      · exact o4 t ht
      · simp at ht; omega
    have hfacts : (∀ k, (Plan.afterAcc i (l ++ [j.2])).lis k) ∧ (Plan.afterAcc i (l ++ [j.2])).accB ∧
        (∀ t, (Plan.afterAcc i (l ++ [j.2])).accS t ↔ t ∈ l ∨ t = j.2) ∧ (∀ t, ¬ (Plan.afterAcc i (l ++ [j.2])).readS t) ∧
        (Plan.afterAcc i (l ++ [j.2])).dialN ∧ (∀ t, ¬ (Plan.afterAcc i (l ++ [j.2])).dialS t) ∧
        (∀ t, ¬ (Plan.afterAcc i (l ++ [j.2])).greetS t) ∧ pl.rank i (Plan.afterAcc i (l ++ [j.2])) < pl.rank i (.sibAcc l) ∧
        pl.Ok i (Plan.afterAcc i (l ++ [j.2])) ∧ pl.count i (Plan.afterAcc i (l ++ [j.2])) = pl.first i := by
      unfold Plan.afterAcc
      split
      · rename_i hlen
        refine ⟨by rintro (_ | _) <;> simp, by simp, by simp, by simp, by simp, by simp, by simp, ?_, ⟨o1, hlen, hnd, hlt⟩, rfl⟩
        simp [Plan.rank]; omega
      · rename_i hlen
        have hlen : (l ++ [j.2]).length = i.2 := by simp at hlen ⊢; omega
        refine ⟨by rintro (_ | _) <;> simp, by simp, by simp, by simp, by simp, by simp, by simp, ?_,
          ⟨o1, by simp, by simpa using hlen, by simpa using hnd, by simpa using hlt⟩, rfl⟩
        simp only [Plan.rank, hlen]; omega
    obtain ⟨f1, f2, f3, f4, f5, f6, f7, f8, f9, f10⟩ := hfacts
    refine ⟨Plan.afterAcc i (l ++ [j.2]), h.update hi rfl ?_ f9 (Or.inr (hdial.trans f10.symm)) (fun _ _ => rfl)
      (hnet _ (nodup_erase inferInstance (h.net.nodup _ _ he) _) (fun c => mem_erase inferInstance (h.net.nodup _ _ he) _ _))
      (agree_update ?_ ?_ ?_ ?_ ?_ ?_ ?_ ?_ ?_ ?_), ?_⟩
    · show pl.accepts i (pl.backSock i) (pl.nextSock i) (i.2 - (l.length + 1)) (pl.socks i l ++ [⟨pl.link j i, true⟩]) = _
      rw [Plan.progAt_afterAcc (by simp; omega)]
      simp [Plan.socks, ← h2]
    · intro k _; cases k <;> simp [know, hst, f1]
    · intro j k hj; rfl
    · intro a ha
      rcases lk_cases ha with ⟨g1, g2, -⟩ | ⟨g1, g2, g3⟩
      · simp [know, hst, g1, f2]
      · have : a = j ↔ a.2 = j.2 := ⟨fun e => by rw [e], fun e => by rw [g2, h2, e]⟩
        simp [know, hst, g1, f3, this]
    · intro j a ha; simp [ha]
    · intro a ha
      rcases lk_cases' ha with ⟨g1, g2, g3⟩ | ⟨g1, g2, g3, g4, g5⟩
      · simp [know, hst, g1, f5]
      · simp [know, hst, g1, f6]
    · intro j a ha; rfl
    · intro a ha; simp [know, hst, f7]
    · intro j a ha; rfl
    · intro a ha; simp [know, hst, f4]
    · intro j a ha; rfl
    · rw [hst]; exact f8
  | listen h' => rw [hp] at h'; cases h'
  | inUse h' => rw [hp] at h'; cases h'
  | connect h' => rw [hp] at h'; cases h'
  | send h' => rw [hp] at h'; cases h'
  | recv h' => rw [hp] at h'; cases h'

theorem step_ident (h : Inv pl n st) (hS : pl.S ≤ 256) (hi : pl.In i) {r l : List Nat} (hst : st i = .ident r l)
    (hs : CNet.Step i n m) : Advance pl m st i := by
  have hp := h.proc i hi
  have ho := h.ok i hi
  rw [hst] at hp ho
  obtain ⟨o1, o2, o3, o4, o5⟩ := ho
  obtain ⟨t, l, rfl⟩ : ∃ t l', l = t :: l' := by cases l with | nil => exact absurd rfl o2 | cons a b => exact ⟨a, b, rfl⟩
  rw [Plan.progAt_ident] at hp
  have ht : t < i.2 := o5 t (by simp)
  have hl := lk_sib hi o1 ht
  cases hs with
  | recv h' data =>
    rename_i sk b k rest
    rw [hp] at h'
    cases h'
    have hi2 := hi.2
    have hbyte := (h.net.recv hl data n.proc).1
    have hb : (BitVec.ofNat 8 t : Byte).toNat = t := by simp; omega
    have hnet := (h.net.recv hl data (Function.update n.proc i (if b.toNat < i.2 then
      pl.idents i (pl.backSock i) (pl.nextSock i) (pl.socks i l) (Function.update (pl.tabR i r) b.toNat (some ⟨pl.link (i.1, t) i, true⟩))
      else .fault .assertFail))).2
    have hdial : n.dials i = pl.first i := by
      rcases h.dials i hi with h' | h'
      · rw [hst] at h'; cases h'
      · rw [hst] at h'; exact h'
    have e1 : r ++ [t] ++ l = r ++ t :: l := by simp
    have hfacts : (∀ k, (pl.afterRead i (r ++ [t]) l).lis k) ∧ (pl.afterRead i (r ++ [t]) l).accB ∧
        (∀ u < i.2, (pl.afterRead i (r ++ [t]) l).accS u ↔ u ∈ r ∨ u = t ∨ u ∈ l) ∧
        (∀ u < i.2, (pl.afterRead i (r ++ [t]) l).readS u ↔ u ∈ r ∨ u = t) ∧
        (pl.afterRead i (r ++ [t]) l).dialN ∧ (∀ u, i.2 < u → u < pl.S → ¬ (pl.afterRead i (r ++ [t]) l).dialS u) ∧
        (∀ u, i.2 < u → u < pl.S → ¬ (pl.afterRead i (r ++ [t]) l).greetS u) ∧
        pl.rank i (pl.afterRead i (r ++ [t]) l) < pl.rank i (.ident r (t :: l)) ∧
        pl.Ok i (pl.afterRead i (r ++ [t]) l) ∧ (pl.afterRead i (r ++ [t]) l = .fin ∨ pl.count i (pl.afterRead i (r ++ [t]) l) = pl.first i) := by
      unfold Plan.afterRead
      split
      · rename_i hnil
        subst hnil
        obtain ⟨f1, f2, f3, f4, f5, f6, f7, f8⟩ := dialFrom_facts pl i (i.2 + 1) (by omega)
        have hall := (Plan.tabR_full (pl := pl) (i := i) o3 o4 o5).1
        refine ⟨f1, f2, fun u hu => ?_, fun u hu => ?_, f5, fun u hu1 hu2 => ?_, fun u hu1 hu2 => ?_, ?_, ?_, ?_⟩
        · have := hall u hu
          simp only [f3 u, true_iff]; simpa using this
        · have := hall u hu
          simp only [f4 u, true_iff]; simpa using this
        · rw [f6 u hu2]; omega
        · rw [f7 u hu2]; omega
        · have : pl.rank i (.ident r [t]) = 2 * pl.S + 1 := rfl
          omega
        · unfold Plan.dialFrom
          split
          · exact ⟨o1, by omega, by assumption⟩
          · trivial
        · unfold Plan.dialFrom
          split
          · right; simp [Plan.count]
          · exact Or.inl rfl
      · rename_i hne
        refine ⟨by rintro (_ | _) <;> simp, by simp, by simp [or_assoc], by simp, by simp, by simp, by simp, by simp [Plan.rank],
          ⟨o1, hne, ?_⟩, Or.inr rfl⟩
        rw [e1]
        exact ⟨o3, o4, o5⟩
    obtain ⟨f1, f2, f3, f4, f5, f6, f7, f8, f9, f10⟩ := hfacts
    refine ⟨pl.afterRead i (r ++ [t]) l, h.update hi rfl ?_ f9 (f10.imp_right (fun e => hdial.trans e.symm)) (fun _ _ => rfl)
      hnet (agree_update ?_ ?_ ?_ ?_ ?_ ?_ ?_ ?_ ?_ ?_), ?_⟩
    · show (if b.toNat < i.2 then _ else _) = _
      rw [hbyte, hb, if_pos ht, Plan.progAt_afterRead hi o1 (by rw [e1]; exact o3) (by rw [e1]; exact o4) (by rw [e1]; exact o5),
        Plan.tabR_update]
    · intro k _; cases k <;> simp [know, hst, f1]
    · intro j k hj; rfl
    · intro a ha
      rcases lk_cases ha with ⟨g1, g2, -⟩ | ⟨g1, g2, g3⟩
      · simp [know, hst, g1, f2]
      · simp [know, hst, g1, f3 a.2 g3]
    · intro j a ha; rfl
    · intro a ha
      rcases lk_cases' ha with ⟨g1, g2, g3⟩ | ⟨g1, g2, g3, g4, g5⟩
      · simp [know, hst, g1, f5]
      · simp [know, hst, g1, f6 a.2 g4 g5]
    · intro j a ha; rfl
    · intro a ha
      rcases lk_cases' ha with ⟨g1, g2, g3⟩ | ⟨g1, g2, g3, g4, g5⟩
      · simp [know, g1]
      · simp [know, hst, f7 a.2 g4 g5]
    · intro j a ha; rfl
    · intro a ha
      rcases lk_cases ha with ⟨g1, g2, -⟩ | ⟨g1, g2, g3⟩
      · have : a ≠ (i.1, t) := by rintro rfl; exact g1 rfl
        simp [know, g1, this]
      · have : a = (i.1, t) ↔ a.2 = t := ⟨fun e => by rw [e], fun e => by rw [g2, e]⟩
        simp [know, hst, g1, f4 a.2 g3, this]
    · intro j a ha; simp [ha]
    · rw [hst]; exact f8
  | listen h' => rw [hp] at h'; cases h'
  | inUse h' => rw [hp] at h'; cases h'
  | accept h' => rw [hp] at h'; cases h'
  | connect h' => rw [hp] at h'; cases h'
  | send h' => rw [hp] at h'; cases h'

theorem step_dial (h : Inv pl n st) (hd : pl.Distinct) (hi : pl.In i) {t : Nat} (hst : st i = .dial t)
    (hs : CNet.Step i n m) : Advance pl m st i := by
  have hp := h.proc i hi
  have ho := h.ok i hi
  rw [hst] at hp ho
  obtain ⟨o1, o2, o3⟩ := ho
  rw [Plan.progAt_dial o3] at hp
  have hl := lk_dial hi o1 o2 o3
  have hk : Plan.knd i (i.1, t) = true := by simp [Plan.knd]
  have hnd : ¬ (know st).dial i (i.1, t) := by simp [know, hst]
  cases hs with
  | connect h' up room =>
    rename_i j b
    rw [hp] at h'
    cases h'
    have hdial : n.dials i = pl.first i + (t - i.2 - 1) := by
      rcases h.dials i hi with h' | h'
      · rw [hst] at h'; cases h'
      · rw [hst] at h'; exact h'
    have hlink : pl.link i (i.1, t) = (i, n.dials i) := by simp [Plan.link, hdial]
    have hnet := h.net.connect hd hl hnd (Function.update n.proc i (.send ⟨(i, n.dials i), false⟩ (BitVec.ofNat 8 i.2)
      (pl.dials i (pl.backSock i) (pl.nextSock i) (pl.S - t - 1) (t + 1) (Function.update (pl.tabD i t) t (some ⟨(i, n.dials i), false⟩)))))
      (Function.update n.dials i (n.dials i + 1))
    rw [hk, hlink] at hnet
    refine ⟨.greet t, h.update hi rfl ?_ ⟨o1, o2, o3⟩ (Or.inr ?_) (fun j hj => Function.update_of_ne hj _ _) hnet (agree_update ?_ ?_ ?_ ?_ ?_ ?_ ?_ ?_ ?_ ?_), ?_⟩
    · show CProc.send ⟨(i, n.dials i), false⟩ _ _ = _
      rw [Plan.progAt, ← hlink, Plan.tabD_update o2]
    · show Function.update n.dials i (n.dials i + 1) i = _
      rw [Function.update_self, hdial]
      simp only [Plan.count]
      omega
    · intro k _; cases k <;> simp [know, hst]
    · intro j k hj; rfl
    · intro a ha; simp [know, hst]
    · intro j a ha; rfl
    · intro a ha
      rcases lk_cases' ha with ⟨g1, g2, g3⟩ | ⟨g1, g2, g3, g4, g5⟩
      · simp [know, hst, g1]
      · have : a = (i.1, t) ↔ a.2 = t := ⟨fun e => by rw [e], fun e => by rw [g3, e]⟩
        simp only [this]
        simp [know, hst, g1]
        omega
    · intro j a ha; simp [ha]
    · intro a ha; simp [know, hst]
    · intro j a ha; rfl
    · intro a ha; simp [know, hst]
    · intro j a ha; rfl
    · rw [hst]; simp [Plan.rank]
  | listen h' => rw [hp] at h'; cases h'
  | inUse h' => rw [hp] at h'; cases h'
  | accept h' => rw [hp] at h'; cases h'
  | send h' => rw [hp] at h'; cases h'
  | recv h' => rw [hp] at h'; cases h'

theorem step_greet (h : Inv pl n st) (hi : pl.In i) {t : Nat} (hst : st i = .greet t)
    (hs : CNet.Step i n m) : Advance pl m st i := by
  have hp := h.proc i hi
  have ho := h.ok i hi
  rw [hst] at hp ho
  obtain ⟨o1, o2, o3⟩ := ho
  rw [Plan.progAt] at hp
  have hl := lk_dial hi o1 o2 o3
  have hng : ¬ (know st).greet i (i.1, t) := by simp [know, hst]
  cases hs with
  | send h' =>
    rw [hp] at h'
    cases h'
    have hnet := h.net.send hl hng (Function.update n.proc i
      (pl.dials i (pl.backSock i) (pl.nextSock i) (pl.S - t - 1) (t + 1) (pl.tabD i (t + 1))))
    have hdial : n.dials i = pl.first i + (t - i.2) := by
      rcases h.dials i hi with h' | h'
      · rw [hst] at h'; cases h'
      · rw [hst] at h'; exact h'
    obtain ⟨f1, f2, f3, f4, f5, f6, f7, f8⟩ := dialFrom_facts pl i (t + 1) (by omega)
    have f9 : pl.Ok i (pl.dialFrom (t + 1)) ∧ (pl.dialFrom (t + 1) = .fin ∨ n.dials i = pl.count i (pl.dialFrom (t + 1))) := by
      unfold Plan.dialFrom
      split
      · refine ⟨⟨o1, by omega, by assumption⟩, Or.inr ?_⟩
        rw [hdial]; simp only [Plan.count]; omega
      · exact ⟨trivial, Or.inl rfl⟩
    refine ⟨pl.dialFrom (t + 1), h.update hi rfl ?_ f9.1 f9.2 (fun _ _ => rfl) hnet (agree_update ?_ ?_ ?_ ?_ ?_ ?_ ?_ ?_ ?_ ?_), ?_⟩
    · rw [Plan.progAt_dialFrom hi o1 (by omega), Nat.sub_sub]
    · intro k _; cases k <;> simp [know, hst, f1]
    · intro j k hj; rfl
    · intro a ha; simp [know, hst, f2, f3]
    · intro j a ha; rfl
    · intro a ha
      rcases lk_cases' ha with ⟨g1, g2, g3⟩ | ⟨g1, g2, g3, g4, g5⟩
      · simp [know, hst, g1, f5]
      · simp [know, hst, g1, f6 a.2 g5]
    · intro j a ha; rfl
    · intro a ha
      rcases lk_cases' ha with ⟨g1, g2, g3⟩ | ⟨g1, g2, g3, g4, g5⟩
      · have : a ≠ (i.1, t) := by rintro rfl; exact g1 rfl
        simp [know, g1, this]
      · have : a = (i.1, t) ↔ a.2 = t := ⟨fun e => by rw [e], fun e => by rw [g3, e]⟩
        simp only [this]
        simp [know, hst, g1, f7 a.2 g5]
        omega
    · intro j a ha; simp [ha]
    · intro a ha; simp [know, hst, f4]
    · intro j a ha; rfl
    · rw [hst]
      have : pl.rank i (.greet t) = 2 * (pl.S - t) := rfl
      omega
  | listen h' => rw [hp] at h'; cases h'
  | inUse h' => rw [hp] at h'; cases h'
  | accept h' => rw [hp] at h'; cases h'
  | connect h' => rw [hp] at h'; cases h'
  | recv h' => rw [hp] at h'; cases h'

/-- A process that returned takes no step. -/
theorem not_step_done {w : Wiring Node} (hp : n.proc i = .done w) (hs : CNet.Step i n m) : False := by
  cases hs with
  | listen h' => rw [hp] at h'; cases h'
  | inUse h' => rw [hp] at h'; cases h'
  | accept h' => rw [hp] at h'; cases h'
  | connect h' => rw [hp] at h'; cases h'
  | send h' => rw [hp] at h'; cases h'
  | recv h' => rw [hp] at h'; cases h'

/-- Every step keeps the invariant, and brings the process closer to its end. -/
theorem Inv.step (h : Inv pl n st) (hd : pl.Distinct) (hS : pl.S ≤ 256) (hs : CNet.Step i n m) : pl.In i ∧ Advance pl m st i := by
  by_cases hi : pl.In i
  · refine ⟨hi, ?_⟩
    cases hst : st i with
    | back0 => exact step_back0 h hd hi hst hs
    | back1 => exact step_back1 h hd hi hst hs
    | next => exact step_next h hd hi hst hs
    | sib0 => exact step_sib0 h hd hi hst hs
    | sibAcc l => exact step_sibAcc h hd hi hst hs
    | ident r l => exact step_ident h hS hi hst hs
    | dial t => exact step_dial h hd hi hst hs
    | greet t => exact step_greet h hi hst hs
    | fin =>
      have hp := h.proc i hi
      rw [hst] at hp
      exact (not_step_done hp hs).elim
  · exact (not_step_done (h.out i hi) hs).elim

/-! ## Progress -/

/-- A process that has not returned waits for another one. -/
theorem stuck_back0 (h : Inv pl n st) (hstuck : ¬ n.CanStep) (hi : pl.In i) : st i ≠ .back0 := by
  intro hst
  have hp := h.proc i hi
  have ho := h.ok i hi
  rw [hst] at hp ho
  exact hstuck ⟨i, _, .listen hp (h.free ⟨hi, ho, fun h => by cases h⟩ (by rw [hst]; exact id))⟩

theorem stuck_sib0 (h : Inv pl n st) (hstuck : ¬ n.CanStep) (hi : pl.In i) : st i ≠ .sib0 := by
  intro hst
  have hp := h.proc i hi
  have ho := h.ok i hi
  rw [hst] at hp ho
  exact hstuck ⟨i, _, .listen hp (h.free ⟨hi, ho.1, fun _ => ho.2⟩ (by rw [hst]; exact id))⟩

theorem stuck_connect (h : Inv pl n st) (hstuck : ¬ n.CanStep) {j : Node} (hl : pl.Lk i j) (hnd : ¬ (know st).dial i j)
    (hlis : (st j).lis (Plan.knd i j)) {k : Sock Node → CProc Node A (Wiring Node)}
    (hp : n.proc i = .connect (pl.ad j (Plan.knd i j)) k) : False := by
  have hup := h.net.lis j _ hl.end
  rw [if_pos (show (know st).lis j (Plan.knd i j) from hlis)] at hup
  exact hstuck ⟨i, _, .connect hp hup (h.net.room hl hnd)⟩

/-- Nobody waits for the previous or next party. -/
theorem stuck_levels (h : Inv pl n st) (hstuck : ¬ n.CanStep) (l : Nat) :
    ∀ i, pl.In i → i.1 = l → (st i).dialN := by
  induction l with
  | zero =>
    rintro i hi hl
    have ho := h.ok i hi
    have hp := h.proc i hi
    cases hst : st i <;> rw [hst] at ho hp <;> try trivial
    case back0 => exact absurd (show 0 < i.1 from ho) (by omega)
    case back1 => exact absurd (show 0 < i.1 from ho) (by omega)
    case next =>
      rw [Plan.progAt_next ho] at hp
      have hlk := lk_next hi ho
      have hk : Plan.knd i (i.1 + 1, i.2) = false := by simp [Plan.knd]
      refine stuck_connect h hstuck hlk (by simp [know, hst]) ?_ (by rw [hk]; exact hp)
      have := stuck_back0 h hstuck hlk.2.1
      rw [hk]
      revert this
      cases st (i.1 + 1, i.2) <;> simp
  | succ l ih =>
    rintro i hi hl
    have ho := h.ok i hi
    have hp := h.proc i hi
    cases hst : st i <;> rw [hst] at ho hp <;> try trivial
    case back0 => exact stuck_back0 h hstuck hi hst
    case back1 =>
      have hlk := lk_back hi ho
      have hk : Plan.knd (i.1 - 1, i.2) i = false := by simp [Plan.knd]; omega
      have hne : i.1 - 1 ≠ i.1 := by omega
      have hdial := ih (i.1 - 1, i.2) hlk.1 (by simp only; omega)
      refine hstuck ⟨i, _, .accept hp ((h.net.pend i false ⟨hi, ho, fun h => by cases h⟩ (pl.link (i.1 - 1, i.2) i)).mpr
        ⟨_, hlk, hk.symm, rfl, ?_, ?_⟩)⟩
      · simpa [know, hne] using hdial
      · simp [know, hne, hst]
    case next =>
      rw [Plan.progAt_next ho] at hp
      have hlk := lk_next hi ho
      have hk : Plan.knd i (i.1 + 1, i.2) = false := by simp [Plan.knd]
      refine stuck_connect h hstuck hlk (by simp [know, hst]) ?_ (by rw [hk]; exact hp)
      have := stuck_back0 h hstuck hlk.2.1
      rw [hk]
      revert this
      cases st (i.1 + 1, i.2) <;> simp

/-- When no process can take a step, all have returned. -/
theorem stuck_fin (h : Inv pl n st) (hstuck : ¬ n.CanStep) (s : Nat) : ∀ i, pl.In i → i.2 = s → st i = .fin := by
  induction s using Nat.strong_induction_on with
  | _ s ih =>
    rintro i hi hs
    have ho := h.ok i hi
    have hp := h.proc i hi
    have hn := stuck_levels h hstuck i.1 i hi rfl
    cases hst : st i with
    | back0 => rw [hst] at hn; exact hn.elim
    | back1 => rw [hst] at hn; exact hn.elim
    | next => rw [hst] at hn; exact hn.elim
    | sib0 => exact absurd hst (stuck_sib0 h hstuck hi)
    | fin => rfl
    | sibAcc l =>
      exfalso
      rw [hst] at ho hp
      obtain ⟨o1, o2, o3, o4⟩ := ho
      rw [Plan.progAt_sibAcc o2] at hp
      obtain ⟨t, ht, htl⟩ : ∃ t, t < i.2 ∧ t ∉ l := by
        by_contra hcon
        push Not at hcon
        have hsub : List.range i.2 ⊆ l := fun t ht => hcon t (List.mem_range.mp ht)
        have := (List.nodup_range.subperm hsub).length_le
        simp at this
        omega
      have hlk := lk_sib hi o1 ht
      have hfin := ih t (by omega) (i.1, t) hlk.1 rfl
      refine hstuck ⟨i, _, .accept hp ((h.net.pend i true ⟨hi, o1, fun _ => by omega⟩ (pl.link (i.1, t) i)).mpr
        ⟨_, hlk, by simp [Plan.knd], rfl, ?_, ?_⟩)⟩
      · simp [know, hfin]
      · simpa [know, hst] using htl
    | ident r l =>
      exfalso
      rw [hst] at ho hp
      obtain ⟨o1, o2, o3, o4, o5⟩ := ho
      obtain ⟨t, l, rfl⟩ : ∃ t l', l = t :: l' := by cases l with | nil => exact absurd rfl o2 | cons a b => exact ⟨a, b, rfl⟩
      rw [Plan.progAt_ident] at hp
      have ht : t < i.2 := o5 t (by simp)
      have hlk := lk_sib hi o1 ht
      have hfin := ih t (by omega) (i.1, t) hlk.1 rfl
      have htr : t ∉ r := by
        rw [List.nodup_append] at o4
        exact fun hr => o4.2.2 t hr t (by simp) rfl
      have hch := h.net.chan _ _ hlk
      rw [if_pos ⟨by simp [know, hfin], by simpa [know, hst] using htr⟩] at hch
      exact hstuck ⟨i, _, .recv hp hch⟩
    | dial t =>
      exfalso
      rw [hst] at ho hp
      obtain ⟨o1, o2, o3⟩ := ho
      rw [Plan.progAt_dial o3] at hp
      have hlk := lk_dial hi o1 o2 o3
      have hk : Plan.knd i (i.1, t) = true := by simp [Plan.knd]
      refine stuck_connect h hstuck hlk (by simp [know, hst]) ?_ (by rw [hk]; exact hp)
      rw [hk]
      have h1 := stuck_levels h hstuck i.1 (i.1, t) hlk.2.1 rfl
      have h2 := stuck_sib0 h hstuck hlk.2.1
      revert h1 h2
      cases st (i.1, t) <;> simp
    | greet t =>
      exfalso
      rw [hst] at hp
      rw [Plan.progAt] at hp
      exact hstuck ⟨i, _, .send hp⟩

/-! ## All runs -/

/-- The initial stages. -/
def initial (i : Node) : St := if i.1 = 0 then .next else .back0

theorem inv_start {prog : Node → CProc Node A (Wiring Node)} (hP : 0 < pl.P) (hin : ∀ i, pl.In i → prog i = pl.start i)
    (hout : ∀ i, ¬ pl.In i → prog i = .done {}) : Inv pl (CNet.start prog) initial := by
  have hno : ∀ j i, ¬ (know initial).dial j i ∧ ¬ (know initial).greet j i := by
    intro j i
    constructor
    · simp only [know, initial]; split_ifs <;> simp
    · simp only [know, initial]; split_ifs <;> simp
  refine ⟨hout, ?_, ?_, ⟨?_, ?_, ?_, ?_, ?_, ?_, ?_⟩, ?_⟩
  · intro i hi
    exact (hin i hi).trans (Plan.start_eq hi hP)
  · intro i hi
    unfold initial
    split
    · show i.1 < pl.P; omega
    · show 0 < i.1; omega
  · intro i k he
    rw [if_neg]
    · rfl
    · have : ¬ i.1 = 0 := by have := he.2.1; omega
      simp only [know, initial, if_neg this]
      cases k <;> simp
  · intro i k he; exact List.nodup_nil
  · intro i k he c
    constructor
    · intro h; cases h
    · rintro ⟨j, -, -, -, h4, -⟩; exact absurd h4 (hno j i).1
  · intro j i hl
    rw [if_neg (fun h => (hno j i).2 h.1)]
    rfl
  · intro x hx; exact absurd rfl hx
  · intro i j hl ha
    exfalso
    revert ha
    have : ¬ i.1 = 0 := by have := hl.2.2.1; omega
    simp only [know, initial, if_neg this]
    split_ifs <;> simp
  · intro i j hl ha
    exfalso
    revert ha
    have : ¬ i.1 = 0 := by have := hl.2.2.1; omega
    simp only [know, initial, if_neg this]
    simp
  · intro i hi
    right
    unfold initial
    split <;> rfl

/-- All processes. -/
def Plan.all (pl : Plan A) : Finset Node := Finset.range (pl.P + 1) ×ˢ Finset.range pl.S

omit [DecidableEq A] in
theorem Plan.mem_all {i : Node} : i ∈ pl.all ↔ pl.In i := by
  simp [all, In]

/-- How much all processes have left to do. -/
noncomputable def Plan.total (pl : Plan A) (st : Node → St) : Nat := ∑ i ∈ pl.all, pl.rank i (st i)

omit [DecidableEq A] in
theorem total_lt (hi : pl.In i) {s : St} (h : pl.rank i s < pl.rank i (st i)) :
    pl.total (Function.update st i s) < pl.total st := by
  unfold Plan.total
  refine Finset.sum_lt_sum (fun j _ => ?_) ⟨i, Plan.mem_all.mpr hi, by rw [Function.update_self]; exact h⟩
  by_cases e : j = i
  · subst e; rw [Function.update_self]; omega
  · rw [Function.update_of_ne e]

/-- Every reachable network satisfies the invariant. -/
theorem Inv.reach {n₀ : CNet Node A (Wiring Node)} (h : Inv pl n₀ st) (hd : pl.Distinct) (hS : pl.S ≤ 256) (hr : CNet.Reach n₀ n) :
    ∃ st', Inv pl n st' := by
  induction hr with
  | refl => exact ⟨st, h⟩
  | step _ s ih =>
    obtain ⟨st', h'⟩ := ih
    obtain ⟨-, s', h2, -⟩ := h'.step hd hS s
    exact ⟨_, h2⟩

/-- No run is infinite. -/
theorem Inv.finite {f : Nat → CNet Node A (Wiring Node)} (h : Inv pl (f 0) st) (hd : pl.Distinct) (hS : pl.S ≤ 256)
    (hf : ∀ k, ∃ i, CNet.Step i (f k) (f (k + 1))) : False := by
  have : ∀ k, ∃ st', Inv pl (f k) st' ∧ pl.total st' + k ≤ pl.total st := by
    intro k
    induction k with
    | zero => exact ⟨st, h, le_refl _⟩
    | succ k ih =>
      obtain ⟨st', h', hle⟩ := ih
      obtain ⟨i, hs⟩ := hf k
      obtain ⟨hi, s', h2, h3⟩ := h'.step hd hS hs
      exact ⟨_, h2, by have := total_lt (st := st') hi h3; omega⟩
  obtain ⟨st', -, hle⟩ := this (pl.total st + 1)
  omega

/-- Every network can be run until all processes have returned. -/
theorem Inv.completes (hd : pl.Distinct) (hS : pl.S ≤ 256) : ∀ (k : Nat) (n : CNet Node A (Wiring Node)) (st : Node → St),
    Inv pl n st → pl.total st ≤ k → ∃ m, CNet.Reach n m ∧ ¬ m.CanStep := by
  intro k
  induction k with
  | zero =>
    intro n st h hk
    refine ⟨n, .refl, ?_⟩
    rintro ⟨i, m, hs⟩
    obtain ⟨hi, s', h2, h3⟩ := h.step hd hS hs
    have := total_lt (st := st) hi h3
    omega
  | succ k ih =>
    intro n st h hk
    by_cases hc : n.CanStep
    · obtain ⟨i, m, hs⟩ := hc
      obtain ⟨hi, s', h2, h3⟩ := h.step hd hS hs
      have := total_lt (st := st) hi h3
      obtain ⟨m', hr, hm⟩ := ih m _ h2 (by omega)
      refine ⟨m', ?_, hm⟩
      clear hm
      induction hr with
      | refl => exact .step .refl hs
      | step _ s ih => exact .step ih s
    · exact ⟨n, .refl, hc⟩

end DPPIR.Connect
