import Verif.Proofs.ConnectInv

/-!
# Invariants of connection set-up, part 4: every step
-/

namespace DPPIR.Connect
open DPPIR.Protocol (Node)
open Classical

variable {A : Type} [DecidableEq A] {pl : Plan A}

/-! ## First action at each stage -/

theorem Plan.progAt_next {i : Node} (h : i.1 < pl.P) :
    pl.progAt i .next = .connect (pl.ad (i.1 + 1, i.2) false) (fun x => pl.sibPart i (pl.backSock i) (some x)) := by
  simp only [progAt, nextPart, if_pos h]

theorem Plan.progAt_sibAcc {i : Node} {l : List Nat} (h : l.length < i.2) :
    pl.progAt i (.sibAcc l) = .accept (pl.ad i true)
      (fun s => pl.accepts i (pl.backSock i) (pl.nextSock i) (i.2 - (l.length + 1)) (pl.socks i l ++ [s])) := by
  obtain ⟨k, hk⟩ : ∃ k, i.2 - l.length = k + 1 := ⟨i.2 - l.length - 1, by omega⟩
  have : i.2 - (l.length + 1) = k := by omega
  simp only [progAt, accepts, hk, acceptLoop, CProc.bind, this]

theorem Plan.progAt_ident {i : Node} {r l : List Nat} {t : Nat} :
    pl.progAt i (.ident r (t :: l)) = .recv ⟨pl.link (i.1, t) i, true⟩ (fun b => if b.toNat < i.2 then
      pl.idents i (pl.backSock i) (pl.nextSock i) (pl.socks i l) (Function.update (pl.tabR i r) b.toNat (some ⟨pl.link (i.1, t) i, true⟩))
      else .fault .assertFail) := by
  simp only [progAt, idents, socks, List.map_cons, identify, CProc.bind]
  congr 1
  funext b
  split <;> rfl

theorem Plan.progAt_dial {i : Node} {t : Nat} (h : t < pl.S) :
    pl.progAt i (.dial t) = .connect (pl.ad (i.1, t) true) (fun s => .send s (BitVec.ofNat 8 i.2)
      (pl.dials i (pl.backSock i) (pl.nextSock i) (pl.S - t - 1) (t + 1) (Function.update (pl.tabD i t) t (some s)))) := by
  obtain ⟨k, hk⟩ : ∃ k, pl.S - t = k + 1 := ⟨pl.S - t - 1, by omega⟩
  have : pl.S - t - 1 = k := by omega
  simp only [progAt, dials, hk, dialSiblings, this]
  rfl

/-! ## Tables -/

theorem Plan.tabD_update {i : Node} {t : Nat} (h : i.2 < t) :
    Function.update (pl.tabD i t) t (some ⟨pl.link i (i.1, t), false⟩) = pl.tabD i (t + 1) := by
  funext u
  by_cases e : u = t
  · subst e; rw [Function.update_self, tabD, if_neg (by omega), if_pos (by omega)]
  · rw [Function.update_of_ne e]
    unfold tabD
    by_cases h1 : u < i.2
    · rw [if_pos h1, if_pos h1]
    · rw [if_neg h1, if_neg h1]
      by_cases h2 : i.2 < u ∧ u < t
      · rw [if_pos h2, if_pos (by omega)]
      · rw [if_neg h2, if_neg (by omega)]

theorem Plan.tabR_update {i : Node} {r : List Nat} {t : Nat} :
    Function.update (pl.tabR i r) t (some ⟨pl.link (i.1, t) i, true⟩) = pl.tabR i (r ++ [t]) := by
  funext u
  by_cases e : u = t
  · subst e; rw [Function.update_self, tabR, if_pos (by simp)]
  · rw [Function.update_of_ne e]
    unfold tabR
    simp [e]

/-! ## What has been done -/

theorem afterNext_facts {i : Node} (hi : pl.In i) :
    (pl.afterNext i).lis false ∧ (pl.afterNext i).accB ∧ (pl.afterNext i).dialN ∧
    (0 < i.1 → (∀ u < i.2, ¬ (pl.afterNext i).accS u ∧ ¬ (pl.afterNext i).readS u ∧ ¬ (pl.afterNext i).lis true) ∧
      ∀ u, i.2 < u → u < pl.S → ¬ (pl.afterNext i).dialS u ∧ ¬ (pl.afterNext i).greetS u) ∧
    pl.rank i (pl.afterNext i) < 2 * pl.S + 2 * i.2 + 3 ∧ pl.Ok i (pl.afterNext i) ∧
    (pl.afterNext i = .fin ∨ pl.count i (pl.afterNext i) = pl.first i) := by
  unfold Plan.afterNext
  have hi2 := hi.2
  split
  · exact ⟨trivial, trivial, trivial, fun h => by omega, by simp [Plan.rank], trivial, Or.inl rfl⟩
  · rename_i h0
    split
    · rename_i h1
      refine ⟨trivial, trivial, trivial, fun h => ⟨fun u hu => ⟨id, id, id⟩, fun u hu1 hu2 => ⟨id, id⟩⟩, by simp [Plan.rank], ⟨by omega, h1⟩, Or.inr rfl⟩
    · rename_i h1
      obtain ⟨f1, f2, f3, f4, f5, f6, f7, f8⟩ := dialFrom_facts pl i (i.2 + 1) (by omega)
      refine ⟨f1 _, f2, f5, fun h => ⟨fun u hu => by omega, fun u hu1 hu2 => ?_⟩, by omega, ?_, ?_⟩
      · rw [f6 u hu2, f7 u hu2]; omega
      · unfold Plan.dialFrom
        split
        · exact ⟨by omega, by omega, by assumption⟩
        · trivial
      · unfold Plan.dialFrom
        split
        · right; simp [Plan.count]
        · exact Or.inl rfl

theorem afterBack_facts {i : Node} (hi : pl.In i) :
    (pl.afterBack i).lis false ∧ (pl.afterBack i).accB ∧ (i.1 < pl.P → ¬ (pl.afterBack i).dialN) ∧
    (0 < i.1 → (∀ u < i.2, ¬ (pl.afterBack i).accS u ∧ ¬ (pl.afterBack i).readS u ∧ ¬ (pl.afterBack i).lis true) ∧
      ∀ u, i.2 < u → u < pl.S → ¬ (pl.afterBack i).dialS u ∧ ¬ (pl.afterBack i).greetS u) ∧
    pl.rank i (pl.afterBack i) < 2 * pl.S + 2 * i.2 + 4 ∧ pl.Ok i (pl.afterBack i) ∧
    (pl.afterBack i = .fin ∨ pl.count i (pl.afterBack i) = 0) := by
  unfold Plan.afterBack
  split
  · exact ⟨trivial, trivial, fun _ => id, fun h => ⟨fun u hu => ⟨id, id, id⟩, fun u hu1 hu2 => ⟨id, id⟩⟩, by simp [Plan.rank],
      by assumption, Or.inr rfl⟩
  · rename_i h
    obtain ⟨f1, f2, f3, f4, f5, f6, f7⟩ := afterNext_facts hi
    exact ⟨f1, f2, fun h' => absurd h' h, f4, by omega, f6, by simpa [Plan.first, h] using f7⟩

/-! ## Links -/

theorem lk_next {i : Node} (hi : pl.In i) (h : i.1 < pl.P) : pl.Lk i (i.1 + 1, i.2) :=
  ⟨hi, ⟨h, hi.2⟩, Nat.succ_pos _, Or.inl ⟨rfl, rfl⟩⟩

theorem lk_back {i : Node} (hi : pl.In i) (h : 0 < i.1) : pl.Lk (i.1 - 1, i.2) i :=
  ⟨⟨by have := hi.1; simp only; omega, hi.2⟩, hi, h, Or.inl ⟨by simp only; omega, rfl⟩⟩

theorem lk_sib {i : Node} (hi : pl.In i) (h : 0 < i.1) {t : Nat} (ht : t < i.2) : pl.Lk (i.1, t) i :=
  ⟨⟨hi.1, by have := hi.2; simp only; omega⟩, hi, h, Or.inr ⟨rfl, ht⟩⟩

theorem lk_dial {i : Node} (hi : pl.In i) (h : 0 < i.1) {t : Nat} (ht : i.2 < t) (hS : t < pl.S) : pl.Lk i (i.1, t) :=
  ⟨hi, ⟨hi.1, hS⟩, h, Or.inr ⟨rfl, ht⟩⟩

/-- Who can be connected to `i`. -/
theorem lk_cases {j i : Node} (h : pl.Lk j i) :
    (j.1 ≠ i.1 ∧ j = (i.1 - 1, i.2) ∧ i.1 ≤ pl.P ∧ j.1 < pl.P) ∨ (j.1 = i.1 ∧ j = (i.1, j.2) ∧ j.2 < i.2) := by
  obtain ⟨h1, h2, h3, h4 | h4⟩ := h
  · left
    refine ⟨by omega, Prod.ext (by simp only; omega) h4.2, h2.1, ?_⟩
    have := h2.1; omega
  · exact Or.inr ⟨h4.1, Prod.ext h4.1 rfl, h4.2⟩

theorem lk_cases' {j i : Node} (h : pl.Lk j i) :
    (j.1 ≠ i.1 ∧ i = (j.1 + 1, j.2) ∧ j.1 < pl.P) ∨ (j.1 = i.1 ∧ 0 < j.1 ∧ i = (j.1, i.2) ∧ j.2 < i.2 ∧ i.2 < pl.S) := by
  obtain ⟨h1, h2, h3, h4 | h4⟩ := h
  · left
    refine ⟨by omega, Prod.ext (by simp only; omega) h4.2.symm, ?_⟩
    have := h2.1; omega
  · exact Or.inr ⟨h4.1, by omega, Prod.ext h4.1.symm rfl, h4.2, h2.2⟩

end DPPIR.Connect
