import Verif.Proofs.ConnectStage

/-!
# Invariants of connection set-up, part 3: every step
-/

namespace DPPIR.Connect
open DPPIR.Protocol (Node)
open Classical

variable {A : Type} [DecidableEq A] {pl : Plan A}

/-- The same knowledge, as far as it matters. -/
structure Agree (pl : Plan A) (K K' : Know) : Prop where
  lis : ∀ i k, pl.End i k → (K.lis i k ↔ K'.lis i k)
  acc : ∀ j i, pl.Lk j i → (K.acc i j ↔ K'.acc i j)
  dial : ∀ j i, pl.Lk j i → (K.dial j i ↔ K'.dial j i)
  greet : ∀ j i, pl.Lk j i → (K.greet j i ↔ K'.greet j i)
  read : ∀ j i, pl.Lk j i → (K.read i j ↔ K'.read i j)

theorem NetInv.congr {α : Type} {n : CNet Node A α} {K K' : Know} (h : NetInv pl n K) (e : Agree pl K K') : NetInv pl n K' where
  lis i k he := by rw [h.lis i k he]; simp only [e.lis i k he]
  nodup := h.nodup
  pend i k he c := by
    rw [h.pend i k he]
    constructor
    · rintro ⟨j, h1, h2, h3, h4, h5⟩
      exact ⟨j, h1, h2, h3, (e.dial j i h1).mp h4, fun h6 => h5 ((e.acc j i h1).mpr h6)⟩
    · rintro ⟨j, h1, h2, h3, h4, h5⟩
      exact ⟨j, h1, h2, h3, (e.dial j i h1).mpr h4, fun h6 => h5 ((e.acc j i h1).mp h6)⟩
  chan j i hl := by rw [h.chan j i hl]; simp only [e.greet j i hl, e.read j i hl]
  other := h.other
  acc i j hl ha := (e.dial j i hl).mp (h.acc i j hl ((e.acc j i hl).mpr ha))
  read i j hl ha := (e.greet j i hl).mp (h.read i j hl ((e.read j i hl).mpr ha))

/-- How much process `i` has left to do. -/
def Plan.rank (pl : Plan A) (i : Node) : St → Nat
  | .back0 => 2 * pl.S + 2 * i.2 + 5
  | .back1 => 2 * pl.S + 2 * i.2 + 4
  | .next => 2 * pl.S + 2 * i.2 + 3
  | .sib0 => 2 * pl.S + 2 * i.2 + 2
  | .sibAcc l => 2 * pl.S + i.2 + 1 + (i.2 - l.length)
  | .ident _ l => 2 * pl.S + l.length
  | .dial t => 2 * (pl.S - t) + 1
  | .greet t => 2 * (pl.S - t)
  | .fin => 0

/-- Every process is at a stage, and the network agrees with the stages. -/
structure Inv (pl : Plan A) (n : CNet Node A (Wiring Node)) (st : Node → St) : Prop where
  out : ∀ i, ¬ pl.In i → n.proc i = .done {}
  proc : ∀ i, pl.In i → n.proc i = pl.progAt i (st i)
  ok : ∀ i, pl.In i → pl.Ok i (st i)
  net : NetInv pl n (know st)
  dials : ∀ i, pl.In i → st i = .fin ∨ n.dials i = pl.count i (st i)

/-- A process that moved to another stage. -/
theorem Inv.update {n m : CNet Node A (Wiring Node)} {st : Node → St} (h : Inv pl n st) {i : Node} (hi : pl.In i) {s : St}
    {p : CProc Node A (Wiring Node)}
    (hproc : m.proc = Function.update n.proc i p) (hp : p = pl.progAt i s) (hok : pl.Ok i s)
    (hd : s = .fin ∨ m.dials i = pl.count i s) (hd' : ∀ j, j ≠ i → m.dials j = n.dials j) {K : Know} (hnet : NetInv pl m K)
    (hK : Agree pl K (know (Function.update st i s))) : Inv pl m (Function.update st i s) := by
  refine ⟨?_, ?_, ?_, hnet.congr hK, ?_⟩
  · intro j hj
    rw [hproc, Function.update_of_ne (by rintro rfl; exact hj hi), h.out j hj]
  · intro j hj
    rw [hproc]
    by_cases e : j = i
    · subst e; rw [Function.update_self, Function.update_self, hp]
    · rw [Function.update_of_ne e, Function.update_of_ne e, h.proc j hj]
  · intro j hj
    by_cases e : j = i
    · subst e; rw [Function.update_self]; exact hok
    · rw [Function.update_of_ne e]; exact h.ok j hj
  · intro j hj
    by_cases e : j = i
    · subst e; rw [Function.update_self]; exact hd
    · rw [Function.update_of_ne e, hd' j e]; exact h.dials j hj

/-- Knowledge after a process moved to another stage, the parts that stay the same. -/
theorem agree_update {st : Node → St} {K : Know} {i : Node} {s : St}
    (lis : ∀ k, pl.End i k → (K.lis i k ↔ s.lis k)) (lis' : ∀ j k, j ≠ i → (K.lis j k ↔ (st j).lis k))
    (acc : ∀ j, pl.Lk j i → (K.acc i j ↔ if j.1 = i.1 then s.accS j.2 else s.accB))
    (acc' : ∀ j a, a ≠ i → (K.acc a j ↔ (know st).acc a j))
    (dial : ∀ a, pl.Lk i a → (K.dial i a ↔ if i.1 = a.1 then s.dialS a.2 else s.dialN))
    (dial' : ∀ j a, j ≠ i → (K.dial j a ↔ (know st).dial j a))
    (greet : ∀ a, pl.Lk i a → (K.greet i a ↔ i.1 = a.1 ∧ s.greetS a.2))
    (greet' : ∀ j a, j ≠ i → (K.greet j a ↔ (know st).greet j a))
    (read : ∀ j, pl.Lk j i → (K.read i j ↔ j.1 = i.1 ∧ s.readS j.2))
    (read' : ∀ j a, a ≠ i → (K.read a j ↔ (know st).read a j)) :
    Agree pl K (know (Function.update st i s)) := by
  refine ⟨?_, ?_, ?_, ?_, ?_⟩
  · intro j k he
    by_cases e : j = i
    · subst e; simpa [know] using lis k he
    · simpa [know, Function.update_of_ne e] using lis' j k e
  · intro j a hl
    by_cases e : a = i
    · subst e; simpa [know] using acc j hl
    · simpa [know, Function.update_of_ne e] using acc' j a e
  · intro j a hl
    by_cases e : j = i
    · subst e; simpa [know] using dial a hl
    · simpa [know, Function.update_of_ne e] using dial' j a e
  · intro j a hl
    by_cases e : j = i
    · subst e; simpa [know] using greet a hl
    · simpa [know, Function.update_of_ne e] using greet' j a e
  · intro j a hl
    by_cases e : a = i
    · subst e; simpa [know] using read j hl
    · simpa [know, Function.update_of_ne e] using read' j a e

/-- The stage after the loop over the lower siblings makes no difference to what it has
done. -/
theorem dialFrom_facts (pl : Plan A) (i : Node) (t : Nat) (ht : t ≤ pl.S) :
    (∀ k, (pl.dialFrom t).lis k) ∧ (pl.dialFrom t).accB ∧ (∀ u, (pl.dialFrom t).accS u) ∧ (∀ u, (pl.dialFrom t).readS u) ∧
    (pl.dialFrom t).dialN ∧ (∀ u < pl.S, (pl.dialFrom t).dialS u ↔ u < t) ∧ (∀ u < pl.S, (pl.dialFrom t).greetS u ↔ u < t) ∧
    pl.rank i (pl.dialFrom t) ≤ 2 * (pl.S - t) + 1 := by
  unfold Plan.dialFrom
  split
  · refine ⟨?_, trivial, fun _ => trivial, fun _ => trivial, trivial, fun _ _ => Iff.rfl, fun _ _ => Iff.rfl, le_refl _⟩
    rintro (_ | _) <;> trivial
  · refine ⟨?_, trivial, fun _ => trivial, fun _ => trivial, trivial, fun u hu => ?_, fun u hu => ?_, by simp [Plan.rank]⟩
    · rintro (_ | _) <;> trivial
    · exact ⟨fun _ => by omega, fun _ => trivial⟩
    · exact ⟨fun _ => by omega, fun _ => trivial⟩

end DPPIR.Connect
