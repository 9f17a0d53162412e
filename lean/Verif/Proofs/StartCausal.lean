import Verif.Proofs.StartHiding
import Verif.Spec.StartCausal

/-!
# The moments of a run that sets up its connections first
-/

namespace DPPIR.Joint
open DPPIR.Connect DPPIR.Main
open DPPIR.Protocol (Node Obs PProg)

variable {ι A : Type} [DecidableEq ι] [DecidableEq A] {pl : Plan A} {pos : ι → Node} {prog : ι → PProg ι Unit}

theorem JNet.Step.seen_prefix {cap : Sock Node → Nat} {n m : JNet ι A Obs} (h : JNet.Step pos cap n m) (i : ι) : n.seen i <+: m.seen i := by
  cases h with
  | @obs j w o k ready hp =>
    by_cases e : i = j
    · subst e
      simp
    · simp [Function.update_of_ne e]
  | _ => exact List.prefix_rfl

theorem JNet.Reach.seen_prefix {cap : Sock Node → Nat} {n m : JNet ι A Obs} (h : JNet.Reach pos cap n m) (i : ι) : n.seen i <+: m.seen i := by
  induction h with
  | refl => exact List.prefix_rfl
  | step _ s ih => exact ih.trans (s.seen_prefix i)

theorem JNet.Reach.trans {cap : Sock Node → Nat} {n m l : JNet ι A Obs} (h : JNet.Reach pos cap n m) (h' : JNet.Reach pos cap m l) :
    JNet.Reach pos cap n l := by
  induction h' with
  | refl => exact h
  | step _ s ih => exact .step ih s

/-- What is seen at a moment of a run that sets up the connections first is seen at a
moment of one in which they exist. -/
theorem connecting_moment (hd : pl.Distinct) (hS : pl.S ≤ 256) (hpos : Function.Injective pos)
    {setup : Node → CProc Node A (Wiring Node)} {st : Node → St} (h0 : Inv pl (CNet.start setup) st)
    {capacity S : Nat} {client : Nat → ι} {count : Nat → Nat} {rows : Nat} {row : Nat → Nat → Nat}
    (ha : Answers prog (fun a b => Linked pl.P pl.S (pos a) (pos b)) capacity S client count rows row)
    {cap : Sock Node → Nat} {n : JNet ι A Obs} (hn : JNet.Reach pos cap (JNet.start setup prog) n) :
    ∃ (cap' : ι × ι → Nat) (P : PNet ι Obs Unit), PNet.Reach cap' (PNet.start prog) P ∧ P.seen = n.seen := by
  have ht : Turns pl pos cap prog := turns ha
  obtain ⟨C, P, h⟩ : ∃ C P, Rel pl pos cap prog n C P := by
    induction hn with
    | refl => exact ⟨_, _, .start h0⟩
    | step _ s ih =>
      obtain ⟨C, P, h⟩ := ih
      obtain ⟨C', P', h', -⟩ := h.step hd hS hpos ht s
      exact ⟨C', P', h'⟩
  exact ⟨_, P, h.reach, h.seen.symm⟩

end DPPIR.Joint
