import Verif.Proofs.ForeignNet
import Verif.Proofs.LoopsNet
import Verif.Spec.ForeignLoops

/-!
# A client that asks for rows the backend does not have: receive loops
-/

namespace DPPIR.Net
open Proc
variable {ι O : Type} [DecidableEq ι]

/-- The same network, of programs that could poll. -/
def toPNet (n : Net ι O) : PNet ι O Unit := { proc := fun i => PProc.ofProc (n.proc i), chan := n.chan, seen := n.seen }

theorem step_toPNet {cap : ι × ι → Nat} {i : ι} {n n' : Net ι O} (h : n.step cap i = some n') : PNet.Step cap i n.toPNet n'.toPNet := by
  have upd : ∀ q : Proc ι O Unit, (fun j => PProc.ofProc (Function.update n.proc i q j)) =
      Function.update (fun j => PProc.ofProc (n.proc j)) i (PProc.ofProc q) := by
    intro q
    funext j
    by_cases hj : j = i
    · subst hj; simp
    · rw [Function.update_of_ne hj, Function.update_of_ne hj]
  unfold Net.step at h
  cases hp : n.proc i with
  | done a => rw [hp] at h; cases h
  | fault e => rw [hp] at h; cases h
  | send d b k =>
    rw [hp] at h
    dsimp only at h
    split at h
    · rename_i room
      cases h
      have := PNet.Step.send (cap := cap) (i := i) (n := n.toPNet) (d := d) (b := b) (k := PProc.ofProc k)
        (by show PProc.ofProc (n.proc i) = _; rw [hp]; rfl) room
      unfold toPNet at this ⊢
      dsimp only at this ⊢
      rw [upd]
      exact this
    · cases h
  | recv s k =>
    rw [hp] at h
    dsimp only at h
    cases hc : n.chan (s, i) with
    | nil => rw [hc] at h; cases h
    | cons b rest =>
      rw [hc] at h
      cases h
      have := PNet.Step.recv (cap := cap) (i := i) (n := n.toPNet) (s := s) (k := fun b => PProc.ofProc (k b)) (b := b) (rest := rest)
        (by show PProc.ofProc (n.proc i) = _; rw [hp]; rfl) hc
      unfold toPNet at this ⊢
      dsimp only at this ⊢
      rw [upd]
      exact this
  | obs o k =>
    rw [hp] at h
    cases h
    have := PNet.Step.obs (cap := cap) (i := i) (n := n.toPNet) (o := o) (k := PProc.ofProc k)
      (by show PProc.ofProc (n.proc i) = _; rw [hp]; rfl)
    unfold toPNet at this ⊢
    dsimp only at this ⊢
    rw [upd]
    exact this

theorem run_toPNet {cap : ι × ι → Nat} (s : List ι) {n₀ : PNet ι O Unit} {n n' : Net ι O} (h₀ : PNet.Reach cap n₀ n.toPNet)
    (h : n.run cap s = some n') : PNet.Reach cap n₀ n'.toPNet := by
  induction s generalizing n with
  | nil => simp only [Net.run] at h; cases h; exact h₀
  | cons i s ih =>
    simp only [Net.run] at h
    cases hs : n.step cap i with
    | none => rw [hs] at h; cases h
    | some m => rw [hs] at h; exact ih (h₀.step (step_toPNet hs)) h

theorem canStep_toPNet {cap : ι × ι → Nat} {n : Net ι O} : n.toPNet.CanStep cap ↔ n.CanStep cap := by
  constructor
  · rintro ⟨i, m, h⟩
    refine ⟨i, ?_⟩
    unfold Net.step
    cases h with
    | send hp room =>
      have hi : PProc.ofProc (n.proc i) = _ := hp
      generalize n.proc i = q at hi ⊢
      cases q <;> simp only [PProc.ofProc] at hi <;> cases hi
      dsimp only
      rw [if_pos (show (n.chan _).length < _ from room)]
      rfl
    | recv hp data =>
      have hi : PProc.ofProc (n.proc i) = _ := hp
      generalize n.proc i = q at hi ⊢
      cases q <;> simp only [PProc.ofProc] at hi <;> cases hi
      dsimp only
      rw [show n.chan _ = _ from data]
      rfl
    | obs hp =>
      have hi : PProc.ofProc (n.proc i) = _ := hp
      generalize n.proc i = q at hi ⊢
      cases q <;> simp only [PProc.ofProc] at hi <;> cases hi
      rfl
    | poll r hp sound some =>
      have hi : PProc.ofProc (n.proc i) = _ := hp
      generalize n.proc i = q at hi
      cases q <;> simp only [PProc.ofProc] at hi <;> cases hi
    | read hp some fits data =>
      have hi : PProc.ofProc (n.proc i) = _ := hp
      generalize n.proc i = q at hi
      cases q <;> simp only [PProc.ofProc] at hi <;> cases hi
  · rintro ⟨i, h⟩
    obtain ⟨m, hm⟩ := Option.isSome_iff_exists.1 h
    exact ⟨i, _, step_toPNet hm⟩

end DPPIR.Net

namespace DPPIR.Protocol
open DPPIR Proc PNet RNet Onion

variable {box : SealedBox}

namespace Chain

/-- Progress does not depend on the capacities of the run so far. -/
theorem mixed_progress {c : Chain box} (h : c.Valid) {R : Nat} (hR : c.rows ≤ R) (hR' : R ≤ 2 ^ 31 - 1) (offline online : Bool)
    (cap cap' : Nat × Nat → Nat) (hcap : ∀ x, 0 < cap x) (s : List Nat) (n : Net Nat Obs)
    (hn : (Net.start (c.mixed R offline online)).run cap' s = some n) : n.CanStep cap ∨ ∀ i, n.Finished i := by
  choose pre post hd hout using mixed_does h hR hR' offline online
  have hadj : ∀ g ∈ (c.padded R).script offline online, g.1 ≠ g.2.1 := by
    intro g hg
    rcases (c.padded R).script_adjacent offline online g hg with h | h <;> omega
  have hok : ∀ g ∈ ((c.padded R).script offline online).map (fun g => GSeg.msg g.1 g.2.1 g.2.2), GSeg.Ok cap g := by
    intro g hg
    obtain ⟨g', hg', rfl⟩ := List.mem_map.1 hg
    exact ⟨hadj g' hg', hcap _⟩
  have hr : PNet.Reach cap' (PNet.start (fun i => PProc.ofProc (c.mixed R offline online i))) n.toPNet := Net.run_toPNet s .refl hn
  obtain ⟨L', hinv⟩ := (Inv.start hok (L := fun i => (pre i ++ post i).map Seg.act) (Q := fun _ _ => True)
    (fun i => (PProc.Does.ofProc (hd i).runs).mono fun _ _ => trivial) (fun i => by
      rw [segComm_acts, proj_msgs i _ hadj, proj_script, comm_append, (hd i).commPre, (hd i).commPost])).reach hr
  refine (hinv.progress hok).imp Net.canStep_toPNet.1 fun b i => ?_
  obtain ⟨⟨a, ha, -⟩, -⟩ := b.1 i
  have hi : PProc.ofProc (n.proc i) = .done a := ha
  show n.proc i = .done ()
  generalize n.proc i = q at hi ⊢
  cases q <;> simp only [PProc.ofProc] at hi <;> cases hi
  rfl

end Chain

end DPPIR.Protocol
