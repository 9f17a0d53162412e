import Verif.Proofs.ForeignLoops
import Verif.Proofs.JointLinks
import Verif.Props.Foreign

/-!
# C76 for processes with the receive loops of the code
-/

namespace DPPIR.Props
open DPPIR Proc Onion Spec Protocol

variable {box : SealedBox}

private theorem dies (c : Chain box) (h : c.Valid) {rows : Nat} (hr : c.rows ≤ rows) (offline : Bool) :
    Net.DiesAt (Outside c.rows) c.parties (c.netWithClient rows offline true) (Net.start (c.mixed rows offline true)) := by
  have hP := h.parties
  refine ⟨fun i hi => ?_, rfl, rfl, Or.inr ⟨?_, ?_⟩⟩
  · show Function.update (c.prog offline true) 0 _ i = Chain.mixed _ _ _ _ _
    unfold Chain.mixed
    by_cases h0 : i = 0
    · subst h0
      rw [Function.update_self, if_pos rfl]
    · rw [Function.update_of_ne h0, if_neg h0, if_neg hi]
  · show Dies _ _ (Function.update (c.prog offline true) 0 _ _) (Chain.mixed _ _ _ _ _)
    unfold Chain.mixed
    rw [Function.update_of_ne (by omega), if_neg (by omega), if_pos rfl]
    have e : c.prog offline true c.parties = c.backend offline true := by
      unfold Chain.prog
      rw [if_neg (by omega), if_neg (by omega), if_pos rfl]
    rw [e]
    exact backend_dies c hr offline true
  · rintro ⟨o, ho, -⟩
    cases ho

private theorem done_of {p : Proc Nat Obs Unit} (h : PProc.ofProc p = .done ()) : p = .done () := by
  cases p <;> simp only [PProc.ofProc] at h <;> cases h
  rfl

private theorem fault_of {p : Proc Nat Obs Unit} {e : Fault} (h : PProc.ofProc p = .fault e) : p = .fault e := by
  cases p <;> simp only [PProc.ofProc] at h <;> cases h
  rfl

private theorem fault_right {links : Nat → Prop} {A : Nat → List Byte} {p : PProc Nat Obs Unit} {e : Fault}
    (h : RNet.Match links A p (.fault e)) : p = .fault e := by
  cases h
  rfl

/-- **C76** is false of the code with its receive loops.  Let the client of a deployment be
configured with more rows than the others, and let one of its queries be for a row that the
backend does not have.  Then, whatever the schedule and the capacities, with or without the
offline stage: the backend never returns; no other process stops abnormally; and a run goes
on until the backend has run into undefined behaviour, by a look-up outside of its
database; no run goes on forever. -/
theorem C76_violated_loops (c : Chain box) (h : c.Valid) (rows : Nat) (hr : c.rows ≤ rows) (hr' : rows ≤ 2 ^ 31 - 1) (offline : Bool)
    (j : Nat) (hj : j < c.count) (hout : c.rows ≤ Chain.wanted { c with rows := rows } j) (cap : Nat × Nat → Nat) (hcap : ∀ x, 0 < cap x) :
    (∀ n, PNet.Reach cap (c.netLoopsWithClient rows offline true) n →
      ¬ n.Returned c.parties () ∧ (∀ i, i ≠ c.parties → ¬ n.Faulted i) ∧
      (n.CanStep cap ∨ n.proc c.parties = .fault .ub) ∧
      (n.proc c.parties = .fault .ub → ∃ key ∈ lookups (n.seen c.parties), c.rows ≤ key)) ∧
    ∀ f : Nat → PNet Nat Obs Unit, f 0 = c.netLoopsWithClient rows offline true → ¬ ∀ k, ∃ i, PNet.Step cap i (f k) (f (k + 1)) := by
  have hP := h.parties
  let direct : Nat → Proc Nat Obs Unit := Function.update (c.prog offline true) 0 (Chain.client { c with rows := rows } offline true)
  have hrel : RNet.Rel (fun _ => True) (c.netLoopsWithClient rows offline true) (RNet.start (fun i => PProc.ofProc (direct i))) := by
    refine RNet.Rel.start fun i => ?_
    by_cases hi : i = 0
    · subst hi
      show RNet.Sim _ _ (Function.update (c.progLoops offline true) 0 _ 0) (PProc.ofProc (Function.update (c.prog offline true) 0 _ 0))
      rw [Function.update_self, Function.update_self]
      exact Chain.sim_clientProg { c with rows := rows } (links := fun _ => True) (i := 0) trivial offline true
    · show RNet.Sim _ _ (Function.update (c.progLoops offline true) 0 _ i) (PProc.ofProc (Function.update (c.prog offline true) 0 _ i))
      rw [Function.update_of_ne hi, Function.update_of_ne hi]
      exact c.sim_prog hP.2 offline true i
  have outside : ∀ i, i ∉ Finset.range (c.parties + 1) → direct i = .done () ∧
      (c.netLoopsWithClient rows offline true).proc i = .done () := by
    intro i hi
    have hi0 : i ≠ 0 := by
      rintro rfl
      simp at hi
    refine ⟨?_, ?_⟩
    · show Function.update _ _ _ _ = _
      rw [Function.update_of_ne hi0]
      simp only [Finset.mem_range] at hi
      unfold Chain.prog
      rw [if_neg hi0, if_neg (by omega), if_neg (by omega)]
    · show Function.update _ _ _ _ = _
      rw [Function.update_of_ne hi0]
      exact Chain.progLoops_out h offline true i hi
  refine ⟨fun n hn => ?_, fun f hf => PNet.no_infinite_run (Finset.range (c.parties + 1)) f fun i hi => ⟨(), by
    rw [hf]; exact (outside i hi).2⟩⟩
  -- the state of one process is one of a run that reads message by message
  have key : ∀ i, ∃ cap' s m, (∀ x, 0 < cap' x) ∧ (c.netWithClient rows offline true).run cap' s = some m ∧ m.seen = n.seen ∧
      (n.Returned i () → m.Finished i) ∧ ∀ e, n.proc i = .fault e → m.proc i = .fault e := by
    intro i
    obtain ⟨cap', m, h1, h2, h3, h4⟩ := hrel.unread (RNet.Clean.start (fun i => RNet.Direct.ofProc _)) hn i
    have h1 : PNet.Reach (fun x => cap' x + 1) (PNet.start (fun i => PProc.ofProc (direct i))) m :=
      RNet.reach_mono (fun _ => Nat.le_succ _) h1
    obtain ⟨s, m', k1, k2, -, k4⟩ := PNet.reach_net h1
    exact ⟨_, s, m', fun _ => Nat.succ_pos _, k1, k4.symm.trans h2, fun hr => done_of ((k2 i).symm.trans (h3 () hr)),
      fun e he => fault_of ((k2 i).symm.trans (h4 e he))⟩
  refine ⟨fun hret => ?_, fun i hi ⟨e, he⟩ => ?_, ?_, fun hu => ?_⟩
  · obtain ⟨cap', s, m, k1, k2, k3, k4, -⟩ := key c.parties
    obtain ⟨N, hN⟩ := C76_violated c h rows hr hr' offline j hj hout cap' k1
    exact (hN s m k2).2.1 (k4 hret)
  · obtain ⟨cap', s, m, k1, k2, k3, -, k5⟩ := key i
    obtain ⟨N, hN⟩ := C76_violated c h rows hr hr' offline j hj hout cap' k1
    exact (hN s m k2).2.2.1 i hi ⟨e, k5 e he⟩
  · -- progress: let all processes catch up
    obtain ⟨m, hm, hrm⟩ := hrel.reach hn
    have hdone : ∀ i ∉ Finset.range (c.parties + 1), ∃ a, (RNet.start (fun i => PProc.ofProc (direct i))).Returned i a := fun i hi => ⟨(), by
      show PProc.ofProc (direct i) = .done ()
      rw [(outside i hi).1]
      rfl⟩
    have hacc : Acc (fun b a : RNet Nat Obs Unit => ∃ i, RNet.Step (fun _ => True) cap i a b) m := by
      have := RNet.acc_of_finite (links := fun _ => True) (cap := cap) _ _ hdone
      clear hrm
      induction hm with
      | refl => exact this
      | step _ s ih => exact ih.inv ⟨_, s⟩
    obtain ⟨m', b1, b2, b3⟩ := hrm.sync_all hacc
    obtain ⟨hclean, cap', h7⟩ := (hm.trans b1).unread (RNet.Clean.start (fun i => RNet.Direct.ofProc _))
    have h7 : PNet.Reach (fun x => cap' x + 1) (PNet.start (fun i => PProc.ofProc (direct i))) m'.unread :=
      RNet.reach_mono (fun _ => Nat.le_succ _) h7
    obtain ⟨s, u, k1, k2, k3, k4⟩ := PNet.reach_net h7
    have eu : u.toPNet = m'.unread := by
      show PNet.mk (fun i => PProc.ofProc (u.proc i)) u.chan u.seen = _
      rw [← k3, ← k4, ← (funext k2 : m'.unread.proc = _)]
    obtain ⟨v, hv, hdv⟩ := (dies c h hr offline).run s k1
    have ub : u.proc c.parties = .fault .ub → n.proc c.parties = .fault .ub := fun hu => by
      have b := b3 c.parties
      rw [show m'.proc c.parties = PProc.ofProc (u.proc c.parties) from k2 c.parties, hu] at b
      exact fault_right b
    have step : u.CanStep cap ∨ u.proc c.parties = .fault .ub → n.CanStep cap ∨ n.proc c.parties = .fault .ub :=
      Or.imp (fun hs => b2.canStep b3 (RNet.canStep_unread hclean (by rw [← eu]; exact Net.canStep_toPNet.2 hs))) ub
    rcases Chain.mixed_progress h hr hr' offline true cap _ hcap s v hv with hs | hs
    · exact step (hdv.canStep hs)
    · refine step (Or.inr ?_)
      obtain ⟨N, hN⟩ := C76_violated c h rows hr hr' offline j hj hout _ (fun _ => Nat.succ_pos _)
      obtain ⟨-, c2, -, -⟩ := hN s u k1
      rcases hdv.state with ⟨hu, -⟩ | ⟨hdies, -⟩
      · exact hu
      · rw [show v.proc c.parties = .done () from hs _] at hdies
        exfalso
        refine c2 ?_
        unfold Net.Finished
        generalize u.proc c.parties = p at hdies
        cases hdies
        rfl
  · obtain ⟨cap', s, m, k1, k2, k3, -, k5⟩ := key c.parties
    obtain ⟨N, hN⟩ := C76_violated c h rows hr hr' offline j hj hout cap' k1
    rw [← k3]
    exact (hN s m k2).2.2.2.2 (k5 _ hu)

/-- The example deployment has four rows.  Its client, told that there are a million, asks
for rows that do not exist, and the backend does not survive it: some run ends in undefined
behaviour. -/
example (offline : Bool) : ∃ n, PNet.Reach (fun _ => 1) (exampleChain.netLoopsWithClient 1000000 offline true) n ∧
    n.proc exampleChain.parties = .fault .ub := by
  obtain ⟨h1, h2⟩ := C76_violated_loops exampleChain exampleChain_valid 1000000 (by decide) (by decide) offline 1 (by decide) (by decide)
    (fun _ => 1) (fun _ => Nat.one_pos)
  obtain ⟨n, hn, hstuck⟩ := PNet.exists_end fun ⟨f, e, hf⟩ => h2 f e hf
  exact ⟨n, hn, (h1 n hn).2.2.1.resolve_left hstuck⟩

end DPPIR.Props
