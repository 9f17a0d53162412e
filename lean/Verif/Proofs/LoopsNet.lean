import Verif.Proofs.LoopsRun

/-!
# Deployments with receive loops
-/

namespace DPPIR.RNet
open Proc PNet
variable {ι O α : Type} [DecidableEq ι] {links : ι × ι → Prop} {cap : ι × ι → Nat}

theorem acc_of_finite (S : Finset ι) (m : RNet ι O α) (hS : ∀ i ∉ S, ∃ a, m.Returned i a) :
    Acc (fun b a : RNet ι O α => ∃ i, Step links cap i a b) m := by
  by_contra h
  obtain ⟨f, h0, hf⟩ := not_acc_iff_exists_descending_chain.1 h
  exact no_infinite_run S f (by rw [h0]; exact hS) hf

/-- A process that returned or stopped with receive loops does so without. -/
theorem Rel.end_of {n : PNet ι O α} {m : RNet ι O α} (h : Rel links n m) (i : ι) :
    ∃ m', Reach links cap m m' ∧ Rel links n m' ∧ (∀ a, n.proc i = .done a → m'.proc i = .done a) ∧
      ∀ e, n.proc i = .fault e → m'.proc i = .fault e := by
  obtain ⟨m', h1, h2, h3⟩ := h.sync (cap := cap) i
  refine ⟨m', h1, h2, fun a e => ?_, fun e' e => ?_⟩ <;>
  · rw [e] at h3
    generalize m'.proc i = q at h3
    cases h3
    rfl

theorem Match.done_right {links : ι → Prop} {A : ι → List Byte} {p : PProc ι O α} {a : α} (h : Match links A p (.done a)) : p = .done a := by
  cases h
  rfl

/-- Whatever runs: a state of the network whose process `i` has receive loops is one of
the network that reads byte by byte, the bytes that were read ahead being in transit. -/
theorem Rel.unread {n0 n : PNet ι O α} {m0 : RNet ι O α} (h : Rel links n0 m0) (hc : Clean links m0) (hr : PNet.Reach cap n0 n) (i : ι) :
    ∃ cap' m, PNet.Reach cap' m0.unread m ∧ m.seen = n.seen ∧ (∀ a, n.proc i = .done a → m.proc i = .done a) ∧
      ∀ e, n.proc i = .fault e → m.proc i = .fault e := by
  obtain ⟨m1, h1, h2⟩ := h.reach hr
  obtain ⟨m2, h3, h4, h5, h6⟩ := h2.end_of (cap := cap) i
  obtain ⟨-, cap', h7⟩ := (h1.trans h3).unread hc
  exact ⟨cap', m2.unread, h7, h4.seen.symm, h5, h6⟩

end DPPIR.RNet

namespace DPPIR.Protocol
open DPPIR Proc PNet RNet Onion

variable {box : SealedBox}

theorem fits_new {k s P S : Nat} {seed : Int} {pkeys : List box.PKey} {pkey : box.PKey} {skey : box.SKey} {db : Database} {p : Party box}
    (hP : P ≤ 255) (h : Party.new k s P S seed pkeys pkey skey db = .ok p) : p.Fits := by
  unfold Party.new at h
  obtain ⟨_, h1, h⟩ := bind_eq_ok.1 h
  obtain ⟨_, _, h⟩ := bind_eq_ok.1 h
  cases h
  unfold assert at h1
  split at h1
  · rename_i hk
    rw [decide_eq_true_eq] at hk
    exact ⟨rfl, by dsimp only; omega, hP⟩
  · cases h1

theorem fits_new_parallel {k s P S : Nat} {seed seed' : Int} {pkeys : List box.PKey} {pkey : box.PKey} {skey : box.SKey} {db : Database}
    {p : ParallelParty box} (hP : P ≤ 255) (h : ParallelParty.new k s P S seed seed' pkeys pkey skey db = .ok p) : p.toParty.Fits := by
  unfold ParallelParty.new at h
  obtain ⟨_, _, h⟩ := bind_eq_ok.1 h
  obtain ⟨_, h1, h⟩ := bind_eq_ok.1 h
  obtain ⟨_, _, h⟩ := bind_eq_ok.1 h
  cases h
  unfold assert at h1
  split at h1
  · rename_i hk
    rw [decide_eq_true_eq] at hk
    exact ⟨rfl, by dsimp only; omega, hP⟩
  · cases h1

namespace Chain

theorem sim_clientProg (c : Chain box) {links : Nat × Nat → Prop} {i : Nat} (hl : links (1, i)) (offline online : Bool) :
    Sim (fun s => links (s, i)) (fun _ => []) (c.clientLoops offline online) (PProc.ofProc (c.client offline online)) :=
  sim_proc (fun _ => sim_proc (fun _ => sim_client hl _ _ _ _ _))

theorem sim_partyProg (c : Chain box) (hP : c.parties ≤ 255) (k : Nat) {links : Nat × Nat → Prop} {i : Nat} (hb : links (k, i)) (hn : links (k + 2, i))
    (offline online : Bool) :
    Sim (fun s => links (s, i)) (fun _ => []) (c.partyLoops k offline online) (PProc.ofProc (c.party k offline online)) :=
  sim_proc (fun _ => sim_proc_ends (Q := Party.Fits) (Ends.lift (fun _ h => fits_new hP h)) (fun p hp => sim_party hb hn p hp _ _ _))

theorem sim_backendProg (c : Chain box) {links : Nat × Nat → Prop} {i : Nat} (hb : links (c.parties - 1, i)) (offline online : Bool) :
    Sim (fun s => links (s, i)) (fun _ => []) (c.backendLoops offline online) (PProc.ofProc (c.backend offline online)) :=
  sim_proc (fun _ => sim_proc (fun _ => sim_backend hb _ _ _ _))

theorem sim_prog (c : Chain box) (hP : c.parties ≤ 255) (offline online : Bool) (i : Nat) :
    Sim (fun s => (fun _ : Nat × Nat => True) (s, i)) (fun _ => []) (c.progLoops offline online i) (PProc.ofProc (c.prog offline online i)) := by
  unfold progLoops prog
  split
  · exact c.sim_clientProg (links := fun _ => True) (i := i) trivial offline online
  · split
    · exact c.sim_partyProg hP _ (links := fun _ => True) (i := i) trivial trivial offline online
    · split
      · exact c.sim_backendProg (links := fun _ => True) (i := i) trivial offline online
      · exact .done _ (fun _ => rfl)

theorem progLoops_out {c : Chain box} (h : c.Valid) (offline online : Bool) (i : Nat) (hi : i ∉ Finset.range (c.parties + 1)) :
    c.progLoops offline online i = .done () := by
  have := h.parties
  simp only [Finset.mem_range] at hi
  unfold progLoops
  rw [if_neg (show ¬ i = 0 by omega), if_neg (show ¬ i < c.parties by omega), if_neg (show ¬ i = c.parties by omega)]

theorem every_run_loops {c : Chain box} (h : c.Valid) (offline online : Bool) (cap : Nat × Nat → Nat)
    (hcap : ∀ k < c.parties, 0 < cap (k, k + 1) ∧ 0 < cap (k + 1, k)) :
    (∀ n, PNet.Reach cap (c.netLoops offline online) n →
      (∀ i, ¬ n.Faulted i) ∧ (∀ i, n.seen i <+: c.obsAll offline online i) ∧
      (∀ i, n.Returned i () → n.seen i = c.obsAll offline online i) ∧
      (n.CanStep cap ∨ (∀ i, n.Returned i ()) ∧ ∀ x, n.chan x = [])) ∧
    (∀ f : Nat → PNet Nat Obs Unit, f 0 = c.netLoops offline online → ¬ ∀ k, ∃ i, PNet.Step cap i (f k) (f (k + 1))) := by
  obtain ⟨a1, a2⟩ := every_run_ahead h offline online cap hcap
  have hP : c.parties ≤ 255 := h.parties.2
  have hrel : RNet.Rel (fun _ => True) (c.netLoops offline online) (RNet.start (fun i => PProc.ofProc (c.prog offline online i))) :=
    RNet.Rel.start (c.sim_prog hP offline online)
  refine ⟨fun n hn => ?_, fun f hf => PNet.no_infinite_run (Finset.range (c.parties + 1)) f (fun i hi => ⟨(), by
    rw [hf]; exact progLoops_out h offline online i hi⟩)⟩
  obtain ⟨m, hm, hr⟩ := hrel.reach hn
  refine ⟨fun i ⟨e, he⟩ => ?_, fun i => ?_, fun i hi => ?_, ?_⟩
  · obtain ⟨m', b1, b2, -, b4⟩ := hr.end_of (cap := cap) i
    exact (a1 m' (hm.trans b1)).1 i ⟨e, b4 e he⟩
  · rw [hr.seen]
    exact (a1 m hm).2.1 i
  · obtain ⟨m', b1, b2, b3, -⟩ := hr.end_of (cap := cap) i
    rw [b2.seen]
    exact (a1 m' (hm.trans b1)).2.2.1 i (b3 () hi)
  · have hacc : Acc (fun b a : RNet Nat Obs Unit => ∃ i, RNet.Step (fun _ => True) cap i a b) m := by
      by_contra hno
      obtain ⟨f, h0, hf⟩ := not_acc_iff_exists_descending_chain.1 hno
      have : Acc (fun b a : RNet Nat Obs Unit => ∃ i, RNet.Step (fun _ => True) cap i a b)
          (RNet.start (fun i => PProc.ofProc (c.prog offline online i))) := by
        by_contra hno
        obtain ⟨f, h0, hf⟩ := not_acc_iff_exists_descending_chain.1 hno
        exact a2 f h0 hf
      refine hno ?_
      clear a1 hn hr hno h0 hf
      induction hm with
      | refl => exact this
      | step _ s ih => exact ih.inv ⟨_, s⟩
    obtain ⟨m', b1, b2, b3⟩ := hr.sync_all hacc
    refine ((a1 m' (hm.trans b1)).2.2.2).imp (fun hs => b2.canStep b3 hs) (fun ⟨d1, d2, d3⟩ => ⟨fun i => ?_, fun x => ?_⟩)
    · have := b3 i
      rw [show m'.proc i = .done () from d1 i] at this
      exact this.done_right
    · rw [b2.chan]; exact d2 x

end Chain

namespace Grid

theorem sim_clientProg (g : Grid box) (s : Nat) {links : Node × Node → Prop} {i : Node} (hl : links ((1, s), i)) (offline online : Bool) :
    Sim (fun s => links (s, i)) (fun _ => []) (g.clientLoops s offline online) (g.client s offline online) :=
  sim_proc (fun _ => sim_proc (fun _ => sim_client hl _ _ _ _ _))

theorem sim_partyProg (g : Grid box) (hP : g.parties ≤ 255) (k s : Nat) {links : Node × Node → Prop} {i : Node} (hb : links ((k, s), i))
    (hn : links ((k + 2, s), i)) (hX : ∀ t, ¬ links ((k + 1, t), i)) (offline online : Bool) :
    Sim (fun s => links (s, i)) (fun _ => []) (g.partyLoops k s offline online) (g.party k s offline online) :=
  sim_then (direct_lift _) (fun _ => sim_same (Q := fun p : ParallelParty box => p.toParty.Fits) (direct_lift _)
    (Ends.lift (fun _ h => fits_new_parallel hP h)) (fun p hp => sim_parallel hb hn hX p hp _ _ _))

theorem sim_backendProg (g : Grid box) (s : Nat) {links : Node × Node → Prop} {i : Node} (hb : links ((g.parties - 1, s), i))
    (hX : ∀ t, ¬ links ((g.parties, t), i)) (offline online : Bool) :
    Sim (fun s => links (s, i)) (fun _ => []) (g.backendLoops s offline online) (g.backend s offline online) :=
  sim_then (direct_lift _) (fun _ => sim_then (direct_lift _) (fun _ => sim_then (direct_lift _) (fun b =>
    sim_parallelBackend hb hX b _ _ _ _ _ _)))

theorem sim_prog (g : Grid box) (hP : 1 ≤ g.parties ∧ g.parties ≤ 255) (offline online : Bool) (i : Node) :
    Sim (fun s => (fun x : Node × Node => x.1.1 ≠ x.2.1) (s, i)) (fun _ => []) (g.progLoops offline online i) (g.prog offline online i) := by
  unfold progLoops prog
  split
  · split
    · exact g.sim_clientProg i.2 (links := fun x : Node × Node => x.1.1 ≠ x.2.1) (by dsimp only; omega) offline online
    · split
      · exact g.sim_partyProg hP.2 _ _ (links := fun x : Node × Node => x.1.1 ≠ x.2.1) (by dsimp only; omega) (by dsimp only; omega)
          (fun t => by dsimp only; omega) offline online
      · split
        · exact g.sim_backendProg _ (links := fun x : Node × Node => x.1.1 ≠ x.2.1) (by dsimp only; omega) (fun t => by dsimp only; omega) offline online
        · exact .done _ (fun _ => rfl)
  · exact .done _ (fun _ => rfl)

theorem progLoops_out {g : Grid box} (h : g.Valid) (offline online : Bool) (i : Node)
    (hi : i ∉ (Finset.range (g.parties + 1)) ×ˢ (Finset.range g.servers)) : g.progLoops offline online i = .done () := by
  obtain ⟨i, s⟩ := i
  unfold progLoops
  simp only [Finset.mem_product, Finset.mem_range, not_and_or] at hi
  by_cases hs : s < g.servers
  · have hi : ¬ i < g.parties + 1 := hi.resolve_right (by simpa using hs)
    have := h.parties
    rw [if_pos hs, if_neg (show ¬ i = 0 by omega), if_neg (show ¬ i < g.parties by omega), if_neg (show ¬ i = g.parties by omega)]
  · rw [if_neg hs]

theorem every_run_loops {g : Grid box} (h : g.Valid) (offline online : Bool) (hd : offline = true → g.DistinctTags)
    (cap : Node × Node → Nat) :
    (∀ n, PNet.Reach cap (g.netLoops offline online) n →
      (∀ i, ¬ n.Faulted i) ∧
      (∀ i s, s < g.servers → n.seen (i, s) <+: g.obsAll offline online i s) ∧
      (∀ i s, s < g.servers → n.Returned (i, s) () → n.seen (i, s) = g.obsAll offline online i s) ∧
      (g.Roomy cap → n.CanStep cap ∨ (∀ i, n.Returned i ()) ∧ ∀ c, n.chan c = [])) ∧
    (∀ f : Nat → PNet Node Obs Unit, f 0 = g.netLoops offline online → ¬ ∀ k, ∃ i, PNet.Step cap i (f k) (f (k + 1))) := by
  obtain ⟨a1, a2⟩ := every_run_ahead h offline online hd cap
  have hP : 1 ≤ g.parties ∧ g.parties ≤ 255 := ⟨by have := h.parties; omega, h.parties.2⟩
  have hrel : RNet.Rel (fun x => x.1.1 ≠ x.2.1) (g.netLoops offline online) (RNet.start (g.prog offline online)) :=
    RNet.Rel.start (g.sim_prog hP offline online)
  refine ⟨fun n hn => ?_, fun f hf => PNet.no_infinite_run _ f (fun i hi => ⟨(), by rw [hf]; exact progLoops_out h offline online i hi⟩)⟩
  obtain ⟨m, hm, hr⟩ := hrel.reach hn
  refine ⟨fun i ⟨e, he⟩ => ?_, fun i s hs => ?_, fun i s hs hi => ?_, fun hc => ?_⟩
  · obtain ⟨m', b1, b2, -, b4⟩ := hr.end_of (cap := cap) i
    exact (a1 m' (hm.trans b1)).1 i ⟨e, b4 e he⟩
  · rw [hr.seen]
    exact (a1 m hm).2.1 i s hs
  · obtain ⟨m', b1, b2, b3, -⟩ := hr.end_of (cap := cap) (i, s)
    rw [b2.seen]
    exact (a1 m' (hm.trans b1)).2.2.1 i s hs (b3 () hi)
  · have hacc : Acc (fun b a : RNet Node Obs Unit => ∃ i, RNet.Step (fun x => x.1.1 ≠ x.2.1) cap i a b) m := by
      have : Acc (fun b a : RNet Node Obs Unit => ∃ i, RNet.Step (fun x => x.1.1 ≠ x.2.1) cap i a b) (RNet.start (g.prog offline online)) := by
        by_contra hno
        obtain ⟨f, h0, hf⟩ := not_acc_iff_exists_descending_chain.1 hno
        exact a2 f h0 hf
      clear a1 hn hr
      induction hm with
      | refl => exact this
      | step _ s ih => exact ih.inv ⟨_, s⟩
    obtain ⟨m', b1, b2, b3⟩ := hr.sync_all hacc
    refine ((a1 m' (hm.trans b1)).2.2.2 hc).imp (fun hs => b2.canStep b3 hs) (fun ⟨d1, d2, d3⟩ => ⟨fun i => ?_, fun x => ?_⟩)
    · have := b3 i
      rw [show m'.proc i = .done () from d1 i] at this
      exact this.done_right
    · rw [b2.chan]; exact d2 x

end Grid

end DPPIR.Protocol

/-! ### Arbitrary peers -/

namespace DPPIR.RNet
open Proc PNet
variable {ι O α : Type} [DecidableEq ι]

omit [DecidableEq ι] in
theorem direct_of_none {links : ι × ι → Prop} {j : ι} (h : ∀ s, ¬ links (s, j)) (p : PProc ι O α) : Direct links j p := by
  induction p with
  | done a => exact .done a
  | fault e => exact .fault e
  | send _ _ _ ih => exact .send ih
  | recv _ _ ih => exact .recv ih
  | obs _ _ ih => exact .obs ih
  | poll _ _ _ ih => exact .poll (fun s _ => h s) ih
  | read _ _ _ ih => exact .read (h _) ih

/-- One process has receive loops, all others are arbitrary: there is a run in which it
reads byte by byte, with the same calls, in which it ends in the same way. -/
theorem one_of_many {L : ι → Prop} {i : ι} {p' : PProc ι O α} {n0 n : PNet ι O α} {cap : ι × ι → Nat}
    (hs : Sim (fun s => (fun x : ι × ι => x.2 = i ∧ L x.1) (s, i)) (fun _ => []) (n0.proc i) p')
    (hd : Direct (fun x : ι × ι => x.2 = i ∧ L x.1) i p') (hr : PNet.Reach cap n0 n) :
    ∃ cap' m, PNet.Reach cap' { n0 with proc := Function.update n0.proc i p' } m ∧ m.seen = n.seen ∧
      (∀ a, n.proc i = .done a → m.proc i = .done a) ∧ ∀ e, n.proc i = .fault e → m.proc i = .fault e := by
  let links : ι × ι → Prop := fun x => x.2 = i ∧ L x.1
  have hnone : ∀ j, j ≠ i → ∀ s, ¬ links (s, j) := fun j hj s h => hj h.1
  let m0 : RNet ι O α := { n0 with proc := Function.update n0.proc i p', ahead := fun _ => [] }
  have hrel : Rel links n0 m0 := by
    refine ⟨rfl, rfl, fun j => ?_⟩
    by_cases hj : j = i
    · subst hj
      show Sim _ _ _ (Function.update n0.proc j p' j)
      rw [Function.update_self]
      exact hs
    · show Sim _ _ _ (Function.update n0.proc i p' j)
      rw [Function.update_of_ne hj]
      exact Protocol.sim_refl (links := links) (direct_of_none (hnone j hj) _)
  have hclean : Clean links m0 := by
    refine ⟨fun _ _ => rfl, fun j => ?_⟩
    by_cases hj : j = i
    · subst hj
      show Direct _ _ (Function.update n0.proc j p' j)
      rw [Function.update_self]
      exact hd
    · exact direct_of_none (hnone j hj) _
  obtain ⟨cap', m, h1, h2⟩ := hrel.unread hclean hr i
  exact ⟨cap', m, by
    have e : m0.unread = { n0 with proc := Function.update n0.proc i p' } := rfl
    rw [← e]
    exact h1, h2⟩

end DPPIR.RNet

namespace DPPIR.PNet
open Proc
variable {ι O : Type} [DecidableEq ι]

/-- A network of programs that do not poll. -/
theorem reach_net {cap : ι × ι → Nat} {prog : ι → Proc ι O Unit} {m : PNet ι O Unit}
    (h : Reach cap (PNet.start (fun i => PProc.ofProc (prog i))) m) :
    ∃ s n, (Net.start prog).run cap s = some n ∧ (∀ i, m.proc i = PProc.ofProc (n.proc i)) ∧ m.chan = n.chan ∧ m.seen = n.seen := by
  induction h with
  | refl => exact ⟨[], _, rfl, fun _ => rfl, rfl, rfl⟩
  | @step m m' i _ st ih =>
    obtain ⟨s, n, h1, h2, h3, h4⟩ := ih
    suffices ∃ n', n.step cap i = some n' ∧ (∀ i, m'.proc i = PProc.ofProc (n'.proc i)) ∧ m'.chan = n'.chan ∧ m'.seen = n'.seen by
      obtain ⟨n', g1, g2⟩ := this
      refine ⟨s ++ [i], n', ?_, g2⟩
      have run_append : ∀ (s : List ι) (a b : Net ι O), a.run cap s = some b → a.run cap (s ++ [i]) = b.step cap i := by
        intro s
        induction s with
        | nil => intro a b h; cases h; simp only [List.nil_append, Net.run]; cases a.step cap i <;> rfl
        | cons j s ih =>
          intro a b h
          simp only [List.cons_append, Net.run] at h ⊢
          cases hj : a.step cap j with
          | none => rw [hj] at h; cases h
          | some c => rw [hj] at h; exact ih c b h
      rw [run_append s _ _ h1, g1]
    have hi := h2 i
    have upd : ∀ (q : Proc ι O Unit), ∀ j, Function.update m.proc i (PProc.ofProc q) j = PProc.ofProc (Function.update n.proc i q j) := by
      intro q j
      by_cases hj : j = i
      · subst hj; simp
      · rw [Function.update_of_ne hj, Function.update_of_ne hj, h2]
    unfold Net.step
    cases st with
    | send hp room =>
      rw [hp] at hi
      generalize n.proc i = q at hi ⊢
      cases q <;> simp only [PProc.ofProc] at hi <;> cases hi
      dsimp only
      rw [← h3, if_pos room]
      exact ⟨_, rfl, upd _, rfl, h4⟩
    | recv hp data =>
      rw [hp] at hi
      generalize n.proc i = q at hi ⊢
      cases q <;> simp only [PProc.ofProc] at hi <;> cases hi
      dsimp only
      rw [← h3, data]
      exact ⟨_, rfl, upd _, rfl, h4⟩
    | obs hp =>
      rw [hp] at hi
      generalize n.proc i = q at hi ⊢
      cases q <;> simp only [PProc.ofProc] at hi <;> cases hi
      exact ⟨_, rfl, upd _, h3, by dsimp only; rw [h4]⟩
    | poll r hp sound some =>
      rw [hp] at hi
      generalize n.proc i = q at hi
      cases q <;> simp only [PProc.ofProc] at hi <;> cases hi
    | read hp some fits data =>
      rw [hp] at hi
      generalize n.proc i = q at hi
      cases q <;> simp only [PProc.ofProc] at hi <;> cases hi

end DPPIR.PNet
