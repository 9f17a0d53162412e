import Verif.Model.ReadAhead
import Verif.Proofs.Polling

/-!
# Networks with read buffers, and networks without
-/

namespace DPPIR.RNet
open Proc PNet
variable {ι O α β : Type}

/-- A program calls `poll` and `read` only for connections without a read buffer. -/
inductive Direct (links : ι × ι → Prop) (i : ι) : PProc ι O α → Prop where
  | done (a) : Direct links i (.done a)
  | fault (e) : Direct links i (.fault e)
  | send {d b k} : Direct links i k → Direct links i (.send d b k)
  | recv {s k} : (∀ b, Direct links i (k b)) → Direct links i (.recv s k)
  | obs {o k} : Direct links i k → Direct links i (.obs o k)
  | poll {srcs block k} : (∀ s ∈ srcs, ¬ links (s, i)) → (∀ r, Direct links i (k r)) → Direct links i (.poll srcs block k)
  | read {s m k} : ¬ links (s, i) → (∀ c, Direct links i (k c)) → Direct links i (.read s m k)

section
variable {links : ι × ι → Prop} {i : ι}

theorem Direct.bind {p : PProc ι O α} {f : α → PProc ι O β} (h : Direct links i p) (hf : ∀ a, Direct links i (f a)) :
    Direct links i (p.bind f) := by
  induction h with
  | done a => exact hf a
  | fault e => exact .fault e
  | send _ ih => exact .send ih
  | recv _ ih => exact .recv ih
  | obs _ ih => exact .obs ih
  | poll h _ ih => exact .poll h ih
  | read h _ ih => exact .read h ih

theorem Direct.ofProc (p : Proc ι O α) : Direct links i (PProc.ofProc p) := by
  induction p with
  | done a => exact .done a
  | fault e => exact .fault e
  | send _ _ _ ih => exact .send ih
  | recv _ _ ih => exact .recv ih
  | obs _ _ ih => exact .obs ih

theorem Direct.next {p q : PProc ι O α} (h : Direct links i p) (hn : Next q p) : Direct links i q := by
  cases hn with
  | send => cases h; assumption
  | recv b => cases h with | recv h => exact h b
  | obs => cases h; assumption
  | poll r => cases h with | poll _ h => exact h r
  | read c => cases h with | read _ h => exact h c

end

variable [DecidableEq ι]

/-- The same network with the bytes in the buffers still in transit. -/
def unread (n : RNet ι O α) : PNet ι O α := { n.toPNet with chan := fun c => n.ahead c ++ n.chan c }

/-- Connections without a read buffer have nothing in it; processes use `read` and `poll`
only on such connections. -/
structure Clean (links : ι × ι → Prop) (n : RNet ι O α) : Prop where
  ahead : ∀ c, ¬ links c → n.ahead c = []
  direct : ∀ i, Direct links i (n.proc i)

variable {links : ι × ι → Prop} {cap : ι × ι → Nat}

omit [DecidableEq ι] in
theorem Clean.start {proc : ι → PProc ι O α} (h : ∀ i, Direct links i (proc i)) : Clean links (RNet.start proc) :=
  ⟨fun _ _ => rfl, h⟩

omit [DecidableEq ι] in
theorem unread_start (proc : ι → PProc ι O α) : (RNet.start proc).unread = PNet.start proc := rfl

/-- Larger connections allow more. -/
theorem step_mono {cap' : ι × ι → Nat} (hc : ∀ c, cap c ≤ cap' c) {i : ι} {n m : PNet ι O α} (h : PNet.Step cap i n m) :
    PNet.Step cap' i n m := by
  cases h with
  | send h room => exact .send h (lt_of_lt_of_le room (hc _))
  | recv h data => exact .recv h data
  | obs h => exact .obs h
  | poll r h a b => exact .poll r h a b
  | read h a b c => exact .read h a b c

theorem reach_mono {cap' : ι × ι → Nat} (hc : ∀ c, cap c ≤ cap' c) {n m : PNet ι O α} (h : PNet.Reach cap n m) :
    PNet.Reach cap' n m := by
  induction h with
  | refl => exact .refl
  | step _ s ih => exact ih.step (step_mono hc s)

/-- A step with read buffers is a step without them, on connections with more room, or
none. -/
theorem Step.unread {i : ι} {n m : RNet ι O α} (hn : Clean links n) (h : Step links cap i n m) :
    Clean links m ∧ (m.unread = n.unread ∨ ∃ cap', PNet.Step cap' i n.unread m.unread) := by
  cases h with
  | plain h direct =>
    rename_i m'
    have hnext := h.next
    refine ⟨⟨hn.ahead, fun j => ?_⟩, ?_⟩
    · obtain ⟨q, h1, h2⟩ := hnext
      show Direct links j (m'.proc j)
      rw [h2]
      by_cases hj : j = i
      · subst hj
        rw [Function.update_self]
        exact (hn.direct j).next h1
      · rw [Function.update_of_ne hj]
        exact hn.direct j
    · right
      cases h with
      | send h room =>
        rename_i d b k
        refine ⟨fun c => (n.ahead c ++ n.chan c).length + 1, ?_⟩
        have := PNet.Step.send (cap := fun c => (n.ahead c ++ n.chan c).length + 1) (n := n.unread) (i := i) (d := d) (b := b)
          (k := k) h (by simp [RNet.unread])
        convert this using 1
        simp only [RNet.unread, PNet.mk.injEq, true_and, and_true]
        funext c
        by_cases hc : c = (i, d)
        · subst hc; simp
        · simp [Function.update_of_ne hc]
      | recv h data =>
        rename_i s k b rest
        have hl := direct s k h
        refine ⟨cap, ?_⟩
        have := PNet.Step.recv (cap := cap) (n := n.unread) (i := i) (s := s) (b := b) (rest := rest)
          (k := k) h (by simp [RNet.unread, hn.ahead _ hl, data])
        convert this using 1
        simp only [RNet.unread, PNet.mk.injEq, true_and, and_true]
        funext c
        by_cases hc : c = (s, i)
        · subst hc; simp [hn.ahead _ hl]
        · simp [Function.update_of_ne hc]
      | obs h =>
        refine ⟨cap, ?_⟩
        exact PNet.Step.obs (cap := cap) (n := n.unread) h
      | poll r h a b =>
        refine ⟨cap, ?_⟩
        exact PNet.Step.poll (cap := cap) (n := n.unread) r h
          (fun j hj => ⟨(a j hj).1, by simp [RNet.unread, (a j hj).2]⟩) b
      | read h a b data =>
        rename_i s m k c rest
        have hl : ¬ links (s, i) := by
          have := hn.direct i
          rw [show n.proc i = _ from h] at this
          cases this; assumption
        refine ⟨cap, ?_⟩
        have := PNet.Step.read (cap := cap) (n := n.unread) (i := i) (s := s) (c := c) (rest := rest)
          (k := k) h a b (by simp [RNet.unread, hn.ahead _ hl, data])
        convert this using 1
        simp only [RNet.unread, PNet.mk.injEq, true_and, and_true]
        funext x
        by_cases hc : x = (s, i)
        · subst hc; simp [hn.ahead _ hl]
        · simp [Function.update_of_ne hc]
  | take h link data =>
    rename_i s k b rest
    refine ⟨⟨fun c hc => ?_, fun j => ?_⟩, .inr ⟨cap, ?_⟩⟩
    · show Function.update n.ahead (s, i) rest c = []
      rw [Function.update_of_ne (by rintro rfl; exact hc link)]
      exact hn.ahead c hc
    · show Direct links j (Function.update n.proc i (k b) j)
      by_cases hj : j = i
      · subst hj
        rw [Function.update_self]
        have := hn.direct j
        rw [h] at this
        cases this with | recv h => exact h b
      · rw [Function.update_of_ne hj]
        exact hn.direct j
    · have := PNet.Step.recv (cap := cap) (n := n.unread) (i := i) (s := s) (b := b) (rest := rest ++ n.chan (s, i))
        (k := k) h (by simp [RNet.unread, data])
      convert this using 1
      simp only [RNet.unread, PNet.mk.injEq, true_and, and_true]
      funext x
      by_cases hc : x = (s, i)
      · subst hc; simp
      · simp [Function.update_of_ne hc]
  | fill h link empty some data =>
    rename_i s k c rest
    refine ⟨⟨fun x hx => ?_, hn.direct⟩, .inl ?_⟩
    · show Function.update n.ahead (s, i) c x = []
      rw [Function.update_of_ne (by rintro rfl; exact hx link)]
      exact hn.ahead x hx
    · simp only [RNet.unread, PNet.mk.injEq, true_and, and_true]
      funext x
      by_cases hc : x = (s, i)
      · subst hc; simp [empty, data]
      · simp [Function.update_of_ne hc]

/-- Every state of a network with read buffers is one of the network without, on
connections with enough room. -/
theorem Reach.unread {n m : RNet ι O α} (hn : Clean links n) (h : Reach links cap n m) :
    Clean links m ∧ ∃ cap', PNet.Reach cap' n.unread m.unread := by
  induction h with
  | refl => exact ⟨hn, fun _ => 0, .refl⟩
  | step _ s ih =>
    obtain ⟨h1, c1, h2⟩ := ih
    obtain ⟨h3, h4⟩ := s.unread h1
    refine ⟨h3, ?_⟩
    rcases h4 with h4 | ⟨c2, h4⟩
    · rw [h4]; exact ⟨c1, h2⟩
    · exact ⟨fun c => max (c1 c) (c2 c), (reach_mono (fun c => le_max_left _ _) h2).step (step_mono (fun c => le_max_right _ _) h4)⟩

/-- What can move without read buffers can move with them. -/
theorem canStep_unread {n : RNet ι O α} (hn : Clean links n) (h : n.unread.CanStep cap) : n.CanStep links cap := by
  obtain ⟨i, m, h⟩ := h
  cases h with
  | send h room =>
    exact ⟨i, _, .plain (PNet.Step.send (n := n.toPNet) h (by
      simp only [RNet.unread, List.length_append] at room; omega)) (fun s k e => by
        have : n.proc i = _ := h
        rw [this] at e; cases e)⟩
  | recv h data =>
    rename_i s k b rest
    have h : n.proc i = .recv s k := h
    by_cases hl : links (s, i)
    · match ha : n.ahead (s, i) with
      | b' :: r => exact ⟨i, _, .take h hl ha⟩
      | [] =>
        have : n.chan (s, i) = (b :: rest) ++ [] := by
          simpa [RNet.unread, ha] using data
        exact ⟨i, _, .fill h hl ha (by simp) this⟩
    · refine ⟨i, _, .plain (PNet.Step.recv (n := n.toPNet) h (b := b) (rest := rest) ?_) (fun s' k' e => ?_)⟩
      · simpa [RNet.unread, hn.ahead _ hl] using data
      · rw [h] at e; cases e; exact hl
  | obs h =>
    exact ⟨i, _, .plain (PNet.Step.obs (n := n.toPNet) h) (fun s k e => by
        have : n.proc i = _ := h
        rw [this] at e; cases e)⟩
  | poll r h a b =>
    refine ⟨i, _, .plain (PNet.Step.poll (n := n.toPNet) r h (fun j hj => ?_) b) (fun s k e => by
        have : n.proc i = _ := h
        rw [this] at e; cases e)⟩
    obtain ⟨h1, h2⟩ := a j hj
    have hl : ¬ links (j, i) := by
      have := hn.direct i
      rw [show n.proc i = _ from h] at this
      cases this with | poll h' _ => exact h' j h1
    exact ⟨h1, by simpa [RNet.unread, hn.ahead _ hl] using h2⟩
  | read h a b data =>
    rename_i s m k c rest
    have hl : ¬ links (s, i) := by
      have := hn.direct i
      rw [show n.proc i = _ from h] at this
      cases this; assumption
    exact ⟨i, _, .plain (PNet.Step.read (n := n.toPNet) h a b (rest := rest) (by
      simpa [RNet.unread, hn.ahead _ hl] using data)) (fun s k e => by
        have : n.proc i = _ := h
        rw [this] at e; cases e)⟩

/-! ### Termination -/

/-- Process `i` waits for a byte that is not in its buffer. -/
def Hungry (n : RNet ι O α) (i : ι) : Prop := ∃ s k, n.proc i = .recv s k ∧ n.ahead (s, i) = []

open Classical in
/-- Programs left, and processes that may fill a buffer. -/
noncomputable def measure (S : Finset ι) (n : RNet ι O α) : Multiset (PProc ι O α) × Nat :=
  (S.val.map n.proc, (S.filter (fun i => n.Hungry i)).card)

theorem cutExpand_update (S : Finset ι) (f : ι → PProc ι O α) {j : ι} (hj : j ∈ S) {q : PProc ι O α} (h : Next q (f j)) :
    Relation.CutExpand Next (S.val.map (Function.update f j q)) (S.val.map f) := by
  refine ⟨{q}, f j, by simpa using h, ?_⟩
  obtain ⟨T, hT⟩ := Multiset.exists_cons_of_mem (show j ∈ S.val from hj)
  have hjT : j ∉ T := by
    have := S.nodup
    rw [hT, Multiset.nodup_cons] at this
    exact this.1
  rw [hT, Multiset.map_cons, Multiset.map_cons, Function.update_self]
  have : Multiset.map (Function.update f j q) T = Multiset.map f T :=
    Multiset.map_congr rfl (fun x hx => Function.update_of_ne (by rintro rfl; exact hjT hx) _ _)
  rw [this, ← Multiset.singleton_add, ← Multiset.singleton_add, add_comm, ← add_assoc, add_assoc, add_assoc]
  congr 1
  exact add_comm _ _

/-- What a step does to the programs. -/
theorem Step.next {i : ι} {n m : RNet ι O α} (h : Step links cap i n m) :
    (∃ q, Next q (n.proc i) ∧ m.proc = Function.update n.proc i q) ∨
    (m.proc = n.proc ∧ n.Hungry i ∧ ¬ m.Hungry i ∧ ∀ j, j ≠ i → (m.Hungry j ↔ n.Hungry j)) := by
  cases h with
  | plain h direct => exact .inl h.next
  | take h link data => exact .inl ⟨_, h ▸ .recv _, rfl⟩
  | fill h link empty some data =>
    rename_i s k c rest
    refine .inr ⟨rfl, ⟨s, k, h, empty⟩, ?_, fun j hj => ?_⟩
    · rintro ⟨s', k', h1, h2⟩
      have h1 : n.proc i = _ := h1
      rw [h] at h1
      cases h1
      simp only [Function.update_self] at h2
      exact some h2
    · have : ∀ s', Function.update n.ahead (s, i) c (s', j) = n.ahead (s', j) :=
        fun s' => Function.update_of_ne (by rintro ⟨⟩; exact hj rfl) _ _
      simp only [Hungry, this]

/-- No network of finitely many processes with read buffers runs for ever. -/
theorem no_infinite_run (S : Finset ι) (f : Nat → RNet ι O α) (hS : ∀ i ∉ S, ∃ a, (f 0).Returned i a) :
    ¬ ∀ k, ∃ i, Step links cap i (f k) (f (k + 1)) := by
  classical
  intro h
  have hstuck : ∀ (n : RNet ι O α) i a, n.proc i = .done a → ∀ m, ¬ Step links cap i n m := by
    intro n i a ha m hs
    rcases hs.next with ⟨q, h1, -⟩ | ⟨-, ⟨s, k, h1, -⟩, -⟩
    · rw [ha] at h1; cases h1
    · rw [ha] at h1; cases h1
  have hfin : ∀ k, ∀ i ∉ S, ∃ a, (f k).proc i = .done a := by
    intro k
    induction k with
    | zero => exact hS
    | succ k ih =>
      intro i hi
      obtain ⟨j, hj⟩ := h k
      have hij : i ≠ j := by
        rintro rfl
        obtain ⟨a, ha⟩ := ih i hi
        exact hstuck _ _ _ ha _ hj
      rcases hj.next with ⟨q, h1, h2⟩ | ⟨h2, -⟩
      · rw [h2, Function.update_of_ne hij]
        exact ih i hi
      · rw [h2]; exact ih i hi
  have hwf : WellFounded (Prod.Lex (Relation.CutExpand (Next (ι := ι) (O := O) (α := α))) (fun a b : Nat => a < b)) :=
    next_wf.cutExpand.prod_lex Nat.lt_wfRel.wf
  have hdec : ∀ k, Prod.Lex (Relation.CutExpand Next) (fun a b : Nat => a < b) (measure S (f (k + 1))) (measure S (f k)) := by
    intro k
    obtain ⟨j, hj⟩ := h k
    have hjS : j ∈ S := by
      by_contra hn
      obtain ⟨a, ha⟩ := hfin k j hn
      exact hstuck _ _ _ ha _ hj
    rcases hj.next with ⟨q, h1, h2⟩ | ⟨h2, h3, h4, h5⟩
    · refine .left _ _ ?_
      rw [h2]
      exact cutExpand_update S _ hjS h1
    · unfold measure
      rw [h2]
      refine .right _ (Finset.card_lt_card ?_)
      refine Finset.ssubset_iff_subset_ne.2 ⟨fun i hi => ?_, fun e => ?_⟩
      · simp only [Finset.mem_filter] at hi ⊢
        refine ⟨hi.1, ?_⟩
        by_cases hij : i = j
        · subst hij; exact absurd hi.2 h4
        · exact (h5 i hij).1 hi.2
      · have : j ∈ S.filter (fun i => (f k).Hungry i) := by simp [hjS, h3]
        rw [← e] at this
        exact h4 (by simpa using (Finset.mem_filter.1 this).2)
  exact (wellFounded_iff_isEmpty_descending_chain.1 hwf).elim ⟨fun k => measure S (f k), hdec⟩

/-- A network with read buffers of programs that follow a global order. -/
theorem script_net {cap' : ι × ι → Nat} {G : List (GSeg ι)} (hG : ∀ g ∈ G, GSeg.Ok cap' g) {proc : ι → PProc ι O α}
    {L : ι → List (Seg ι O)} {Q : ι → α → Prop} (hd : ∀ i, PProc.Does (Q i) (proc i) (L i)) (hL : ∀ i, segComm (L i) = proj i G)
    (hdir : ∀ i, Direct links i (proc i)) {n : RNet ι O α} (hr : Reach links cap (RNet.start proc) n) :
    (∀ i, ¬ n.Faulted i) ∧ (∀ i, n.seen i <+: segObs (L i)) ∧
    (∀ i a, n.Returned i a → Q i a ∧ n.seen i = segObs (L i)) ∧
    ((∀ g ∈ G, GSeg.Ok cap g) → n.CanStep links cap ∨
      (∀ i, ∃ a, n.Returned i a) ∧ (∀ c, n.chan c = []) ∧ ∀ c, n.ahead c = []) := by
  obtain ⟨h1, c1, h2⟩ := hr.unread (Clean.start hdir)
  rw [unread_start] at h2
  obtain ⟨a1, a2, a3⟩ := script_safe hG hd hL h2
  refine ⟨a1, a2, a3, fun hG => ?_⟩
  obtain ⟨L', hinv⟩ := (Inv.start hG hd hL).reach h2
  rcases hinv.progress hG with b | b
  · exact .inl (canStep_unread h1 b)
  · refine .inr ⟨fun i => ?_, fun c => ?_, fun c => ?_⟩
    · obtain ⟨⟨a, ha, -⟩, -⟩ := b.1 i
      exact ⟨a, ha⟩
    · have := b.2 c
      simp only [RNet.unread, List.append_eq_nil_iff] at this
      exact this.2
    · have := b.2 c
      simp only [RNet.unread, List.append_eq_nil_iff] at this
      exact this.1

end DPPIR.RNet
