import Verif.Model.Crash
import Verif.Proofs.Process

/-!
# A run with crashes looks like the beginning of a run without
-/

namespace DPPIR

namespace Net
variable {ι O : Type} [DecidableEq ι]

/-- The network `m` without crashes looks like `n`: the processes that have not stopped
agree, and what is in transit from one that has may be less. -/
structure Like (n m : Net ι O) : Prop where
  seen : n.seen = m.seen
  proc : ∀ i, ¬ n.Faulted i → n.proc i = m.proc i
  chan : ∀ i j, n.chan (i, j) <+: m.chan (i, j)
  full : ∀ i j, ¬ n.Faulted i → n.chan (i, j) = m.chan (i, j)
  fault : ∀ i e, n.proc i = .fault e → e = .exception ∨ m.proc i = .fault e

theorem faulted_of_update {n : Net ι O} {p : Proc ι O Unit} {i j : ι} {ch : ι × ι → List Byte} {se : ι → List O} (hji : j ≠ i) :
    (⟨Function.update n.proc i p, ch, se⟩ : Net ι O).Faulted j ↔ n.Faulted j := by
  simp [Faulted, hji]

theorem Like.step {cap : ι × ι → Nat} {n n' m : Net ι O} (h : Like n m) {i : ι} (hs : n.step cap i = some n') :
    ∃ m', m.step cap i = some m' ∧ Like n' m' := by
  have hi : ¬ n.Faulted i := by
    rintro ⟨e, he⟩; simp [Net.step, he] at hs
  have hp := h.proc i hi
  have fall : ∀ (p : Proc ι O Unit) (ch : ι × ι → List Byte) (se : ι → List O) (j : ι),
      ¬ (⟨Function.update n.proc i p, ch, se⟩ : Net ι O).Faulted j → ¬ n.Faulted j := by
    intro p ch se j hj hf
    by_cases e : j = i
    · subst e; exact hi hf
    · exact hj ((faulted_of_update e).mpr hf)
  have faults : ∀ (p : Proc ι O Unit) (j : ι) (e : Fault), Function.update n.proc i p j = .fault e →
      e = .exception ∨ Function.update m.proc i p j = .fault e := by
    intro p j e he
    by_cases hj : j = i
    · subst hj; simp only [Function.update_self] at he ⊢; exact Or.inr he
    · simp only [Function.update_of_ne hj] at he ⊢; exact h.fault j e he
  have procs : ∀ (p : Proc ι O Unit) (ch : ι × ι → List Byte) (se : ι → List O) (j : ι),
      ¬ (⟨Function.update n.proc i p, ch, se⟩ : Net ι O).Faulted j →
      Function.update n.proc i p j = Function.update m.proc i p j := by
    intro p ch se j hj
    by_cases e : j = i
    · subst e; simp
    · simp only [Function.update_of_ne e]; exact h.proc j (fall _ _ _ j hj)
  unfold Net.step at hs ⊢
  rw [← hp]
  cases hn : n.proc i with
  | done a => simp [hn] at hs
  | fault e => simp [hn] at hs
  | send d b k =>
    simp only [hn] at hs ⊢
    rw [← h.full i d hi]
    split at hs
    · rename_i hroom
      rw [if_pos hroom]
      cases hs
      refine ⟨_, rfl, h.seen, procs _ _ _, ?_, ?_, faults _⟩
      · intro a c
        by_cases e : (a, c) = (i, d)
        · rw [e]; simp [h.full i d hi]
        · simp only [Function.update_of_ne e]; exact h.chan a c
      · intro a c hf
        by_cases e : (a, c) = (i, d)
        · rw [e]; simp
        · simp only [Function.update_of_ne e]; exact h.full a c (fall _ _ _ a hf)
    · cases hs
  | recv s k =>
    simp only [hn] at hs ⊢
    cases hc : n.chan (s, i) with
    | nil => rw [hc] at hs; cases hs
    | cons b rest =>
      rw [hc] at hs
      cases hs
      have hpre := h.chan s i
      rw [hc] at hpre
      obtain ⟨t, ht⟩ := hpre
      rw [List.cons_append] at ht
      rw [← ht]
      refine ⟨_, rfl, h.seen, procs _ _ _, ?_, ?_, faults _⟩
      · intro a c
        by_cases e : (a, c) = (s, i)
        · rw [e]; simp
        · simp only [Function.update_of_ne e]; exact h.chan a c
      · intro a c hf
        have hf' := fall _ _ _ a hf
        by_cases e : (a, c) = (s, i)
        · cases e
          have := h.full s i hf'
          rw [hc, ← ht] at this
          simp only [Function.update_self]
          exact (List.cons.inj this).2
        · simp only [Function.update_of_ne e]; exact h.full a c hf'
  | obs o k =>
    simp only [hn] at hs ⊢
    cases hs
    refine ⟨_, rfl, ?_, procs _ _ _, fun a c => h.chan a c, fun a c hf => h.full a c (fall _ _ _ a hf), faults _⟩
    show Function.update n.seen i _ = Function.update m.seen i _
    rw [h.seen]

/-- Every network reached with crashes looks like one reached without. -/
theorem CrashReach.like {cap : ι × ι → Nat} {n₀ n : Net ι O} (h : CrashReach cap n₀ n) :
    ∃ s m, n₀.run cap s = some m ∧ Like n m := by
  induction h with
  | refl => exact ⟨[], n₀, rfl, rfl, fun _ _ => rfl, fun _ _ => List.prefix_refl _, fun _ _ _ => rfl, fun _ _ h => Or.inr h⟩
  | step _ hs ih =>
    obtain ⟨s, m, hm, hl⟩ := ih
    cases hs with
    | step i h =>
      obtain ⟨m', hm', hl'⟩ := hl.step h
      refine ⟨s ++ [i], m', ?_, hl'⟩
      rw [run_append, hm]
      simp [run, hm']
    | crash i =>
      have hf : ∀ (n : Net ι O) j, ¬ ({ n with proc := Function.update n.proc i (.fault .exception) } : Net ι O).Faulted j →
          j ≠ i ∧ ¬ n.Faulted j := by
        intro n j hj
        have : j ≠ i := by rintro rfl; exact hj ⟨.exception, by simp⟩
        exact ⟨this, fun hh => hj ((faulted_of_update this).mpr hh)⟩
      refine ⟨s, m, hm, hl.seen, ?_, hl.chan, fun a b hab => hl.full a b (hf _ a hab).2, fun j e he => ?_⟩
      rotate_left
      · by_cases hj : j = i
        · subst hj
          simp only [Function.update_self] at he
          cases he
          exact Or.inl rfl
        · simp only [Function.update_of_ne hj] at he; exact hl.fault j e he
      intro j hj
      obtain ⟨h1, h2⟩ := hf _ j hj
      show Function.update _ i _ j = _
      rw [Function.update_of_ne h1]
      exact hl.proc j h2
    | lose i j down l rest =>
      refine ⟨s, m, hm, hl.seen, hl.proc, ?_, ?_, hl.fault⟩
      · intro a b
        by_cases e : (a, b) = (i, j)
        · cases e; simp only [Function.update_self]; exact rest.trans (hl.chan i j)
        · simp only [Function.update_of_ne e]; exact hl.chan a b
      · intro a b hab
        have e : (a, b) ≠ (i, j) := by rintro e; cases e; exact hab down
        simp only [Function.update_of_ne e]; exact hl.full a b hab

end Net

namespace PNet
variable {ι O α : Type} [DecidableEq ι]

/-- As `Net.Like`. -/
structure Like (n m : PNet ι O α) : Prop where
  seen : n.seen = m.seen
  proc : ∀ i, ¬ n.Faulted i → n.proc i = m.proc i
  chan : ∀ i j, n.chan (i, j) <+: m.chan (i, j)
  full : ∀ i j, ¬ n.Faulted i → n.chan (i, j) = m.chan (i, j)
  fault : ∀ i e, n.proc i = .fault e → e = .exception ∨ m.proc i = .fault e

theorem faulted_of_update {n : PNet ι O α} {p : PProc ι O α} {i j : ι} {ch : ι × ι → List Byte} {se : ι → List O} (hji : j ≠ i) :
    (⟨Function.update n.proc i p, ch, se⟩ : PNet ι O α).Faulted j ↔ n.Faulted j := by
  simp [Faulted, hji]

theorem Like.step {cap : ι × ι → Nat} {n n' m : PNet ι O α} (h : Like n m) {i : ι} (hs : Step cap i n n') :
    ∃ m', Step cap i m m' ∧ Like n' m' := by
  have hi : ¬ n.Faulted i := by
    rintro ⟨e, he⟩; cases hs <;> simp_all
  have hp := h.proc i hi
  have fall : ∀ (p : PProc ι O α) (ch : ι × ι → List Byte) (se : ι → List O) (j : ι),
      ¬ (⟨Function.update n.proc i p, ch, se⟩ : PNet ι O α).Faulted j → ¬ n.Faulted j := by
    intro p ch se j hj hf
    by_cases e : j = i
    · subst e; exact hi hf
    · exact hj ((faulted_of_update e).mpr hf)
  have faults : ∀ (p : PProc ι O α) (j : ι) (e : Fault), Function.update n.proc i p j = .fault e →
      e = .exception ∨ Function.update m.proc i p j = .fault e := by
    intro p j e he
    by_cases hj : j = i
    · subst hj; simp only [Function.update_self] at he ⊢; exact Or.inr he
    · simp only [Function.update_of_ne hj] at he ⊢; exact h.fault j e he
  have procs : ∀ (p : PProc ι O α) (ch : ι × ι → List Byte) (se : ι → List O) (j : ι),
      ¬ (⟨Function.update n.proc i p, ch, se⟩ : PNet ι O α).Faulted j →
      Function.update n.proc i p j = Function.update m.proc i p j := by
    intro p ch se j hj
    by_cases e : j = i
    · subst e; simp
    · simp only [Function.update_of_ne e]; exact h.proc j (fall _ _ _ j hj)
  cases hs with
  | @send d b k hq room =>
    refine ⟨_, .send (hp.symm.trans hq) (by rw [← h.full i d hi]; exact room), h.seen, procs _ _ _, ?_, ?_, faults _⟩
    · intro a c
      by_cases e : (a, c) = (i, d)
      · rw [e]; simp [h.full i d hi]
      · simp only [Function.update_of_ne e]; exact h.chan a c
    · intro a c hf
      by_cases e : (a, c) = (i, d)
      · rw [e]; simp [h.full i d hi]
      · simp only [Function.update_of_ne e]; exact h.full a c (fall _ _ _ a hf)
  | @recv s k b rest hq data =>
    obtain ⟨t, ht⟩ := h.chan s i
    rw [data, List.cons_append] at ht
    refine ⟨_, .recv (hp.symm.trans hq) ht.symm, h.seen, procs _ _ _, ?_, ?_, faults _⟩
    · intro a c
      by_cases e : (a, c) = (s, i)
      · rw [e]; simp
      · simp only [Function.update_of_ne e]; exact h.chan a c
    · intro a c hf
      have hf' := fall _ _ _ a hf
      by_cases e : (a, c) = (s, i)
      · cases e
        have := h.full s i hf'
        rw [data, ← ht] at this
        simp only [Function.update_self]
        exact (List.cons.inj this).2
      · simp only [Function.update_of_ne e]; exact h.full a c hf'
  | @obs o k hq =>
    refine ⟨_, .obs (hp.symm.trans hq), ?_, procs _ _ _, fun a c => h.chan a c, fun a c hf => h.full a c (fall _ _ _ a hf), faults _⟩
    show Function.update n.seen i _ = Function.update m.seen i _
    rw [h.seen]
  | @poll srcs block k ready hq sound some =>
    refine ⟨_, .poll ready (hp.symm.trans hq) (fun j hj => ⟨(sound j hj).1, fun e => ?_⟩) some, h.seen, procs _ _ _,
      fun a c => h.chan a c, fun a c hf => h.full a c (fall _ _ _ a hf), faults _⟩
    have := h.chan j i
    rw [e] at this
    exact (sound j hj).2 (List.prefix_nil.1 this)
  | @read s mx k c rest hq some fits data =>
    obtain ⟨t, ht⟩ := h.chan s i
    rw [data, List.append_assoc] at ht
    refine ⟨_, .read (hp.symm.trans hq) some fits ht.symm, h.seen, procs _ _ _, ?_, ?_, faults _⟩
    · intro a c
      by_cases e : (a, c) = (s, i)
      · rw [e]; simp
      · simp only [Function.update_of_ne e]; exact h.chan a c
    · intro a c' hf
      have hf' := fall _ _ _ a hf
      by_cases e : (a, c') = (s, i)
      · cases e
        have := h.full s i hf'
        rw [data, ← ht] at this
        simp only [Function.update_self]
        exact List.append_cancel_left this
      · simp only [Function.update_of_ne e]; exact h.full a c' hf'

/-- Every network reached with crashes looks like one reached without. -/
theorem CrashReach.like {cap : ι × ι → Nat} {n₀ n : PNet ι O α} (h : CrashReach cap n₀ n) :
    ∃ m, Reach cap n₀ m ∧ Like n m := by
  induction h with
  | refl => exact ⟨n₀, .refl, rfl, fun _ _ => rfl, fun _ _ => List.prefix_refl _, fun _ _ _ => rfl, fun _ _ h => Or.inr h⟩
  | step _ hs ih =>
    obtain ⟨m, hm, hl⟩ := ih
    cases hs with
    | step i h =>
      obtain ⟨m', hm', hl'⟩ := hl.step h
      exact ⟨m', .step hm hm', hl'⟩
    | crash i =>
      have hf : ∀ (n : PNet ι O α) j, ¬ ({ n with proc := Function.update n.proc i (.fault .exception) } : PNet ι O α).Faulted j →
          j ≠ i ∧ ¬ n.Faulted j := by
        intro n j hj
        have : j ≠ i := by rintro rfl; exact hj ⟨.exception, by simp⟩
        exact ⟨this, fun hh => hj ((faulted_of_update this).mpr hh)⟩
      refine ⟨m, hm, hl.seen, ?_, hl.chan, fun a b hab => hl.full a b (hf _ a hab).2, fun j e he => ?_⟩
      rotate_left
      · by_cases hj : j = i
        · subst hj
          simp only [Function.update_self] at he
          cases he
          exact Or.inl rfl
        · simp only [Function.update_of_ne hj] at he; exact hl.fault j e he
      intro j hj
      obtain ⟨h1, h2⟩ := hf _ j hj
      show Function.update _ i _ j = _
      rw [Function.update_of_ne h1]
      exact hl.proc j h2
    | lose i j down l rest =>
      refine ⟨m, hm, hl.seen, hl.proc, ?_, ?_, hl.fault⟩
      · intro a b
        by_cases e : (a, b) = (i, j)
        · cases e; simp only [Function.update_self]; exact rest.trans (hl.chan i j)
        · simp only [Function.update_of_ne e]; exact hl.chan a b
      · intro a b hab
        have e : (a, b) ≠ (i, j) := by rintro e; cases e; exact hab down
        simp only [Function.update_of_ne e]; exact hl.full a b hab

end PNet

end DPPIR
