import Verif.Proofs.ForeignNet
import Verif.Props.Chain

/-!
# C76: a client and the rows the backend does not have
-/

namespace DPPIR.Props
open DPPIR Proc Onion Spec Protocol

variable {box : SealedBox}

/-- **C76** is false of the code.  Let the client of a deployment be configured with more
rows than the others, and let one of its queries be for a row that the backend does not
have.  Then, whatever the schedule and the capacities, with or without the offline stage:
the backend never returns; no other process stops abnormally; and a run goes on until the
backend has run into undefined behaviour, by a look-up outside of its database. -/
theorem C76_violated (c : Chain box) (h : c.Valid) (rows : Nat) (hr : c.rows ≤ rows) (hr' : rows ≤ 2 ^ 31 - 1) (offline : Bool)
    (j : Nat) (hj : j < c.count) (hout : c.rows ≤ Chain.wanted { c with rows := rows } j) (cap : Nat × Nat → Nat) (hcap : ∀ x, 0 < cap x) :
    ∃ N, ∀ s n, (c.netWithClient rows offline true).run cap s = some n →
      s.length ≤ N ∧ ¬ n.Finished c.parties ∧ (∀ i, i ≠ c.parties → ¬ n.Faulted i) ∧
      (n.CanStep cap ∨ n.proc c.parties = .fault .ub) ∧
      (n.proc c.parties = .fault .ub → ∃ key ∈ lookups (n.seen c.parties), c.rows ≤ key) := by
  have hP := h.parties
  obtain ⟨N, hN⟩ := Chain.mixed_runs h hr hr' offline true cap hcap
  refine ⟨N, fun s n hn => ?_⟩
  have hd : Net.DiesAt (Outside c.rows) c.parties (c.netWithClient rows offline true) (Net.start (c.mixed rows offline true)) := by
    refine ⟨fun i hi => ?_, rfl, rfl, Or.inr ⟨?_, ?_⟩⟩
    · show Function.update (c.prog offline true) 0 _ i = Chain.mixed _ _ _ _ _
      unfold Chain.mixed
      by_cases h0 : i = 0
      · subst h0
        rw [Function.update_self, if_pos rfl]
      · rw [Function.update_of_ne h0, if_neg h0, if_neg hi]
    · show Dies _ _ (Function.update (c.prog offline true) 0 _ _) (Chain.mixed _ _ _ _ _)
      unfold Chain.mixed
      rw [Function.update_of_ne (by omega), if_neg (by omega), if_pos rfl]
      have e : c.prog offline true c.parties = c.backend offline true := by
        unfold Chain.prog
        rw [if_neg (by omega), if_neg (by omega), if_pos rfl]
      rw [e]
      exact backend_dies c hr offline true
    · rintro ⟨o, ho, -⟩
      cases ho
  obtain ⟨m, hm, hdm⟩ := hd.run s hn
  obtain ⟨h1, h2, h3, h4⟩ := hN s m hm
  have hdead : m.Finished c.parties → n.proc c.parties = .fault .ub := by
    intro hf
    refine hdm.state.elim And.left fun hno => absurd ?_ hno.2
    rw [hdm.seen, h4 _ hf]
    have hlook : Chain.wanted { c with rows := rows } j ∈ lookups ((c.padded rows).obsAll offline true (c.parties - 1 + 1)) := by
      rw [Chain.lookups_backend (c.padded rows) offline (c.parties - 1) (by show _ = c.parties; omega)]
      refine (Chain.qs_keys (Chain.padded_valid h hr hr') offline (c.parties - 1) (by show _ < c.parties; omega)).mem_iff.2 ?_
      exact List.mem_append_left _ (List.mem_map.2 ⟨j, List.mem_range.2 hj, rfl⟩)
    rw [show c.parties - 1 + 1 = c.parties by omega] at hlook
    unfold lookups at hlook
    obtain ⟨o, ho, e⟩ := List.mem_filterMap.1 hlook
    refine ⟨o, ho, ?_⟩
    cases o <;> simp only [Option.some.injEq, reduceCtorEq] at e
    exact ⟨_, rfl, by rw [e]; exact hout⟩
  refine ⟨h1, ?_, ?_, ?_, ?_⟩
  · intro hf
    unfold Net.Finished at hf
    rcases hdm.state with ⟨hu, -⟩ | ⟨hdies, hno⟩
    · rw [hf] at hu
      cases hu
    rw [hf] at hdies
    have hmf : m.Finished c.parties := by
      unfold Net.Finished
      generalize m.proc c.parties = q at hdies
      cases hdies
      rfl
    have := hdead hmf
    rw [hf] at this
    cases this
  · rintro i hi ⟨e, he⟩
    rw [hdm.others i hi] at he
    exact h2 i ⟨e, he⟩
  · rcases h3 with h3 | h3
    · exact hdm.canStep h3
    · exact Or.inr (hdead (h3 _))
  · intro hu
    rcases hdm.state with ⟨-, o, ho, key, rfl, hk⟩ | ⟨hdies, -⟩
    · exact ⟨key, List.mem_filterMap.2 ⟨_, ho, rfl⟩, hk⟩
    · rw [hu] at hdies
      exfalso
      refine h2 c.parties ⟨.ub, ?_⟩
      generalize m.proc c.parties = q at hdies
      cases hdies
      rfl

/-- The example deployment has four rows.  Its client, told that there are a million, asks
for rows that do not exist, and the backend does not survive it. -/
example (cap : Nat × Nat → Nat) (hcap : ∀ x, 0 < cap x) (offline : Bool) :
    ∃ N, ∀ s n, (exampleChain.netWithClient 1000000 offline true).run cap s = some n →
      s.length ≤ N ∧ (n.CanStep cap ∨ n.proc exampleChain.parties = .fault .ub) := by
  obtain ⟨N, hN⟩ := C76_violated exampleChain exampleChain_valid 1000000 (by decide) (by decide) offline 1 (by decide) (by decide) cap hcap
  exact ⟨N, fun s n hn => ⟨(hN s n hn).1, (hN s n hn).2.2.2.1⟩⟩

end DPPIR.Props
