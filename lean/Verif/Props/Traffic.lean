import Verif.Proofs.Traffic
import Verif.Spec.PrivateRun
import Verif.Props.Chain

/-!
# What the traffic of a deployment depends on (C68)
-/

namespace DPPIR.Props
open DPPIR Proc Onion Spec Protocol

variable {box : SealedBox}

/-- C68, how much: process `k` sends process `k + 1` a count of 4 bytes, in the offline
stage one cipher for each query, of 124 bytes for each party that is still to open it,
and in the online stage 12 bytes for each query; the other way come one byte after each
part of the offline stage, and 52 bytes for each query.  It is never more, not less once
the sender has returned, and no two other processes exchange anything. -/
theorem C68_traffic (c : Chain box) (h : c.Valid) (offline online : Bool) (cap : Nat × Nat → Nat) (s : List Nat)
    (n : Net Nat Obs) (hn : (c.net offline online).run cap s = some n) :
    let sent := fun i j => Net.traffic cap i j s (c.net offline online)
    (∀ k < c.parties,
      let down := 4 + (if offline then c.queries k * (124 * (c.parties - k)) else 0) + if online then c.queries k * 12 else 0
      let up := 1 + (if offline then 1 else 0) + if online then c.queries k * 52 else 0
      (sent k (k + 1) ≤ down ∧ (n.Finished k → sent k (k + 1) = down)) ∧
      (sent (k + 1) k ≤ up ∧ (n.Finished (k + 1) → sent (k + 1) k = up))) ∧
    ∀ i j, ¬ (j = i + 1 ∧ i < c.parties) → ¬ (i = j + 1 ∧ j < c.parties) → sent i j = 0 := by
  have hc := fun i => Chain.conversation_talk h offline online cap s n hn i
  simp only [Chain.talk_eq h] at hc
  have key : ∀ i j, Net.traffic cap i j s (c.net offline online) ≤
        (Chain.talkOf c.parties c.queries offline online i).count (true, j) ∧
      (n.Finished i → Net.traffic cap i j s (c.net offline online) =
        (Chain.talkOf c.parties c.queries offline online i).count (true, j)) := by
    intro i j
    refine ⟨(hc i).1.sublist.count_le _, fun hf => ?_⟩
    rw [Net.traffic, (hc i).2 hf]
  have hcount : ∀ i j, (Chain.talkOf c.parties c.queries offline online i).count (true, j) =
      (if i < c.parties ∧ j = i + 1 then 4 + (if offline then c.queries i * (124 * (c.parties - i)) else 0) +
        if online then c.queries i * 12 else 0 else 0) +
      if i ≤ c.parties ∧ i = j + 1 then 1 + (if offline then 1 else 0) + if online then c.queries j * 52 else 0 else 0 := by
    intro i j
    unfold Chain.talkOf
    cases offline <;> cases online <;> simp only [List.count_append, Chain.count_down, Chain.count_up, if_true,
      Bool.false_eq_true, if_false, List.count_nil] <;> split_ifs <;> omega
  refine ⟨fun k hk => ?_, fun i j h1 h2 => ?_⟩
  · have a := key k (k + 1)
    have b := key (k + 1) k
    rw [hcount] at a b
    rw [if_pos ⟨hk, rfl⟩, if_neg (show ¬ (k ≤ c.parties ∧ k = k + 1 + 1) by omega), Nat.add_zero] at a
    rw [if_neg (show ¬ (k + 1 < c.parties ∧ k = k + 1 + 1) by omega), if_pos ⟨hk, rfl⟩, Nat.zero_add] at b
    exact ⟨a, b⟩
  · have a := (key i j).1
    rw [hcount, if_neg (by omega : ¬ (i < c.parties ∧ j = i + 1)), if_neg (by omega : ¬ (i ≤ c.parties ∧ i = j + 1))] at a
    exact Nat.le_zero.1 a

/-- C68, what it depends on: two deployments with as many parties and as many queries
leaving each process.  Whatever else is different (keys asked for, database, encryption
keys, seeds, random choices), and whatever the schedules and socket buffers, what a
process sends to whom and takes from whom, byte for byte, is the same list in both, as
far as the run has got. -/
theorem C68_same_conversation {box' : SealedBox} (c : Chain box) (c' : Chain box') (h : c.Valid) (h' : c'.Valid)
    (hp : c.parties = c'.parties) (hq : ∀ k < c.parties, c.queries k = c'.queries k) (offline online : Bool)
    (cap cap' : Nat × Nat → Nat) (s s' : List Nat) (n n' : Net Nat Obs)
    (hn : (c.net offline online).run cap s = some n) (hn' : (c'.net offline online).run cap' s' = some n') (i : Nat) :
    let l := Net.conversation cap i s (c.net offline online)
    let l' := Net.conversation cap' i s' (c'.net offline online)
    (l <+: l' ∨ l' <+: l) ∧ (n.Finished i → l' <+: l) ∧ (n.Finished i → n'.Finished i → l = l') := by
  have a := Chain.conversation_talk h offline online cap s n hn i
  have b := Chain.conversation_talk h' offline online cap' s' n' hn' i
  rw [Chain.talk_eq h] at a
  rw [Chain.talk_eq h', ← hp, ← Chain.talkOf_congr hq] at b
  refine ⟨List.prefix_or_prefix_of_prefix a.1 b.1, fun hf => ?_, fun hf hf' => ?_⟩
  · rw [a.2 hf]
    exact b.1
  · rw [a.2 hf, b.2 hf']

/-- C68, for the keys: a client that asks for other keys, all else equal, has the same
conversations take place. -/
theorem C68_keys_do_not_show (c : Chain box) (h : c.Valid) (row : Nat → Nat) (offline online : Bool)
    (cap cap' : Nat × Nat → Nat) (s s' : List Nat) (n n' : Net Nat Obs)
    (hn : (c.net offline online).run cap s = some n) (hn' : ((c.asking row).net offline online).run cap' s' = some n')
    (i : Nat) (hi : n.Finished i) (hi' : n'.Finished i) :
    Net.conversation cap i s (c.net offline online) = Net.conversation cap' i s' ((c.asking row).net offline online) := by
  have hq : ∀ k, (c.asking row).queries k = c.queries k := by
    intro k
    induction k with
    | zero => rfl
    | succ k ih => simp only [Chain.queries, ih]; rfl
  have h' : (c.asking row).Valid :=
    ⟨h.parties, h.rows, h.keys, h.pairs, h.division, by rw [hq]; exact h.fits⟩
  exact (C68_same_conversation c (c.asking row) h h' rfl (fun k _ => (hq k).symm) offline online cap cap' s s' n n' hn hn' i).2.2
    hi hi'

/-- With 2 queries of the client, 3 parties and 4 noise queries of each party, both
stages, and queues of one byte. -/
example : exampleChain.Valid ∧ ∃ s n, (exampleChain.net true true).run (fun _ => 1) s = some n ∧ (∀ i, n.Finished i) ∧
    Net.traffic (fun _ => 1) 0 1 s (exampleChain.net true true) = 4 + 2 * (124 * 3) + 2 * 12 ∧
    Net.traffic (fun _ => 1) 2 3 s (exampleChain.net true true) = 4 + 10 * 124 + 10 * 12 ∧
    Net.traffic (fun _ => 1) 3 2 s (exampleChain.net true true) = 2 + 10 * 52 ∧
    Net.traffic (fun _ => 1) 3 0 s (exampleChain.net true true) = 0 := by
  obtain ⟨s, n, h1, h2, -, -⟩ := Chain.complete_run exampleChain_valid true true (fun _ => 1) (fun _ => Nat.one_pos)
  obtain ⟨h3, h4⟩ := C68_traffic exampleChain exampleChain_valid true true _ s n h1
  refine ⟨exampleChain_valid, s, n, h1, h2, ?_, ?_, ?_, h4 3 0 (by decide) (by decide)⟩
  · exact (h3 0 (by decide)).1.2 (h2 0)
  · exact (h3 2 (by decide)).1.2 (h2 2)
  · exact (h3 2 (by decide)).2.2 (h2 3)

/-- Another key: there is a complete run of the changed deployment too. -/
example : (exampleChain.asking (fun _ => 0)).wanted 0 ≠ exampleChain.wanted 0 ∧
    ∃ s n, ((exampleChain.asking (fun _ => 0)).net true true).run (fun _ => 3) s = some n ∧ ∀ i, n.Finished i := by
  refine ⟨by decide, ?_⟩
  have hv : (exampleChain.asking (fun _ => 0)).Valid :=
    ⟨exampleChain_valid.parties, exampleChain_valid.rows, exampleChain_valid.keys, exampleChain_valid.pairs,
      exampleChain_valid.division, by decide⟩
  obtain ⟨s, n, h1, h2, -, -⟩ := Chain.complete_run hv true true (fun _ => 3) (fun _ => Nat.succ_pos _)
  exact ⟨s, n, h1, h2⟩

end DPPIR.Props
