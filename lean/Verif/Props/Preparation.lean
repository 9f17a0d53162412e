import Verif.Spec.Preparation
import Verif.Spec.PrivateRun
import Verif.Proofs.GridOrder
import Verif.Props.Chain
import Verif.Props.Grid
import Verif.Props.Loops

/-!
# The offline stage does not depend on the keys (C70)
-/

namespace DPPIR.Props
open DPPIR Proc PNet Onion Spec Protocol

variable {box : SealedBox}

theorem preparation_prefix {l l' : List Obs} (h : l <+: l') : preparation l <+: preparation l' := by
  obtain ⟨r, rfl⟩ := h
  unfold preparation
  rw [List.filter_append]
  exact List.prefix_append _ _

theorem preparation_chain (c : Chain box) (offline online : Bool) (i : Nat) :
    preparation (c.obsAll offline online i) = preparation (c.obsOff offline i) := by
  have : preparation (if online then c.obsOn offline i else []) = [] := by
    unfold preparation
    rw [List.filter_eq_nil_iff]
    intro o ho
    split at ho
    · unfold Chain.obsOn at ho
      split_ifs at ho <;> simp only [List.mem_append, List.mem_flatMap, List.mem_map, List.mem_cons, List.not_mem_nil, or_false] at ho <;>
        grind [Obs.prepares]
    · simp at ho
  unfold Chain.obsAll
  unfold preparation at this ⊢
  rw [List.filter_append, this, List.append_nil]

theorem preparation_grid (g : Grid box) (offline online : Bool) (i s : Nat) :
    preparation (g.obsAll offline online i s) = preparation (g.obsOff offline i s) := by
  have : preparation (if online then g.obsOn offline i s else []) = [] := by
    unfold preparation
    rw [List.filter_eq_nil_iff]
    intro o ho
    split at ho
    · unfold Grid.obsOn at ho
      split_ifs at ho <;> simp only [List.mem_append, List.mem_flatMap, List.mem_map, List.mem_cons, List.not_mem_nil, or_false] at ho <;>
        grind [Obs.prepares]
    · simp at ho
  unfold Grid.obsAll
  unfold preparation at this ⊢
  rw [List.filter_append, this, List.append_nil]

private theorem asking_queries (c : Chain box) (row : Nat → Nat) (k : Nat) : (c.asking row).queries k = c.queries k := by
  induction k with
  | zero => rfl
  | succ k ih => simp only [Chain.queries, ih]; rfl

private theorem asking_valid (c : Chain box) (h : c.Valid) (row : Nat → Nat) : (c.asking row).Valid :=
  ⟨h.parties, h.rows, h.keys, h.pairs, h.division, by rw [asking_queries]; exact h.fits⟩

theorem asking_obsOff (c : Chain box) (row : Nat → Nat) (offline : Bool) (i : Nat) :
    (c.asking row).obsOff offline i = c.obsOff offline i := by
  have ht : ∀ k, (c.asking row).tickets k = c.tickets k := by
    intro k
    induction k with
    | zero => rfl
    | succ k ih =>
      simp only [Chain.tickets, ih]
      unfold Chain.shuf
      simp only [asking_queries]
      rfl
  unfold Chain.obsOff
  simp only [ht, asking_queries]
  rfl

private theorem asking_total (g : Grid box) (t : Nat) (row : Nat → Nat) (k : Nat) : (g.asking t row).total k = g.total k := by
  induction k with
  | zero => rfl
  | succ k ih => simp only [Grid.total, ih]; rfl

private theorem asking_load (g : Grid box) (t : Nat) (row : Nat → Nat) : (g.asking t row).load = g.load := by
  funext k s
  cases k with
  | zero => rfl
  | succ k => simp only [Grid.load, asking_total]; rfl

private theorem asking_grid_valid (g : Grid box) (h : g.Valid) (t : Nat) (row : Nat → Nat) : (g.asking t row).Valid :=
  ⟨h.parties, h.servers, h.rows, h.ranges, h.keys, h.pairs, h.division, h.order, h.backendOrder, by rw [asking_total]; exact h.fits⟩

private theorem asking_tags (g : Grid box) (t : Nat) (row : Nat → Nat) (hd : g.DistinctTags) : (g.asking t row).DistinctTags := by
  have : (g.asking t row).allTags = g.allTags := by
    unfold Grid.allTags Grid.noiseTag
    simp only [asking_total]
    rfl
  unfold Grid.DistinctTags
  rw [this]
  exact hd

private theorem asking_slot (g : Grid box) (t : Nat) (row : Nat → Nat) (k s : Nat) : (g.asking t row).slot k s = g.slot k s := by
  unfold Grid.slot
  rw [asking_load]
  rfl

theorem asking_grid_obsOff (g : Grid box) (t : Nat) (row : Nat → Nat) (offline : Bool) (i s : Nat) :
    (g.asking t row).obsOff offline i s = g.obsOff offline i s := by
  have hsec : ∀ s i, (((g.asking t row).clientRand s).secret i) = (g.clientRand s).secret i := by
    intro s i
    unfold Grid.asking
    by_cases e : s = t
    · subst e; simp
    · simp [e]
  have hnt : ∀ k, (g.asking t row).noiseTs k = g.noiseTs k := by
    intro k
    funext s
    unfold Grid.noiseTs Grid.noiseTag
    simp only [asking_total]
    rfl
  have hdst : ∀ k, (g.asking t row).dests k = g.dests k := by
    intro k
    unfold Grid.dests
    rw [asking_slot]
  have ht : ∀ k, (g.asking t row).tickets k = g.tickets k := by
    intro k
    induction k with
    | zero =>
      funext s
      simp only [Grid.tickets, hsec]
      rfl
    | succ k ih =>
      funext s
      simp only [Grid.tickets, ih, hnt, hdst, asking_slot]
      rfl
  unfold Grid.obsOff
  simp only [ht, asking_load]
  rfl

/-- C70, one server per party: let the client ask for other keys, all else equal.
Whatever the schedules and socket buffers and the stages, the counts, ready messages,
ciphers and secrets that a process sends, reads and installs are the same in both
deployments, in the same order, as far as the runs have got. -/
theorem C70_preparation (c : Chain box) (h : c.Valid) (row : Nat → Nat) (offline online : Bool) (cap cap' : Nat × Nat → Nat)
    (hcap : ∀ x, 0 < cap x) (hcap' : ∀ x, 0 < cap' x) (s s' : List Nat) (n n' : Net Nat Obs)
    (hn : (c.net offline online).run cap s = some n) (hn' : ((c.asking row).net offline online).run cap' s' = some n') (i : Nat) :
    let l := preparation (n.seen i)
    let l' := preparation (n'.seen i)
    (l <+: l' ∨ l' <+: l) ∧ (n.Finished i → l' <+: l) ∧ (n.Finished i → n'.Finished i → l = l') := by
  obtain ⟨N, hN⟩ := Chain.every_run h offline online cap hcap
  obtain ⟨N', hN'⟩ := Chain.every_run (asking_valid c h row) offline online cap' hcap'
  have a := preparation_prefix ((hN s n hn).2.2.2.1 i)
  have b := preparation_prefix ((hN' s' n' hn').2.2.2.1 i)
  rw [preparation_chain] at a
  rw [preparation_chain, asking_obsOff] at b
  refine ⟨List.prefix_or_prefix_of_prefix a b, fun hf => ?_, fun hf hf' => ?_⟩
  · rw [Chain.finished_seen h offline online cap hcap hn hf, preparation_chain]
    exact b
  · rw [Chain.finished_seen h offline online cap hcap hn hf, preparation_chain,
      Chain.finished_seen (asking_valid c h row) offline online cap' hcap' hn' hf', preparation_chain, asking_obsOff]

/-- C70, one server per party, with the receive loops of the code. -/
theorem C70_preparation_loops (c : Chain box) (h : c.Valid) (row : Nat → Nat) (offline online : Bool) (cap cap' : Nat × Nat → Nat)
    (n n' : PNet Nat Obs Unit) (hn : Reach cap (c.netLoops offline online) n)
    (hn' : Reach cap' ((c.asking row).netLoops offline online) n') (i : Nat) :
    let l := preparation (n.seen i)
    let l' := preparation (n'.seen i)
    (l <+: l' ∨ l' <+: l) ∧ (n.Returned i () → l' <+: l) ∧ (n.Returned i () → n'.Returned i () → l = l') := by
  obtain ⟨d, s, m, h1, h2, h3, h4, -⟩ := C60_loops_refine c h.parties.2 offline online cap n hn i
  obtain ⟨d', s', m', h1', h2', h3', h4', -⟩ := C60_loops_refine (c.asking row) h.parties.2 offline online cap' n' hn' i
  have := C70_preparation c h row offline online d d' h1 h1' s s' m m' h2 h2' i
  rw [h3, h3'] at this
  exact ⟨this.1, fun hf => this.2.1 (h4 hf), fun hf hf' => this.2.2 (h4 hf) (h4' hf')⟩

/-- C70, several servers per party: the client of server `t` asks for other keys. -/
theorem C70_preparation_parallel (g : Grid box) (h : g.Valid) (t : Nat) (row : Nat → Nat) (offline online : Bool)
    (hd : offline = true → g.DistinctTags) (cap cap' : Node × Node → Nat) (n n' : PNet Node Obs Unit)
    (hn : Reach cap (g.net offline online) n) (hn' : Reach cap' ((g.asking t row).net offline online) n')
    (i s : Nat) (hs : s < g.servers) :
    let l := preparation (n.seen (i, s))
    let l' := preparation (n'.seen (i, s))
    (l <+: l' ∨ l' <+: l) ∧ (n.Returned (i, s) () → l' <+: l) ∧ (n.Returned (i, s) () → n'.Returned (i, s) () → l = l') := by
  have h' := asking_grid_valid g h t row
  obtain ⟨-, a2, a3, -⟩ := (Grid.every_run h offline online hd cap).1 n hn
  obtain ⟨-, b2, b3, -⟩ := (Grid.every_run h' offline online (fun e => asking_tags g t row (hd e)) cap').1 n' hn'
  have a := preparation_prefix (l' := g.obsAll offline online i s) (a2 i s hs)
  have b := preparation_prefix (l' := (g.asking t row).obsAll offline online i s) (b2 i s hs)
  have a3 : n.Returned (i, s) () → n.seen (i, s) = g.obsAll offline online i s := a3 i s hs
  have b3 : n'.Returned (i, s) () → n'.seen (i, s) = (g.asking t row).obsAll offline online i s := b3 i s hs
  rw [preparation_grid] at a
  rw [preparation_grid, asking_grid_obsOff] at b
  refine ⟨List.prefix_or_prefix_of_prefix a b, fun hf => ?_, fun hf hf' => ?_⟩
  · rw [a3 hf, preparation_grid]
    exact b
  · rw [a3 hf, b3 hf', preparation_grid, preparation_grid, asking_grid_obsOff]

/-- C70, several servers per party, with the receive loops of the code. -/
theorem C70_preparation_loops_parallel (g : Grid box) (h : g.Valid) (t : Nat) (row : Nat → Nat) (offline online : Bool)
    (hd : offline = true → g.DistinctTags) (cap cap' : Node × Node → Nat) (n n' : PNet Node Obs Unit)
    (hn : Reach cap (g.netLoops offline online) n) (hn' : Reach cap' ((g.asking t row).netLoops offline online) n')
    (i s : Nat) (hs : s < g.servers) :
    let l := preparation (n.seen (i, s))
    let l' := preparation (n'.seen (i, s))
    (l <+: l' ∨ l' <+: l) ∧ (n.Returned (i, s) () → l' <+: l) ∧ (n.Returned (i, s) () → n'.Returned (i, s) () → l = l') := by
  have hP := h.parties
  obtain ⟨d, m, h2, h3, h4, -⟩ := C60_loops_refine_parallel g (by omega) offline online cap n hn (i, s)
  obtain ⟨d', m', h2', h3', h4', -⟩ := C60_loops_refine_parallel (g.asking t row) (show 1 ≤ g.parties ∧ g.parties ≤ 255 by omega)
    offline online cap' n' hn' (i, s)
  have := C70_preparation_parallel g h t row offline online hd d d' m m' h2 h2' i s hs
  rw [h3, h3'] at this
  exact ⟨this.1, fun hf => this.2.1 (h4 hf), fun hf hf' => this.2.2 (h4 hf) (h4' hf')⟩

/-- Both deployments have complete runs, with other keys, and there is something to
prepare: 10 secrets at the backend. -/
example : (exampleChain.asking (fun _ => 0)).wanted 0 ≠ exampleChain.wanted 0 ∧
    ∃ s n s' n', (exampleChain.net true true).run (fun _ => 1) s = some n ∧ n.Finished 3 ∧
      ((exampleChain.asking (fun _ => 0)).net true true).run (fun _ => 3) s' = some n' ∧ n'.Finished 3 ∧
      10 ≤ (preparation (n.seen 3)).length := by
  refine ⟨by decide, ?_⟩
  obtain ⟨s, n, h1, h2, -, h4⟩ := Chain.complete_run exampleChain_valid true true (fun _ => 1) (fun _ => Nat.one_pos)
  obtain ⟨s', n', h1', h2', -, -⟩ := Chain.complete_run (asking_valid exampleChain exampleChain_valid (fun _ => 0)) true true
    (fun _ => 3) (fun _ => Nat.succ_pos _)
  refine ⟨s, n, s', n', h1, h2 3, h1', h2' 3, ?_⟩
  have e : (stores (n.seen 3)).length = 10 := by
    rw [h4, Chain.stores_pos exampleChain true 2 (by decide), List.length_map, (Chain.tickets_spec exampleChain_valid 2 (by decide)).1]
    decide
  rw [← e]
  have : stores (n.seen 3) = stores (preparation (n.seen 3)) := by
    unfold stores preparation
    rw [List.filterMap_filter]
    refine List.filterMap_congr fun o _ => ?_
    cases o <;> rfl
  rw [this]
  exact List.length_filterMap_le _ _

/-- The same for two servers per party: both deployments have complete runs, the
client of server 0 asks for other keys, and the preparation is not empty. -/
example : ((exampleGrid.asking 0 (fun _ => 0)).clientRand 0).row 0 ≠ (exampleGrid.clientRand 0).row 0 ∧
    ∃ cap n cap' n', Reach cap (exampleGrid.net true true) n ∧ n.Returned (3, 0) () ∧
      Reach cap' ((exampleGrid.asking 0 (fun _ => 0)).net true true) n' ∧ n'.Returned (3, 0) () ∧
      preparation (n.seen (3, 0)) ≠ [] := by
  have hd : exampleGrid.DistinctTags := Grid.distinct_even exampleGrid_valid exampleGrid_even.1 exampleGrid_even.2
  have hv := asking_grid_valid exampleGrid exampleGrid_valid 0 (fun _ => 0)
  have hd' := asking_tags exampleGrid 0 (fun _ => 0) hd
  obtain ⟨cap, hc⟩ := exampleGrid.exists_roomy
  obtain ⟨cap', hc'⟩ := (exampleGrid.asking 0 (fun _ => 0)).exists_roomy
  obtain ⟨n, hn, hr⟩ := Grid.complete_run exampleGrid_valid true true (fun _ => hd) hc
  obtain ⟨n', hn', hr'⟩ := Grid.complete_run hv true true (fun _ => hd') hc'
  refine ⟨by decide, cap, n, cap', n', hn, hr _, hn', hr' _, ?_⟩
  have a3 : n.seen (3, 0) = exampleGrid.obsAll true true 3 0 :=
    ((Grid.every_run exampleGrid_valid true true (fun _ => hd) cap).1 n hn).2.2.1 3 0 (by decide) (hr _)
  rw [a3, preparation_grid]
  intro e
  have hm : Obs.recvCount (exampleGrid.load 2 0) ∈ exampleGrid.obsOff true 3 0 := by
    simp [Grid.obsOff, exampleGrid]
  have := (List.filter_eq_nil_iff.1 e) _ hm
  simp [Obs.prepares] at this

end DPPIR.Props
