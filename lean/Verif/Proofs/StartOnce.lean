import Verif.Proofs.OfflineAlone
import Verif.Proofs.TagOrder
import Verif.Spec.StartOnce
import Verif.Props.Preparation
import Verif.Props.Once
import Verif.Props.StartCausal

/-!
# Secrets serve once, and preparations are the same, in started deployments
-/

namespace DPPIR.Props
open DPPIR Proc Onion Spec Protocol

variable {box : SealedBox}

theorem samePreparation {off on on' seen seen' : List Obs} (h0 : ∀ o ∈ off, o.prepares = true) (h1 : preparation (off ++ on) = preparation off)
    (h2 : preparation (off ++ on') = preparation off) (h : seen <+: off ++ on) (h' : seen' <+: off ++ on') : SamePreparation seen seen' := by
  have a : preparation seen <+: preparation off := h1 ▸ preparation_prefix h
  have b : preparation seen' <+: preparation off := h2 ▸ preparation_prefix h'
  have full : ∀ {l r : List Obs}, l <+: off ++ r → (∃ o ∈ l, o.prepares = false) → preparation off <+: preparation l := by
    rintro l r hl ⟨o, ho, e⟩
    rcases List.prefix_or_prefix_of_prefix hl (List.prefix_append off r) with x | x
    · have := h0 o (x.subset ho)
      rw [e] at this
      exact absurd this (by simp)
    · exact preparation_prefix x
  exact ⟨List.prefix_or_prefix_of_prefix a b, fun e => b.trans (full h e), fun e => a.trans (full h' e)⟩

theorem Chain.samePreparation (c : Chain box) (row : Nat → Nat) (online online' : Bool) (i : Nat) {seen seen' : List Obs}
    (h : seen <+: c.obsAll true online i) (h' : seen' <+: (c.asking row).obsAll true online' i) : SamePreparation seen seen' := by
  have e1 := preparation_chain c true online i
  have e2 := preparation_chain (c.asking row) true online' i
  have e0 := Chain.obsOff_prepares c true i
  unfold Chain.obsAll at h h' e1 e2 e0
  rw [asking_obsOff] at h' e2
  simp only [Bool.false_eq_true, if_false, List.append_nil] at e0
  exact Props.samePreparation e0 e1 e2 h h'

theorem Grid.samePreparation (g : Grid box) (t : Nat) (row : Nat → Nat) (online online' : Bool) (i s : Nat) {seen seen' : List Obs}
    (h : seen <+: g.obsAll true online i s) (h' : seen' <+: (g.asking t row).obsAll true online' i s) : SamePreparation seen seen' := by
  have e1 := preparation_grid g true online i s
  have e2 := preparation_grid (g.asking t row) true online' i s
  have e0 := Grid.obsOff_prepares g true i s
  unfold Grid.obsAll at h h' e1 e2 e0
  rw [asking_grid_obsOff] at h' e2
  simp only [Bool.false_eq_true, if_false, List.append_nil] at e0
  exact Props.samePreparation e0 e1 e2 h h'

theorem perm_of_lengths {S : Nat} {seen : Nat → List Obs} {load : Nat → Nat} (h1 : (queryTags S seen).Nodup)
    (h2 : queryTags S seen ⊆ secretTags S seen) (h3 : ∀ s < S, (stores (seen s)).length ≤ load s)
    (h4 : ∀ s < S, load s ≤ (queriesRead (seen s)).length) : (queryTags S seen).Perm (secretTags S seen) := by
  refine (h1.subperm h2).perm_of_length_le ?_
  unfold secretTags queryTags
  rw [List.length_flatMap, List.length_flatMap]
  refine List.sum_le_sum fun s hs => ?_
  have hs := List.mem_range.1 hs
  rw [List.length_map, List.length_map]
  exact (h3 s hs).trans (h4 s hs)

theorem Chain.serveOnce {c : Chain box} (h : c.Valid) {cap : Nat × Nat → Nat} {n : PNet Nat Obs Unit}
    (hn : PNet.Reach cap (c.netLoops true true) n) : SecretsServeOnce c.parties 1 (fun k _ => n.seen k) := by
  have hP := h.parties
  have pre := ((Chain.every_run_loops h true true (fun x => cap x + 1) (fun k _ => ⟨Nat.succ_pos _, Nat.succ_pos _⟩)).1 n
    (RNet.reach_mono (fun _ => Nat.le_succ _) hn)).2.1
  have hio := C79_in_order_loops c h true cap n hn
  obtain ⟨-, b2, -, b4⟩ := C77_wait_loops c h true cap n hn
  have once : ∀ k, 1 ≤ k → k ≤ c.parties → (secretTags 1 (fun _ => n.seen k)).Nodup ∧ (queryTags 1 (fun _ => n.seen k)).Nodup ∧
      queryTags 1 (fun _ => n.seen k) ⊆ secretTags 1 (fun _ => n.seen k) := by
    intro k h1 h2
    obtain ⟨k, rfl⟩ : ∃ j, k = j + 1 := ⟨k - 1, by omega⟩
    obtain ⟨a1, a2, a3, -⟩ := C69_one_query_per_secret_loops c h cap n hn k h2
    simp only [secretTags, queryTags, List.range_one, List.flatMap_cons, List.flatMap_nil, List.append_nil]
    exact ⟨a1, a2, a3⟩
  refine ⟨fun k h1 h2 => (once k h1 h2).1, fun k h1 h2 => (once k h1 h2).2.1, fun k h1 h2 => (once k h1 h2).2.2, fun s _ hne k h1 h2 => ?_⟩
  have tt := Chain.tagsTell h pre hio b4 (fun hne => b2 hne _ (by omega) le_rfl)
  have hc : 0 < c.count := by
    have := (Chain.results_prefix (pre 0)).length_le
    rw [Chain.results_client, List.length_map, (Chain.qs_spec h true 0 (by omega)).1] at this
    exact lt_of_lt_of_le (List.length_pos_iff.2 hne) this
  obtain ⟨t, -, i, qu, -, hl, -⟩ := tt.all hne 0 hc
  have hlk : lookups (n.seen c.parties) ≠ [] := by
    intro e
    rw [e] at hl
    simp at hl
  refine perm_of_lengths (load := fun _ => c.queries (k - 1)) (once k h1 h2).2.1 (once k h1 h2).2.2 (fun s _ => ?_) (fun s _ => (b2 hlk k h1 h2).ge)
  obtain ⟨k, rfl⟩ : ∃ j, k = j + 1 := ⟨k - 1, by omega⟩
  have := (Chain.stores_prefix (pre (k + 1))).length_le
  rw [Chain.stores_pos c true k h2, List.length_map, (Chain.tickets_spec h k h2).1] at this
  exact this

theorem Grid.serveOnce {g : Grid box} (h : g.Valid) (hd : g.DistinctTags) {cap : Node × Node → Nat} {n : PNet Node Obs Unit}
    (hn : PNet.Reach cap (g.netLoops true true) n) : SecretsServeOnce g.parties g.servers (fun k s => n.seen (k, s)) := by
  have hP := h.parties
  have pre := ((Grid.every_run_loops h true true (fun _ => hd) cap).1 n hn).2.1
  have hio := fun s hs => C79_in_order_loops_parallel g h true (fun _ => hd) cap n hn s hs
  have b := C77_wait_loops_parallel g h true (fun _ => hd) cap n hn
  have once : ∀ k, 1 ≤ k → k ≤ g.parties → (secretTags g.servers (fun s => n.seen (k, s))).Nodup ∧
      (queryTags g.servers (fun s => n.seen (k, s))).Nodup ∧
      queryTags g.servers (fun s => n.seen (k, s)) ⊆ secretTags g.servers (fun s => n.seen (k, s)) := by
    intro k h1 h2
    obtain ⟨k, rfl⟩ : ∃ j, k = j + 1 := ⟨k - 1, by omega⟩
    obtain ⟨a1, a2, a3, -⟩ := C69_one_query_per_secret_loops_parallel g h hd cap n hn k h2
    exact ⟨a1, a2, a3⟩
  refine ⟨fun k h1 h2 => (once k h1 h2).1, fun k h1 h2 => (once k h1 h2).2.1, fun k h1 h2 => (once k h1 h2).2.2, fun s hs hne k h1 h2 => ?_⟩
  have tt := Grid.tagsTell h hd pre hio hs (b s hs).2.2.2 (fun t ht hne => ((b t ht).2.1 hne).1)
  have hc : 0 < g.count s := by
    have := (Chain.results_prefix (pre 0 s hs)).length_le
    rw [Grid.results_client, List.length_map, (Grid.qs_spec h true 0 (by omega) s hs).1] at this
    exact lt_of_lt_of_le (List.length_pos_iff.2 hne) this
  obtain ⟨t, ht, i, qu, -, hl, -⟩ := tt.all hne 0 hc
  have hlk : lookups (n.seen (g.parties, t)) ≠ [] := by
    intro e
    rw [e] at hl
    simp at hl
  have r0 : responsesRead (n.seen (0, s)) ≠ [] := by
    intro e
    have := (hio s hs).results
    simp only [e] at this
    exact hne (List.eq_nil_of_length_eq_zero (Nat.le_zero.1 this))
  refine perm_of_lengths (load := fun u => g.load (k - 1) u) (once k h1 h2).2.1 (once k h1 h2).2.2 (fun u hu => ?_) (fun u hu => ?_)
  · obtain ⟨k, rfl⟩ : ∃ j, k = j + 1 := ⟨k - 1, by omega⟩
    have := (Chain.stores_prefix (pre (k + 1) u hu)).length_le
    rw [Grid.stores_pos g u true k h2, List.length_map, ((Grid.tickets_spec h k h2).1 u hu).1] at this
    exact this
  · rcases Nat.lt_or_ge k g.parties with hk | hk
    · exact (((b t ht).2.1 hlk).2 k u h1 hk hu).ge
    · obtain rfl : k = g.parties := by omega
      obtain ⟨j, hj⟩ : ∃ j, j + 1 = g.parties := ⟨g.parties - 1, by omega⟩
      have a1 := (b s hs).2.2.2 r0 j u (by omega) (by omega) hu
      have a2 := ((hio u hu).responses j (by omega)).length_le
      have a3 := (hio u hu).lookups
      simp only [hj] at a2 a3
      show g.load (g.parties - 1) u ≤ _
      rw [← hj, Nat.add_sub_cancel, hj]
      rcases Nat.eq_zero_or_pos (g.load j u) with z | z
      · rw [z]; exact Nat.zero_le _
      · have a4 := ((b u hu).2.1 (List.ne_nil_of_length_pos (by omega))).1
        rw [← hj, Nat.add_sub_cancel, hj] at a4
        exact a4.ge

end DPPIR.Props
