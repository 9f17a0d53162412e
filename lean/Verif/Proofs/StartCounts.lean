import Verif.Proofs.TagOrder
import Verif.Proofs.PrivateRun
import Verif.Spec.StartCounts

/-!
# The backend looks up what was asked for and the noise, at every moment
-/

namespace DPPIR.Props
open DPPIR Proc Onion Spec Protocol

variable {box : SealedBox}

theorem Chain.lookups_full {c : Chain box} (h : c.Valid) {seen : Nat → List Obs} (hio : InOrder c.parties seen)
    (h4 : responsesRead (seen 0) ≠ [] → ∀ j, 1 ≤ j → j < c.parties → (responsesRead (seen j)).length = c.queries j)
    (hne : results (seen 0) ≠ []) : c.queries (c.parties - 1) ≤ (lookups (seen c.parties)).length := by
  have hP := h.parties
  obtain ⟨k, hk⟩ : ∃ k, k + 1 = c.parties := ⟨c.parties - 1, by omega⟩
  have r0 : responsesRead (seen 0) ≠ [] := by
    intro e
    have := hio.results
    rw [e] at this
    exact hne (List.eq_nil_of_length_eq_zero (Nat.le_zero.1 this))
  have a1 := h4 r0 k (by omega) (by omega)
  have a2 := (hio.responses k (by omega)).length_le
  have a3 := hio.lookups
  rw [hk] at a2
  rw [show c.parties - 1 = k by omega]
  omega

theorem Grid.lookups_full {g : Grid box} (h : g.Valid) {seen : Node → List Obs}
    (hio : ∀ s < g.servers, InOrder g.parties (fun k => seen (k, s))) {s : Nat} (hs : s < g.servers)
    (h4 : responsesRead (seen (0, s)) ≠ [] → ∀ j t, 1 ≤ j → j < g.parties → t < g.servers → (responsesRead (seen (j, t))).length = g.load j t)
    (hne : results (seen (0, s)) ≠ []) (t : Nat) (ht : t < g.servers) : g.load (g.parties - 1) t ≤ (lookups (seen (g.parties, t))).length := by
  have hP := h.parties
  obtain ⟨k, hk⟩ : ∃ k, k + 1 = g.parties := ⟨g.parties - 1, by omega⟩
  have r0 : responsesRead (seen (0, s)) ≠ [] := by
    intro e
    have := (hio s hs).results
    simp only [e] at this
    exact hne (List.eq_nil_of_length_eq_zero (Nat.le_zero.1 this))
  have a1 := h4 r0 k t (by omega) (by omega) ht
  have a2 := ((hio t ht).responses k (by omega)).length_le
  have a3 := (hio t ht).lookups
  simp only [hk] at a2 a3
  rw [show g.parties - 1 = k by omega]
  omega

theorem Chain.exactNoise {c : Chain box} (h : c.Valid) (offline : Bool) {seen : Nat → List Obs}
    (pre : ∀ i, seen i <+: c.obsAll offline true i) (hio : InOrder c.parties seen)
    (h4 : responsesRead (seen 0) ≠ [] → ∀ j, 1 ≤ j → j < c.parties → (responsesRead (seen j)).length = c.queries j)
    {noise : Nat → Nat → Nat} (hn : ∀ k r, r < c.rows → ((c.partyRand k).sample r).toNat = noise k r) :
    ExactNoise c.parties 1 c.rows (fun _ => (List.range c.count).map c.wanted) noise (fun _ => seen 0) (fun _ => seen c.parties) := by
  have hP := h.parties
  obtain ⟨k, hk⟩ : ∃ k, k + 1 = c.parties := ⟨c.parties - 1, by omega⟩
  have hpre : lookups (seen c.parties) <+: (c.qs offline k).map QTicket.key := by
    rw [← Chain.lookups_backend c offline k hk, ← hk]
    exact Chain.lookups_prefix (pre _)
  have hcount : ∀ r < c.rows, ((c.qs offline k).map QTicket.key).count r =
      ((List.range c.count).map c.wanted).count r + ((List.range (c.parties - 1)).map fun k => noise k r).sum := by
    intro r hr
    rw [(Chain.qs_keys h offline k (by omega)).count_eq r, List.count_append, Chain.allNoise, List.count_flatMap, show c.parties - 1 = k by omega]
    congr 2
    refine List.map_congr_left fun j _ => ?_
    rw [← hn j r hr]
    exact count_blocks c.rows (fun x => ((c.partyRand j).sample x).toNat) ⟨r, hr⟩
  refine ⟨fun _ _ r hr => ?_, fun r hr => ?_, fun _ _ hne r hr => ?_⟩
  · obtain ⟨q, hq, rfl⟩ := List.mem_map.1 (hpre.subset hr)
    exact ((Chain.qs_spec h offline k (by omega)).2.1 q hq).key
  · simp only [List.range_one, List.map_cons, List.map_nil, List.sum_cons, List.sum_nil, Nat.add_zero]
    rw [← hcount r hr]
    exact hpre.sublist.count_le _
  · simp only [List.range_one, List.map_cons, List.map_nil, List.sum_cons, List.sum_nil, Nat.add_zero]
    rw [← hcount r hr, hpre.eq_of_length (le_antisymm hpre.length_le ?_)]
    rw [List.length_map, (Chain.qs_spec h offline k (by omega)).1]
    have := Chain.lookups_full h hio h4 hne
    rwa [show c.parties - 1 = k by omega] at this

private theorem sums_le {S : Nat} {f g : Nat → Nat} (h : ∀ s < S, f s ≤ g s) : ((List.range S).map f).sum ≤ ((List.range S).map g).sum :=
  List.sum_le_sum fun s hs => h s (List.mem_range.1 hs)

theorem Grid.exactNoise {g : Grid box} (h : g.Valid) (offline : Bool) {seen : Node → List Obs}
    (pre : ∀ i s, s < g.servers → seen (i, s) <+: g.obsAll offline true i s)
    (hio : ∀ s < g.servers, InOrder g.parties (fun k => seen (k, s)))
    (h4 : ∀ s < g.servers, responsesRead (seen (0, s)) ≠ [] →
      ∀ j t, 1 ≤ j → j < g.parties → t < g.servers → (responsesRead (seen (j, t))).length = g.load j t)
    {noise : Nat → Nat → Nat} (hn : ∀ k s i, s < g.servers → i < g.width s → ((g.partyRand k s).sample i).toNat = noise k (g.first s + i)) :
    ExactNoise g.parties g.servers g.rows (fun s => (List.range (g.count s)).map (g.wanted s)) noise
      (fun s => seen (0, s)) (fun s => seen (g.parties, s)) := by
  have hP := h.parties
  obtain ⟨k, hk⟩ : ∃ k, k + 1 = g.parties := ⟨g.parties - 1, by omega⟩
  have hpre : ∀ s < g.servers, lookups (seen (g.parties, s)) <+: (g.qs offline k s).map QTicket.key := by
    intro s hs
    rw [← Grid.lookups_backend g offline s k hk, ← hk]
    exact Chain.lookups_prefix (pre _ s hs)
  have hcount : ∀ r < g.rows, ((List.range g.servers).map fun s => ((g.qs offline k s).map QTicket.key).count r).sum =
      ((List.range g.servers).map fun s => ((List.range (g.count s)).map (g.wanted s)).count r).sum +
        ((List.range (g.parties - 1)).map fun k => noise k r).sum := by
    intro r hr
    have := (Grid.qs_keys h offline k (by omega)).count_eq r
    rw [List.count_append, List.count_flatMap, List.count_flatMap, List.count_flatMap] at this
    refine this.trans ?_
    rw [show g.parties - 1 = k by omega]
    congr 2
    refine List.map_congr_left fun j _ => ?_
    show ((List.range g.servers).flatMap (g.noiseKeysOf j)).count r = noise j r
    have e : (List.range g.servers).flatMap (g.noiseKeysOf j) = (List.range g.rows).flatMap (fun x => List.replicate (noise j x) x) := by
      rw [← Grid.width_sum h, ← Grid.rows_of_shares g (fun x => List.replicate (noise j x) x) g.servers le_rfl]
      refine List.flatMap_congr fun s hs => List.flatMap_congr fun i hi => ?_
      rw [hn j s i (List.mem_range.1 hs) (List.mem_range.1 hi)]
    rw [e]
    exact count_blocks g.rows (noise j) ⟨r, hr⟩
  refine ⟨fun s hs r hr => ?_, fun r hr => ?_, fun s hs hne r hr => ?_⟩
  · obtain ⟨q, hq, rfl⟩ := List.mem_map.1 ((hpre s hs).subset hr)
    exact ((Grid.qs_spec h offline k (by omega) s hs).2.1 q hq).key
  · rw [← hcount r hr]
    exact sums_le fun s hs => (hpre s hs).sublist.count_le _
  · rw [← hcount r hr]
    refine congrArg List.sum (List.map_congr_left fun t ht => ?_)
    have ht := List.mem_range.1 ht
    rw [(hpre t ht).eq_of_length (le_antisymm (hpre t ht).length_le ?_)]
    rw [List.length_map, (Grid.qs_spec h offline k (by omega) t ht).1]
    have := Grid.lookups_full h hio hs (h4 s hs) hne t ht
    rwa [show g.parties - 1 = k by omega] at this

end DPPIR.Props
