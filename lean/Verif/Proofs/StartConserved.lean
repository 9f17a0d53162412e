import Verif.Proofs.StartCounts
import Verif.Props.Grid
import Verif.Spec.StartConserved

/-!
# Counts at every moment
-/

namespace DPPIR.Props
open DPPIR Proc Onion Spec Protocol

variable {box : SealedBox}

private theorem sums_le {S : Nat} {f g : Nat → Nat} (h : ∀ s < S, f s ≤ g s) : ((List.range S).map f).sum ≤ ((List.range S).map g).sum :=
  List.sum_le_sum fun s hs => h s (List.mem_range.1 hs)

private theorem sums_eq {S : Nat} {f g : Nat → Nat} (h : ∀ s < S, f s = g s) : ((List.range S).map f).sum = ((List.range S).map g).sum :=
  congrArg List.sum (List.map_congr_left fun s hs => h s (List.mem_range.1 hs))

theorem leaving_le (R asked : Nat) (noise : Nat → Nat → Nat) {k k' : Nat} (h : k ≤ k') : leaving R asked noise k ≤ leaving R asked noise k' := by
  induction k', h using Nat.le_induction with
  | base => exact le_rfl
  | succ k' _ ih =>
    refine ih.trans ?_
    unfold leaving
    rw [List.range_succ, List.map_append, List.sum_append]
    omega

theorem conserved_of {P S R asked : Nat} {noise : Nat → Nat → Nat} {seen : Nat → Nat → List Obs} {load : Nat → Nat → Nat}
    (hP : 2 ≤ P) (tot : ∀ k < P, ((List.range S).map (load k)).sum = leaving R asked noise k)
    (ann : ∀ k < P, ∀ s < S, ∀ n ∈ countsSent (seen k s), n.toNat = load k s)
    (qs : ∀ k < P, ∀ s < S, (queriesSent (seen k s)).length ≤ load k s)
    (rs : ∀ k < P, ∀ s < S, (responsesSent (seen (k + 1) s)).length ≤ load k s)
    (io : ∀ s < S, InOrder P (fun k => seen k s))
    (lk : ∀ t < S, lookups (seen P t) ≠ [] → (queriesRead (seen P t)).length = load (P - 1) t ∧
      ∀ j s, 1 ≤ j → j < P → s < S → (queriesRead (seen j s)).length = load (j - 1) s)
    (rr : ∀ s < S, responsesRead (seen 0 s) ≠ [] → ∀ j t, 1 ≤ j → j < P → t < S → (responsesRead (seen j t)).length = load j t) :
    Conserved P S R asked noise seen := by
  have qr : ∀ k < P, ∀ s < S, (queriesRead (seen (k + 1) s)).length ≤ (queriesSent (seen k s)).length := fun k hk s hs =>
    ((io s hs).queries k hk).length_le
  have rd : ∀ k < P, ∀ s < S, (responsesRead (seen k s)).length ≤ (responsesSent (seen (k + 1) s)).length := fun k hk s hs =>
    ((io s hs).responses k hk).length_le
  have back : ∀ t < S, results (seen 0 t) ≠ [] → ∀ k s, 1 ≤ k → k < P → s < S → (responsesRead (seen k s)).length = load k s := by
    intro t ht hne
    refine rr t ht fun e => hne ?_
    have := (io t ht).results
    simp only [e] at this
    exact List.eq_nil_of_length_eq_zero (Nat.le_zero.1 this)
  have full : ∀ t < S, results (seen 0 t) ≠ [] → ∀ k < P, ∀ s < S, (queriesRead (seen (k + 1) s)).length = load k s := by
    intro t ht hne
    have hl : ∀ s < S, load (P - 1) s ≤ (lookups (seen P s)).length := fun s hs => by
      have a1 := back t ht hne (P - 1) s (by omega) (by omega) hs
      have a2 := rd (P - 1) (by omega) s hs
      have a3 := (io s hs).lookups
      rw [show P - 1 + 1 = P by omega] at a2
      omega
    have hpos : 0 < ((List.range S).map (load (P - 1))).sum := by
      rw [tot _ (by omega)]
      refine lt_of_lt_of_le ?_ (leaving_le R asked noise (Nat.zero_le _))
      rw [← tot 0 (by omega)]
      have b1 := (io t ht).results
      have b2 := rd 0 (by omega) t ht
      have b3 := rs 0 (by omega) t ht
      have b4 : 0 < (results (seen 0 t)).length := List.length_pos_iff.2 hne
      have b5 : load 0 t ≤ ((List.range S).map (load 0)).sum := List.single_le_sum (by simp) _ (List.mem_map.2 ⟨t, List.mem_range.2 ht, rfl⟩)
      omega
    obtain ⟨u, hu, hu0⟩ : ∃ u < S, 0 < load (P - 1) u := by
      by_contra hno
      have : ∀ u < S, load (P - 1) u = 0 := fun u hu => by
        by_contra h0
        exact hno ⟨u, hu, Nat.pos_of_ne_zero h0⟩
      rw [sums_eq this] at hpos
      simp at hpos
    have key := lk u hu (List.ne_nil_of_length_pos (by have := hl u hu; omega))
    intro k hk s hs
    by_cases hkP : k + 1 < P
    · exact key.2 (k + 1) s (by omega) hkP hs
    · obtain rfl : k = P - 1 := by omega
      rw [show P - 1 + 1 = P by omega]
      by_cases h0 : load (P - 1) s = 0
      · have a := qr (P - 1) (by omega) s hs
        have b := qs (P - 1) (by omega) s hs
        rw [show P - 1 + 1 = P by omega] at a
        omega
      · exact (lk s hs (List.ne_nil_of_length_pos (by have := hl s hs; omega))).1
  have sent : ∀ t < S, results (seen 0 t) ≠ [] → ∀ k < P, ∀ s < S, (queriesSent (seen k s)).length = load k s := fun t ht hne k hk s hs => by
    have := full t ht hne k hk s hs
    have := qr k hk s hs
    have := qs k hk s hs
    omega
  refine ⟨fun k hk s hs n hn => ?_, fun k hk => ?_, fun t ht hne k hk s hs n hn => ?_, fun t ht hne k hk => ?_, fun t ht hne k h1 hk => ?_⟩
  · rw [ann k hk s hs n hn]
    exact ⟨qs k hk s hs, (rd k hk s hs).trans (rs k hk s hs)⟩
  · rw [← tot k hk]
    exact ⟨sums_le (qs k hk), sums_le (rs k hk)⟩
  · rw [ann k hk s hs n hn]
    exact sent t ht hne k hk s hs
  · rw [← tot k hk]
    exact ⟨sums_eq (sent t ht hne k hk), sums_eq (full t ht hne k hk)⟩
  · rw [← tot k hk]
    refine ⟨sums_eq fun s hs => ?_, sums_eq fun s hs => back t ht hne k s h1 hk hs⟩
    have := back t ht hne k s h1 hk hs
    have := rd k hk s hs
    have := rs k hk s hs
    omega

theorem Chain.queries_leaving {c : Chain box} {noise : Nat → Nat → Nat} (hn : ∀ k r, r < c.rows → ((c.partyRand k).sample r).toNat = noise k r)
    (k : Nat) : c.queries k = leaving c.rows c.count noise k := by
  induction k with
  | zero => rfl
  | succ k ih =>
    have e : c.noise k = ((List.range c.rows).map (noise k)).sum := sums_eq fun r hr => hn k r hr
    rw [Chain.queries, ih, e]
    unfold leaving
    rw [List.range_succ, List.map_append, List.sum_append]
    simp [Nat.add_assoc]

theorem Grid.load_leaving {g : Grid box} (h : g.Valid) {noise : Nat → Nat → Nat}
    (hn : ∀ k s i, s < g.servers → i < g.width s → ((g.partyRand k s).sample i).toNat = noise k (g.first s + i)) (k : Nat) :
    ((List.range g.servers).map (g.load k)).sum = leaving g.rows ((List.range g.servers).map g.count).sum noise k := by
  rw [C51_loads_add_up g h k]
  unfold leaving
  congr 2
  refine List.map_congr_left fun j _ => ?_
  have e := congrArg List.length (Grid.rows_of_shares g (fun x => List.replicate (noise j x) x) g.servers le_rfl)
  rw [Grid.width_sum h] at e
  simp only [List.length_flatMap, List.length_replicate] at e
  rw [← e]
  refine sums_eq fun s hs => ?_
  show ((List.range (g.width s)).map (fun i => ((g.partyRand j s).sample i).toNat)).sum = _
  exact sums_eq fun i hi => hn j s i hs hi

end DPPIR.Props
