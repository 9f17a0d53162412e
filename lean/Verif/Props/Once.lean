import Verif.Proofs.GridInstall
import Verif.Proofs.GridOrder
import Verif.Props.Chain
import Verif.Props.Grid
import Verif.Props.Loops

/-!
# Every offline secret serves one query (C69)
-/

namespace DPPIR.Props
open DPPIR Proc PNet Onion Spec Protocol

variable {box : SealedBox}

/-- A prefix of two parts that reaches into the second one covers the first. -/
private theorem covers {a b l : List Obs} (h : l <+: a ++ b) (ha : queriesRead a = []) (hl : queriesRead l ≠ []) : a <+: l := by
  rcases List.prefix_or_prefix_of_prefix h (List.prefix_append a b) with h | h
  · have := Chain.queriesRead_prefix h
    rw [ha] at this
    exact absurd (List.prefix_nil.1 this) hl
  · exact h

/-- C69, one server per party: in every state of every run with both stages, the secrets
that a party or the backend has installed have different tags, so have the queries it
has read, and each of these queries has the tag of one of the secrets.  Once it has
returned, each secret has served exactly one query. -/
theorem C69_one_query_per_secret (c : Chain box) (h : c.Valid) (cap : Nat × Nat → Nat) (hcap : ∀ x, 0 < cap x) (s : List Nat)
    (n : Net Nat Obs) (hn : (c.net true true).run cap s = some n) (k : Nat) (hk : k < c.parties) :
    let secrets := (stores (n.seen (k + 1))).map OfflineSecret.tag
    let queries := (queriesRead (n.seen (k + 1))).map Query.tag
    secrets.Nodup ∧ queries.Nodup ∧ queries ⊆ secrets ∧ (n.Finished (k + 1) → queries.Perm secrets) := by
  obtain ⟨h1, h2, -⟩ := C30_tags_distinct c h cap hcap s n hn k hk
  obtain ⟨N, hN⟩ := Chain.every_run h true true cap hcap
  have hs : n.seen (k + 1) <+: c.obsAll true false (k + 1) ++ c.obsOn true (k + 1) := by
    have := (hN s n hn).2.2.2.1 (k + 1)
    unfold Chain.obsAll at this ⊢
    simpa using this
  have perm : ((c.qs true k).map QTicket.tag).Perm ((c.tickets k).map Ticket.tag) :=
    (Chain.qs_tags h k hk).trans (Chain.tickets_spec h k hk).2.2.symm
  have hoff : queriesRead (c.obsAll true false (k + 1)) = [] := by
    by_cases hb : k + 1 = c.parties
    · rw [Chain.backend_obs c true false k hb, queriesRead]
      simp [List.filterMap_append, List.filterMap_flatMap, List.filterMap_map, Function.comp_def]
    · rw [Chain.party_obs c true false k (by omega), queriesRead]
      simp [List.filterMap_append, List.filterMap_map, Function.comp_def]
  have hqr : (queriesRead (n.seen (k + 1))).map Query.tag <+: (c.qs true k).map QTicket.tag := by
    have := (Chain.queriesRead_prefix ((hN s n hn).2.2.2.1 (k + 1))).map Query.tag
    rw [Chain.queriesRead_pos c true k hk, List.map_map] at this
    exact this
  refine ⟨h1, h2, ?_, fun hf => ?_⟩
  · by_cases hq : queriesRead (n.seen (k + 1)) = []
    · rw [hq]
      exact List.nil_subset _
    · have hst := (Chain.stores_prefix (covers hs hoff hq)).map OfflineSecret.tag
      rw [Chain.stores_pos c false k hk, List.map_map] at hst
      intro t ht
      exact hst.subset (perm.subset (hqr.subset ht))
  · have e := Chain.finished_seen h true true cap hcap hn hf
    rw [e, Chain.queriesRead_pos c true k hk, Chain.stores_pos c true k hk, List.map_map, List.map_map]
    exact perm

/-- C69, one server per party, with the receive loops of the code. -/
theorem C69_one_query_per_secret_loops (c : Chain box) (h : c.Valid) (cap : Nat × Nat → Nat) (n : PNet Nat Obs Unit)
    (hn : Reach cap (c.netLoops true true) n) (k : Nat) (hk : k < c.parties) :
    let secrets := (stores (n.seen (k + 1))).map OfflineSecret.tag
    let queries := (queriesRead (n.seen (k + 1))).map Query.tag
    secrets.Nodup ∧ queries.Nodup ∧ queries ⊆ secrets ∧ (n.Returned (k + 1) () → queries.Perm secrets) := by
  obtain ⟨cap', s, m, h1, h2, h3, h4, -⟩ := C60_loops_refine c h.parties.2 true true cap n hn (k + 1)
  have := C69_one_query_per_secret c h cap' h1 s m h2 k hk
  rw [h3] at this
  exact ⟨this.1, this.2.1, this.2.2.1, fun hr => this.2.2.2 (h4 hr)⟩

private theorem queries_perm {g : Grid box} (h : g.Valid) {k : Nat} (hk : k < g.parties) :
    ((List.range g.servers).flatMap (fun s => (g.qs true k s).map QTicket.tag)).Perm (g.tagsTo k) := by
  have := (Grid.qs_pairs h k hk).map Prod.fst
  rw [Grid.pairsTo_fst, List.map_flatMap] at this
  simp only [List.map_map] at this
  exact this

private theorem queriesRead_off (g : Grid box) (i s : Nat) : queriesRead (g.obsOff true i s) = [] := by
  unfold Grid.obsOff queriesRead
  rw [List.filterMap_eq_nil_iff]
  intro o ho
  split_ifs at ho <;> simp only [List.mem_append, List.mem_flatMap, List.mem_map, List.mem_cons, List.not_mem_nil, or_false] at ho <;>
    grind

private theorem together {g : Grid box} (h : g.Valid) (hd : g.DistinctTags) {k : Nat} (hk : k < g.parties) (seen : Nat → List Obs)
    (a2 : ∀ s < g.servers, seen s <+: g.obsAll true true (k + 1) s) :
    let secrets := (List.range g.servers).flatMap (fun s => (stores (seen s)).map OfflineSecret.tag)
    let queries := (List.range g.servers).flatMap (fun s => (queriesRead (seen s)).map Query.tag)
    secrets.Nodup ∧ queries.Nodup ∧ ((∀ s < g.servers, seen s = g.obsAll true true (k + 1) s) → queries.Perm secrets) := by
  have qsPerm := queries_perm h hk
  have sub : ∀ (f f' : Nat → List (BitVec 64)), (∀ s < g.servers, (f s).Sublist (f' s)) →
      ((List.range g.servers).flatMap f).Sublist ((List.range g.servers).flatMap f') := by
    intro f f' hf
    have : ∀ l : List Nat, (∀ s ∈ l, s < g.servers) → (l.flatMap f).Sublist (l.flatMap f') := by
      intro l hl
      induction l with
      | nil => exact List.Sublist.refl _
      | cons a l ih =>
        rw [List.flatMap_cons, List.flatMap_cons]
        exact (hf a (hl a (by simp))).append (ih (fun s hs => hl s (by simp [hs])))
    exact this _ (fun s hs => List.mem_range.1 hs)
  have st : ∀ s, stores (g.obsAll true true (k + 1) s) = (g.tickets k s).map Ticket.head := fun s => g.stores_pos s true k hk
  have qr : ∀ s, queriesRead (g.obsAll true true (k + 1) s) = (g.qs true k s).map QTicket.query := fun s => g.queriesRead_pos true s k hk
  refine ⟨?_, ?_, fun hr => ?_⟩
  · refine List.Nodup.sublist (sub _ (fun s => (g.tickets k s).map Ticket.tag) (fun s hs => ?_)) (Grid.tickets_nodup h hd hk)
    have := (Chain.stores_prefix (a2 s hs)).sublist.map OfflineSecret.tag
    rw [st s, List.map_map] at this
    exact this
  · refine List.Nodup.sublist (sub _ (fun s => (g.qs true k s).map QTicket.tag) (fun s hs => ?_))
      (qsPerm.nodup_iff.2 (Grid.tagsTo_nodup hd hk))
    have := (Chain.queriesRead_prefix (a2 s hs)).sublist.map Query.tag
    rw [qr s, List.map_map] at this
    exact this
  · have e1 : (List.range g.servers).flatMap (fun s => (stores (seen s)).map OfflineSecret.tag) =
        (List.range g.servers).flatMap (fun s => (g.tickets k s).map Ticket.tag) := by
      refine List.flatMap_congr fun s hs => ?_
      rw [hr s (List.mem_range.1 hs), st, List.map_map]
      rfl
    have e2 : (List.range g.servers).flatMap (fun s => (queriesRead (seen s)).map Query.tag) =
        (List.range g.servers).flatMap (fun s => (g.qs true k s).map QTicket.tag) := by
      refine List.flatMap_congr fun s hs => ?_
      rw [hr s (List.mem_range.1 hs), qr, List.map_map]
      rfl
    rw [e1, e2]
    exact qsPerm.trans (Grid.tickets_spec h k hk).2.symm

/-- C69, several servers per party: in every state of every run with both stages, the
secrets installed by all servers of a party, or of the backend, together have different
tags, and so have the queries read by all of them together: no two servers use the same
secret.  Each of these queries has the tag of one of the secrets.  Once the servers have
returned, each secret has served exactly one query at one of them. -/
theorem C69_one_query_per_secret_parallel (g : Grid box) (h : g.Valid) (hd : g.DistinctTags) (cap : Node × Node → Nat)
    (n : PNet Node Obs Unit) (hn : Reach cap (g.net true true) n) (k : Nat) (hk : k < g.parties) :
    let secrets := (List.range g.servers).flatMap (fun s => (stores (n.seen (k + 1, s))).map OfflineSecret.tag)
    let queries := (List.range g.servers).flatMap (fun s => (queriesRead (n.seen (k + 1, s))).map Query.tag)
    secrets.Nodup ∧ queries.Nodup ∧ queries ⊆ secrets ∧ ((∀ s < g.servers, n.Returned (k + 1, s) ()) → queries.Perm secrets) := by
  obtain ⟨-, a2, a3, -⟩ := (Grid.every_run h true true (fun _ => hd) cap).1 n hn
  obtain ⟨b1, b2, b3⟩ := together h hd hk (fun s => n.seen (k + 1, s)) (fun s hs => a2 (k + 1) s hs)
  refine ⟨b1, b2, ?_, fun hr => b3 (fun s hs => a3 (k + 1) s hs (hr s hs))⟩
  intro x hx
  obtain ⟨s, hs, hx⟩ := List.mem_flatMap.1 hx
  have hs := List.mem_range.1 hs
  have hne : queriesRead (n.seen (k + 1, s)) ≠ [] := by
    intro e
    rw [e] at hx
    exact absurd hx List.not_mem_nil
  have hpast : ¬ n.seen (k + 1, s) <+: g.obsOff true (k + 1) s := by
    intro hp
    have := Chain.queriesRead_prefix hp
    rw [queriesRead_off] at this
    exact hne (List.prefix_nil.1 this)
  have all := fun t ht => Grid.installed_below h hd cap n hn (k + 1) s hs hpast k t hk ht (Nat.le_refl _)
  have e1 : (List.range g.servers).flatMap (fun s => (stores (n.seen (k + 1, s))).map OfflineSecret.tag) =
      (List.range g.servers).flatMap (fun s => (g.tickets k s).map Ticket.tag) := by
    refine List.flatMap_congr fun t ht => ?_
    rw [all t (List.mem_range.1 ht), List.map_map]
    rfl
  have qr : queriesRead (g.obsAll true true (k + 1) s) = (g.qs true k s).map QTicket.query := g.queriesRead_pos true s k hk
  have h1 : x ∈ (g.qs true k s).map QTicket.tag := by
    have := ((Chain.queriesRead_prefix (a2 (k + 1) s hs)).map Query.tag).subset hx
    erw [qr, List.map_map] at this
    exact this
  rw [e1]
  exact ((queries_perm h hk).trans (Grid.tickets_spec h k hk).2.symm).subset (List.mem_flatMap.2 ⟨s, List.mem_range.2 hs, h1⟩)

/-- C69, several servers per party, with the receive loops of the code. -/
theorem C69_one_query_per_secret_loops_parallel (g : Grid box) (h : g.Valid) (hd : g.DistinctTags) (cap : Node × Node → Nat)
    (n : PNet Node Obs Unit) (hn : Reach cap (g.netLoops true true) n) (k : Nat) (hk : k < g.parties) :
    let secrets := (List.range g.servers).flatMap (fun s => (stores (n.seen (k + 1, s))).map OfflineSecret.tag)
    let queries := (List.range g.servers).flatMap (fun s => (queriesRead (n.seen (k + 1, s))).map Query.tag)
    secrets.Nodup ∧ queries.Nodup ∧ queries ⊆ secrets ∧ ((∀ s < g.servers, n.Returned (k + 1, s) ()) → queries.Perm secrets) := by
  have hP := h.parties
  have key : ∀ s < g.servers, n.seen (k + 1, s) <+: g.obsAll true true (k + 1) s ∧
      (n.Returned (k + 1, s) () → n.seen (k + 1, s) = g.obsAll true true (k + 1) s) := by
    intro s hs
    obtain ⟨cap', m, h2, h3, h4, -⟩ := C60_loops_refine_parallel g (by omega) true true cap n hn (k + 1, s)
    obtain ⟨-, a2, a3, -⟩ := (Grid.every_run h true true (fun _ => hd) cap').1 m h2
    rw [← h3]
    exact ⟨a2 (k + 1) s hs, fun hr => a3 (k + 1) s hs (h4 hr)⟩
  obtain ⟨b1, b2, b3⟩ := together h hd hk (fun s => n.seen (k + 1, s)) (fun s hs => (key s hs).1)
  obtain ⟨cap', m, h2, h3, -⟩ := C60_loops_refine_parallel g (by omega) true true cap n hn (k + 1, 0)
  refine ⟨b1, b2, ?_, fun hr => b3 (fun s hs => (key s hs).2 (hr s hs))⟩
  have := (C69_one_query_per_secret_parallel g h hd cap' m h2 k hk).2.2.1
  rw [h3] at this
  exact this

/-- With 2 queries of the client, 3 parties and 4 noise queries of each party: all 10
secrets of the backend have served one query each. -/
example : ∃ s n, (exampleChain.net true true).run (fun _ => 1) s = some n ∧ n.Finished 3 ∧ (stores (n.seen 3)).length = 10 := by
  obtain ⟨s, n, h1, h2, -, h4⟩ := Chain.complete_run exampleChain_valid true true (fun _ => 1) (fun _ => Nat.one_pos)
  refine ⟨s, n, h1, h2 3, ?_⟩
  rw [h4, Chain.stores_pos exampleChain true 2 (by decide), List.length_map, (Chain.tickets_spec exampleChain_valid 2 (by decide)).1]
  decide

/-- With 2 servers per party: all of both servers' secrets. -/
example : ∃ cap n, Reach cap (exampleGrid.net true true) n ∧ (∀ s < 2, n.Returned (3, s) ()) ∧ (stores (n.seen (3, 1))).length = 7 := by
  have hd : exampleGrid.DistinctTags := Grid.distinct_even exampleGrid_valid exampleGrid_even.1 exampleGrid_even.2
  obtain ⟨cap, hc⟩ := exampleGrid.exists_roomy
  obtain ⟨n, hn, hr⟩ := Grid.complete_run exampleGrid_valid true true (fun _ => hd) hc
  obtain ⟨-, -, a3, -⟩ := (Grid.every_run exampleGrid_valid true true (fun _ => hd) cap).1 n hn
  refine ⟨cap, n, hn, fun s _ => hr _, ?_⟩
  have e : n.seen (3, 1) = exampleGrid.obsAll true true 3 1 := a3 3 1 (by decide) (hr _)
  rw [e, exampleGrid.stores_pos 1 true 2 (by decide), List.length_map, ((Grid.tickets_spec exampleGrid_valid 2 (by decide)).1 1 (by decide)).1]
  decide

end DPPIR.Props
