import Verif.Proofs.InClear
import Verif.Proofs.GridOrder
import Verif.Spec.Causal
import Verif.Spec.TagOrder

/-!
# Tags tell the order of a client's queries
-/

namespace DPPIR.Protocol
open DPPIR Proc Onion Spec Props

variable {box : SealedBox}

private theorem getElem?_of_prefix {α β : Type} {f : α → β} {l : List β} {m : List α} (h : l <+: m.map f) {i : Nat} {x : β}
    (hx : l[i]? = some x) : ∃ y, m[i]? = some y ∧ f y = x := by
  obtain ⟨hi, rfl⟩ := List.getElem?_eq_some_iff.1 hx
  have := (List.prefix_iff_getElem?.1 h) i hi
  rwa [List.getElem?_map, Option.map_eq_some_iff] at this

theorem tagsTell {S q : Nat} {tag : Nat → BitVec 64} {row : Nat → Nat} {client : List Obs} {backend : Nat → List Obs} (qs : Nat → List QTicket)
    (hq : ∀ t < S, queriesRead (backend t) <+: (qs t).map QTicket.query) (hl : ∀ t < S, lookups (backend t) <+: (qs t).map QTicket.key)
    (hu : ∀ t < S, ∀ x ∈ qs t, ∀ j < q, x.tag = tag j → x.key = row j) (hm : ∀ j < q, ∃ t < S, ∃ x ∈ qs t, x.tag = tag j)
    (hfull : results client ≠ [] → ∀ t < S, (qs t).length ≤ (queriesRead (backend t)).length ∧ (qs t).length ≤ (lookups (backend t)).length) :
    TagsTell S q tag row client backend := by
  refine ⟨fun t ht i qu key j hj h1 h2 h3 => ?_, fun hne j hj => ?_⟩
  · obtain ⟨x, hx, rfl⟩ := getElem?_of_prefix (hq t ht) h1
    obtain ⟨y, hy, rfl⟩ := getElem?_of_prefix (hl t ht) h2
    obtain rfl := Option.some.inj (hx.symm.trans hy)
    exact hu t ht x (List.mem_of_getElem? hx) j hj h3
  · obtain ⟨t, ht, x, hx, e⟩ := hm j hj
    obtain ⟨h1, h2⟩ := hfull hne t ht
    have e1 := (hq t ht).eq_of_length (le_antisymm (hq t ht).length_le (by rwa [List.length_map]))
    have e2 := (hl t ht).eq_of_length (le_antisymm (hl t ht).length_le (by rwa [List.length_map]))
    obtain ⟨i, hi⟩ := List.getElem?_of_mem hx
    refine ⟨t, ht, i, x.query, ?_, ?_, e⟩
    · rw [e1, List.getElem?_map, hi]
      rfl
    · rw [e2, List.getElem?_map, hi, ← hu t ht x hx j hj e]
      rfl

theorem Chain.tagsTell {c : Chain box} (h : c.Valid) {seen : Nat → List Obs} (pre : ∀ i, seen i <+: c.obsAll true true i)
    (hio : InOrder c.parties seen) (h4 : responsesRead (seen 0) ≠ [] → ∀ j, 1 ≤ j → j < c.parties → (responsesRead (seen j)).length = c.queries j)
    (h2 : lookups (seen c.parties) ≠ [] → (queriesRead (seen c.parties)).length = c.queries (c.parties - 1)) :
    TagsTell 1 c.count (BitVec.ofNat 64) c.wanted (seen 0) (fun _ => seen c.parties) := by
  have hP := h.parties
  obtain ⟨k, hk⟩ : ∃ k, k + 1 = c.parties := ⟨c.parties - 1, by omega⟩
  have hlen := (Chain.qs_spec h true k (by omega)).1
  refine Protocol.tagsTell (fun _ => c.qs true k) (fun t _ => ?_) (fun t _ => ?_) (fun t _ x hx j hj e => Chain.qs_tag_key h k (by omega) x hx j hj e)
    (fun j hj => ⟨0, Nat.one_pos, ?_⟩) (fun hne t _ => ?_)
  · rw [← Chain.queriesRead_pos c true k (by omega), hk]
    exact Chain.queriesRead_prefix (pre _)
  · rw [← Chain.lookups_backend c true k hk, ← hk]
    exact Chain.lookups_prefix (pre _)
  · have hm : BitVec.ofNat 64 j ∈ (c.qs true k).map QTicket.tag := by
      rw [(Chain.qs_tags h k (by omega)).mem_iff, List.mem_map]
      refine ⟨j, List.mem_range.2 ?_, rfl⟩
      have : c.count ≤ c.queries k := c.queries_mono (Nat.zero_le k)
      omega
    exact List.mem_map.1 hm
  · have r0 : responsesRead (seen 0) ≠ [] := by
      intro e
      have := hio.results
      rw [e] at this
      exact hne (List.eq_nil_of_length_eq_zero (Nat.le_zero.1 this))
    have a1 := h4 r0 k (by omega) (by omega)
    have a2 := (hio.responses k (by omega)).length_le
    have a3 := hio.lookups
    rw [hk] at a2
    rw [hlen]
    rcases Nat.eq_zero_or_pos (c.queries k) with z | z
    · rw [z]; exact ⟨Nat.zero_le _, Nat.zero_le _⟩
    · have a4 := h2 (List.ne_nil_of_length_pos (by omega))
      rw [← hk, Nat.add_sub_cancel, hk] at a4
      exact ⟨a4.ge, by omega⟩

theorem Grid.tagsTell {g : Grid box} (h : g.Valid) (hd : g.DistinctTags) {seen : Node → List Obs}
    (pre : ∀ i s, s < g.servers → seen (i, s) <+: g.obsAll true true i s)
    (hio : ∀ s < g.servers, InOrder g.parties (fun k => seen (k, s)))
    {s : Nat} (hs : s < g.servers)
    (h4 : responsesRead (seen (0, s)) ≠ [] → ∀ j t, 1 ≤ j → j < g.parties → t < g.servers → (responsesRead (seen (j, t))).length = g.load j t)
    (h2 : ∀ t < g.servers, lookups (seen (g.parties, t)) ≠ [] → (queriesRead (seen (g.parties, t))).length = g.load (g.parties - 1) t) :
    TagsTell g.servers (g.count s) (g.clientTag s) (g.wanted s) (seen (0, s)) (fun t => seen (g.parties, t)) := by
  have hP := h.parties
  obtain ⟨k, hk⟩ : ∃ k, k + 1 = g.parties := ⟨g.parties - 1, by omega⟩
  have hp := Grid.qs_pairs h k (by omega)
  have hnd : ((g.pairsTo k).map Prod.fst).Nodup := by
    rw [Grid.pairsTo_fst]
    exact Grid.tagsTo_nodup hd (by omega)
  have hin : ∀ j < g.count s, (g.clientTag s j, g.wanted s j) ∈ g.pairsTo k := by
    intro j hj
    unfold Grid.pairsTo
    exact List.mem_append_left _ (List.mem_flatMap.2 ⟨s, List.mem_range.2 hs, List.mem_map.2 ⟨j, List.mem_range.2 hj, rfl⟩⟩)
  refine Protocol.tagsTell (fun t => g.qs true k t) (fun t ht => ?_) (fun t ht => ?_) (fun t ht x hx j hj e => ?_) (fun j hj => ?_)
    (fun hne t ht => ?_)
  · rw [← Grid.queriesRead_pos g true t k (by omega), hk]
    exact Chain.queriesRead_prefix (pre _ t ht)
  · rw [← Grid.lookups_backend g true t k hk, ← hk]
    exact Chain.lookups_prefix (pre _ t ht)
  · have hx' : (x.tag, x.key) ∈ g.pairsTo k := by
      rw [← hp.mem_iff]
      exact List.mem_flatMap.2 ⟨t, List.mem_range.2 ht, List.mem_map.2 ⟨x, hx, rfl⟩⟩
    rw [e] at hx'
    exact Grid.eq_of_nodup_fst hnd hx' (hin j hj)
  · have := hin j hj
    rw [← hp.mem_iff, List.mem_flatMap] at this
    obtain ⟨t, ht, hx⟩ := this
    obtain ⟨x, hx, e⟩ := List.mem_map.1 hx
    exact ⟨t, List.mem_range.1 ht, x, hx, congrArg Prod.fst e⟩
  · have r0 : responsesRead (seen (0, s)) ≠ [] := by
      intro e
      have := (hio s hs).results
      simp only [e] at this
      exact hne (List.eq_nil_of_length_eq_zero (Nat.le_zero.1 this))
    have a1 := h4 r0 k t (by omega) (by omega) ht
    have a2 := ((hio t ht).responses k (by omega)).length_le
    have a3 := (hio t ht).lookups
    simp only [hk] at a2 a3
    rw [(Grid.qs_spec h true k (by omega) t ht).1]
    rcases Nat.eq_zero_or_pos (g.load k t) with z | z
    · rw [z]; exact ⟨Nat.zero_le _, Nat.zero_le _⟩
    · have a4 := h2 t ht (List.ne_nil_of_length_pos (by omega))
      rw [← hk, Nat.add_sub_cancel, hk] at a4
      exact ⟨a4.ge, by omega⟩

end DPPIR.Protocol

namespace DPPIR.Props
open DPPIR Proc Protocol

theorem TagsTell.congr {S q : Nat} {tag tag' : Nat → BitVec 64} {row row' : Nat → Nat} {client : List Obs} {backend : Nat → List Obs}
    (h : TagsTell S q tag row client backend) (ht : ∀ j < q, tag j = tag' j) (hr : ∀ j < q, row j = row' j) :
    TagsTell S q tag' row' client backend := by
  refine ⟨fun t hS i qu key j hj h1 h2 h3 => ?_, fun hne j hj => ?_⟩
  · rw [← hr j hj]
    exact h.tells t hS i qu key j hj h1 h2 (h3.trans (ht j hj).symm)
  · rw [← hr j hj, ← ht j hj]
    exact h.all hne j hj

end DPPIR.Props
