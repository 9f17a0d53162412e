import Verif.Proofs.GridTags

/-!
# Tags and keys of the queries at the backend, with several servers per party
-/

namespace DPPIR.Protocol
open DPPIR Proc Onion Spec Props

variable {box : SealedBox}

namespace Grid

/-- Tag and key of a query. -/
def tagKey (q : QTicket) : BitVec 64 × Nat := (q.tag, q.key)

theorem noiseQs_tags (g : Grid box) (k s : Nat) : (g.noiseQs true k s).map QTicket.tag = (List.range (g.noise k s)).map (g.noiseTag k s) := by
  refine List.ext_getElem? fun i => ?_
  simp only [noiseQs, if_true, List.getElem?_map]
  by_cases hi : i < (noiseKeysAt (g.partyRand k s).sample (g.first s) (g.width s)).length
  · rw [noiseQ_get _ _ _ _ _ hi]
    rw [noiseKeysAt_length, ← noise_eq] at hi
    rw [List.getElem?_range hi]
    rfl
  · rw [List.getElem?_eq_none (by rw [noiseQ_length]; omega)]
    rw [noiseKeysAt_length, ← noise_eq] at hi
    rw [List.getElem?_eq_none (by rw [List.length_range]; omega)]
    rfl

/-- Tags and keys of all queries that reach the servers of party `k`, in some order. -/
def pairsTo (g : Grid box) (k : Nat) : List (BitVec 64 × Nat) :=
  (List.range g.servers).flatMap (fun s => (List.range (g.count s)).map (fun j => (g.clientTag s j, g.wanted s j))) ++
  (List.range k).flatMap (fun k => (List.range g.servers).flatMap (fun s => (g.noiseQs true k s).map tagKey))

theorem pairsTo_fst (g : Grid box) (k : Nat) : (g.pairsTo k).map Prod.fst = g.tagsTo k := by
  unfold pairsTo tagsTo
  rw [List.map_append, List.map_flatMap, List.map_flatMap]
  congr 1
  · refine List.flatMap_congr fun s _ => ?_
    rw [List.map_map]
    rfl
  · refine List.flatMap_congr fun j _ => ?_
    rw [List.map_flatMap]
    refine List.flatMap_congr fun s _ => ?_
    rw [← noiseQs_tags, List.map_map]
    rfl

theorem qs_pairs {g : Grid box} (h : g.Valid) (k : Nat) (hk : k < g.parties) :
    ((List.range g.servers).flatMap (fun s => (g.qs true k s).map tagKey)).Perm (g.pairsTo k) := by
  induction k with
  | zero =>
    unfold pairsTo
    rw [List.range_zero, List.flatMap_nil, List.append_nil]
    refine List.Perm.of_eq (List.flatMap_congr fun s _ => ?_)
    rw [qs, List.map_map]
    rfl
  | succ k ih =>
    have hlen : ∀ s, s < g.servers → (rawQ (g.noiseQs true k) (g.qs true k) s).length = (g.dests k s).length := by
      intro s hs
      rw [rawQ_length g true _ s (qs_spec h true k (by omega) s hs).1, dests_length h hk hs]
    have hp := (shuffled_perm g.servers (g.dests k) (rawQ (g.noiseQs true k) (g.qs true k)) (fun t => (g.slot k t).shuf.backward)
        hlen (routing h hk).lt (fun t ht => (isShuffler h hk ht).permB)).map tagKey
    rw [List.map_flatMap, List.map_flatMap] at hp
    refine (List.Perm.trans (List.Perm.of_eq rfl) hp).trans ?_
    have e : (fun s => (rawQ (g.noiseQs true k) (g.qs true k) s).map tagKey) =
        fun s => (g.noiseQs true k s).map tagKey ++ (g.qs true k s).map tagKey := by
      funext s
      unfold rawQ
      rw [List.map_append, List.map_map]
      rfl
    unfold pairsTo at ih ⊢
    rw [e, List.range_succ, List.flatMap_append, List.flatMap_singleton, ← List.append_assoc]
    exact (flatMap_append_perm' _ _ _).trans (List.perm_append_comm.trans ((ih (by omega)).append_right _))

theorem eq_of_nodup_fst {α β : Type} {l : List (α × β)} (h : (l.map Prod.fst).Nodup) {a : α} {b b' : β} (h1 : (a, b) ∈ l)
    (h2 : (a, b') ∈ l) : b = b' := by
  have := List.inj_on_of_nodup_map h h1 h2 rfl
  exact congrArg Prod.snd this

end Grid

end DPPIR.Protocol
