import Verif.Spec.Origins
import Verif.Proofs.Generator
import Verif.Proofs.LoopsNet

/-!
# The order of the queries at the backend is a function of the counts and the seeds
-/

namespace DPPIR.Protocol
open DPPIR.Main DPPIR.Onion DPPIR.Shuffle

variable {box : SealedBox}

namespace Chain

/-- The origins of the queries travelling from process `k` to process `k + 1`. -/
def origins (c : Chain box) : Nat → List Origin
  | 0 => (List.range c.count).map (.query 0)
  | k + 1 => pick (c.shuf k).backward ((noiseKeys (c.partyRand k).sample c.rows).map .noise ++ c.origins k)

theorem qs_origins (c : Chain box) (offline : Bool) (k : Nat) :
    (c.qs offline k).map QTicket.key = (c.origins k).map (Origin.row (fun _ => c.wanted)) := by
  induction k with
  | zero => rw [qs_zero_keys, origins, List.map_map]; rfl
  | succ k ih =>
    rw [qs, origins, ← pick_map, ← pick_map, List.map_append, List.map_append, noiseQs_keys, List.map_map, List.map_map,
      show QTicket.key ∘ QTicket.next = QTicket.key from rfl, ih, show Origin.row (fun _ => c.wanted) ∘ Origin.noise = id from rfl, List.map_id]

theorem origins_perm {c : Chain box} (h : c.Valid) (k : Nat) (hk : k < c.parties) :
    (c.origins k).length = c.queries k ∧
    (c.origins k).Perm ((List.range c.count).map (.query 0) ++ (c.allNoise k).map .noise) := by
  induction k with
  | zero => simp [origins, allNoise, queries]
  | succ k ih =>
    obtain ⟨h1, h2⟩ := ih (by omega)
    have hl : ((noiseKeys (c.partyRand k).sample c.rows).map Origin.noise ++ c.origins k).length = c.queries (k + 1) := by
      rw [List.length_append, List.length_map, noiseKeys_length, h1, queries, Nat.add_comm]
      rfl
    have hp : (c.origins (k + 1)).Perm ((noiseKeys (c.partyRand k).sample c.rows).map .noise ++ c.origins k) := by
      rw [origins]
      apply pick_perm
      rw [hl]
      exact (isShuffler h hk).permB
    refine ⟨by rw [hp.length_eq, hl], hp.trans (List.perm_append_comm.trans ((h2.append_right _).trans (List.Perm.of_eq ?_)))⟩
    rw [List.append_assoc, ← List.map_append, allNoise, allNoise, List.range_succ, List.flatMap_append, List.flatMap_singleton]

theorem origins_congr {c c' : Chain box} (h1 : c'.count = c.count) (h2 : c'.rows = c.rows) (h3 : c'.seed = c.seed)
    (h4 : ∀ k, (c'.partyRand k).rand = (c.partyRand k).rand) (h5 : ∀ k, (c'.partyRand k).sample = (c.partyRand k).sample) (k : Nat) :
    c'.origins k = c.origins k := by
  have hq : ∀ k, c'.queries k = c.queries k := by
    intro k
    induction k with
    | zero => exact h1
    | succ k ih => rw [queries, queries, ih, noise, noise, h2, h5]
  induction k with
  | zero => rw [origins, origins, h1]
  | succ k ih => rw [origins, origins, ih, h2, h5, shuf, shuf, h3, h4, hq]

end Chain

namespace Grid

/-- The origins of the queries travelling from server `s` of level `k` to level `k + 1`. -/
def origins (g : Grid box) : Nat → Nat → List Origin
  | 0, s => (List.range (g.count s)).map (.query s)
  | k + 1, s => shuffled g.servers (g.dests k) (fun s => (g.noiseKeysOf k s).map .noise ++ g.origins k s) (g.slot k s).shuf.backward s

theorem qs_origins (g : Grid box) (offline : Bool) (k s : Nat) :
    (g.qs offline k s).map QTicket.key = (g.origins k s).map (Origin.row g.wanted) := by
  induction k generalizing s with
  | zero => rw [qs_zero_keys, origins, List.map_map]; rfl
  | succ k ih =>
    rw [qs, origins, ← shuffled_map, ← shuffled_map]
    congr 1
    funext s
    rw [rawQ, List.map_append, List.map_append, noiseQs_keys, List.map_map, List.map_map,
      show QTicket.key ∘ QTicket.next = QTicket.key from rfl, ih, show Origin.row g.wanted ∘ Origin.noise = id from rfl, List.map_id]

theorem origins_perm {g : Grid box} (h : g.Valid) (k : Nat) (hk : k < g.parties) :
    (∀ s < g.servers, (g.origins k s).length = g.load k s) ∧
    ((List.range g.servers).flatMap (g.origins k)).Perm
      ((List.range g.servers).flatMap (fun s => (List.range (g.count s)).map (.query s)) ++
        ((List.range k).flatMap (fun k => (List.range g.servers).flatMap (g.noiseKeysOf k))).map .noise) := by
  have hlen : ∀ s < g.servers, (g.origins k s).length = g.load k s := by
    intro s hs
    have := (qs_spec h true k hk s hs).1
    rw [← List.length_map (f := QTicket.key), qs_origins, List.length_map] at this
    exact this
  refine ⟨hlen, ?_⟩
  clear hlen
  induction k with
  | zero =>
    simp only [List.range_zero, List.flatMap_nil, List.map_nil, List.append_nil]
    exact List.Perm.refl _
  | succ k ih =>
    have hl : ∀ s, s < g.servers → ((g.noiseKeysOf k s).map Origin.noise ++ g.origins k s).length = (g.dests k s).length := by
      intro s hs
      have h1 := (qs_spec h true k (by omega) s hs).1
      rw [← List.length_map (f := QTicket.key), qs_origins, List.length_map] at h1
      rw [List.length_append, List.length_map, ← noiseQs_keys g true, List.length_map, noiseQs_length, h1, dests_length h hk hs]
    have hp := shuffled_perm g.servers (g.dests k) (fun s => (g.noiseKeysOf k s).map Origin.noise ++ g.origins k s)
      (fun t => (g.slot k t).shuf.backward) hl (routing h hk).lt (fun t ht => (isShuffler h hk ht).permB)
    refine (List.Perm.trans (List.Perm.of_eq rfl) hp).trans ?_
    rw [List.range_succ, List.flatMap_append, List.flatMap_singleton, List.map_append, ← List.append_assoc]
    refine (flatMap_append_perm' _ _ _).trans (List.perm_append_comm.trans ((ih (by omega)).append_right _)) |>.trans (List.Perm.of_eq ?_)
    rw [List.map_flatMap, ← List.map_flatMap (f := Origin.noise) (g := g.noiseKeysOf k)]

theorem origins_congr {g g' : Grid box} (h0 : g'.servers = g.servers) (h1 : g'.count = g.count) (h2 : g'.rows = g.rows)
    (h3 : g'.sharedSeed = g.sharedSeed) (h3' : g'.localSeed = g.localSeed) (h4 : g'.rand = g.rand)
    (h5 : ∀ k s, (g'.partyRand k s).sample = (g.partyRand k s).sample) (k s : Nat) :
    g'.origins k s = g.origins k s := by
  have hw : g'.width = g.width := by
    funext s
    unfold width first share
    rw [h0, h2]
  have hf : g'.first = g.first := by
    funext s
    unfold first share
    rw [h0, h2]
  have hn : ∀ k, g'.noise k = g.noise k := by
    intro k
    funext s
    unfold noise
    rw [hw, h5]
  have ht : ∀ k, g'.total k = g.total k := by
    intro k
    induction k with
    | zero => rw [total_zero, total_zero, h0, h1]
    | succ k ih => rw [total_succ, total_succ, ih, hn, h0]
  have hl : ∀ k, g'.load k = g.load k := by
    intro k
    funext s
    cases k with
    | zero => exact congrFun h1 s
    | succ k => rw [load_succ, load_succ, h0, ht]
  have hds : ∀ k s, (g'.slot k s).dests = (g.slot k s).dests := by
    intro k s
    unfold Slot.dests Slot.counts
    show planOf g'.rand (g'.sharedSeed k) (tab g'.servers (fun t => g'.noise k t + g'.load k t)) = planOf g.rand (g.sharedSeed k) (tab g.servers (fun t => g.noise k t + g.load k t))
    rw [h0, h3, h4, hn, hl]
  have hsh : ∀ k s, (g'.slot k s).shuf = (g.slot k s).shuf := by
    intro k s
    unfold Slot.shuf Slot.slice
    rw [hds]
    show shufOf g'.rand (g'.localSeed k s) (sliceOf g'.servers _ s) = shufOf g.rand (g.localSeed k s) (sliceOf g.servers _ s)
    rw [h0, h3', h4]
  have hk : ∀ k, g'.noiseKeysOf k = g.noiseKeysOf k := by
    intro k
    funext s
    unfold noiseKeysOf
    rw [hw, hf, h5]
  induction k generalizing s with
  | zero => rw [origins, origins, h1]
  | succ k ih =>
    rw [origins, origins, h0, hsh, hk, show g'.dests k = g.dests k from hds k 0]
    congr 1
    funext s
    rw [ih]

end Grid

end DPPIR.Protocol
