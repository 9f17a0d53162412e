import Verif.Proofs.StartCausal
import Verif.Spec.InClear

/-!
# Without the offline stage nothing is hidden
-/

namespace DPPIR.Protocol
open DPPIR Proc Onion Incremental Additive Spec Props

variable {box : SealedBox}

/-- A query of the simulated mode: the tally is the key, the masks are zero. -/
structure QTicket.Plain (rows : Nat) (t : QTicket) : Prop where
  tally : t.tally.toNat = t.key
  key : t.key < rows
  shares : ∀ s ∈ t.shares, s = ⟨0, 1⟩
  pres : ∀ p ∈ t.pres, p = fun _ => 0

theorem reconstruct_id {t : BitVec 32} (h : t.toNat < p) : incrementalReconstruct t ⟨0, 1⟩ = t := by
  have h32 := t.isLt
  unfold incrementalReconstruct incrementalReconstructWith machine
  have e : ((t.toNat : Int) * ((1 : BitVec 32).toNat : Int)) = t.toNat := by simp
  have e0 : ((0 : BitVec 32).toNat : Int) = 0 := by simp
  rw [e, e0]
  have h1 : ((t.toNat : Int) % 2 ^ 64 + 0) % 2 ^ 64 = t.toNat := by omega
  rw [h1]
  have h2 : (t.toNat : Int) % incrementalPrime = t.toNat := Int.emod_eq_of_lt (by omega) (by exact_mod_cast h)
  rw [h2]
  simp

theorem applyAll_id {l : List Share} (hl : ∀ s ∈ l, s = ⟨0, 1⟩) {t : BitVec 32} (h : t.toNat < p) : applyAll l t = t := by
  unfold applyAll
  induction l with
  | nil => rfl
  | cons s l ih =>
    rw [List.foldl_cons, hl s List.mem_cons_self, reconstruct_id h]
    exact ih fun x hx => hl x (List.mem_cons_of_mem _ hx)

theorem QTicket.Plain.fresh {rows : Nat} (hrows : rows ≤ p) {key m : Nat} (hk : key < rows) (hm : 0 < m) (tag : BitVec 64) :
    (QTicket.fresh tag key (List.replicate m ⟨0, 1⟩) (List.replicate m (fun _ => 0))).Plain rows := by
  have hs : ∀ s ∈ List.replicate m (⟨0, 1⟩ : Share), s = ⟨0, 1⟩ := fun s h => List.eq_of_mem_replicate h
  obtain ⟨t, h1, h2, h3⟩ := roundtrip_aux (BitVec.ofNat 32 key) (List.replicate m ⟨0, 1⟩) (fun s h => hs s h ▸ isShare_id)
    (by intro e; have := congrArg List.length e; simp at this; omega)
  have hp : p < 2 ^ 32 := by decide
  refine ⟨?_, hk, hs, fun q h => List.eq_of_mem_replicate h⟩
  simp only [QTicket.fresh, h1]
  rw [applyAll_id hs h2, BitVec.toNat_ofNat, Nat.mod_eq_of_lt (by omega : key < 2 ^ 32), Nat.mod_eq_of_lt (by omega)] at h3
  exact h3

theorem QTicket.Plain.next {rows : Nat} (hrows : rows ≤ p) {t : QTicket} (h : t.Plain rows) : t.next.Plain rows := by
  have hh : t.shares.headD ⟨0, 1⟩ = ⟨0, 1⟩ := by
    cases e : t.shares with
    | nil => rfl
    | cons s l => exact h.shares s (by rw [e]; exact List.mem_cons_self)
  refine ⟨?_, h.key, fun s hs => h.shares s (List.mem_of_mem_tail hs), fun q hq => h.pres q (List.mem_of_mem_tail hq)⟩
  show (incrementalReconstruct t.tally (t.shares.headD ⟨0, 1⟩)).toNat = t.key
  have := h.tally
  have := h.key
  rw [hh, reconstruct_id (by omega)]
  exact h.tally

theorem QTicket.Plain.resp {rows : Nat} {t : QTicket} (h : t.Plain rows) : t.resp = Database.row t.key := by
  have e : ∀ (l : List Preshare) (a : Preshare), (∀ q ∈ l, q = fun _ => 0) → bxAll l a = a := by
    intro l
    induction l with
    | nil => exact fun _ _ => rfl
    | cons q l ih =>
      intro a hl
      show bxAll l (bx a q) = a
      rw [hl q List.mem_cons_self, bx_zero, ih a fun x hx => hl x (List.mem_cons_of_mem _ hx)]
  unfold QTicket.resp
  rw [e _ _ h.pres, ofMem_mem]

theorem noiseQ_plain {rows : Nat} (hrows : rows ≤ p) {keys : List Nat} (hk : ∀ key ∈ keys, key < rows) {m : Nat} (hm : 0 < m)
    (tag : Nat → BitVec 64) :
    ∀ t ∈ noiseQ keys tag (fun _ => List.replicate m ⟨0, 1⟩) (fun _ => List.replicate m (fun _ => 0)), t.Plain rows := by
  intro t ht
  obtain ⟨i, hi, rfl⟩ := List.mem_mapIdx.1 ht
  exact QTicket.Plain.fresh hrows (hk _ (List.getElem_mem _)) hm _

theorem randomRow_lt {rows : Nat} (h : 0 < rows) (r : Nat) : ({ size := rows, rows := [] } : Database).randomRow r < rows := by
  unfold Database.randomRow
  dsimp only
  split
  · omega
  · exact Nat.mod_lt _ h

theorem Chain.qs_plain {c : Chain box} (h : c.Valid) (k : Nat) (hk : k < c.parties) : ∀ t ∈ c.qs false k, t.Plain c.rows := by
  have hr := h.rowsp
  induction k with
  | zero =>
    intro t ht
    obtain ⟨j, -, rfl⟩ := List.mem_map.1 ht
    exact QTicket.Plain.fresh hr.2 (randomRow_lt hr.1 _) hk _
  | succ k ih =>
    intro t ht
    rw [Chain.qs] at ht
    have := pick_subset ht
    rw [List.mem_append, List.mem_map] at this
    rcases this with h1 | ⟨t', h1, rfl⟩
    · exact noiseQ_plain hr.2 (noiseKeys_lt _ _) (by omega) _ t h1
    · exact (ih (by omega) t' h1).next hr.2

theorem Grid.qs_plain {g : Grid box} (h : g.Valid) (k : Nat) (hk : k < g.parties) : ∀ s < g.servers, ∀ t ∈ g.qs false k s, t.Plain g.rows := by
  have hr := h.rowsp
  induction k with
  | zero =>
    intro s _ t ht
    obtain ⟨j, -, rfl⟩ := List.mem_map.1 ht
    exact QTicket.Plain.fresh hr.2 (randomRow_lt hr.1 _) hk _
  | succ k ih =>
    intro s _ t ht
    rw [Grid.qs] at ht
    obtain ⟨s', hs', h1⟩ := mem_shuffled ht
    unfold rawQ at h1
    rw [List.mem_append, List.mem_map] at h1
    rcases h1 with h1 | ⟨t', h1, rfl⟩
    · refine noiseQ_plain hr.2 (fun key hkey => ?_) (by omega) _ t h1
      exact lt_of_lt_of_le (noiseKeysAt_lt _ _ _ key hkey) (first_width h hs')
    · exact (ih (by omega) s' hs' t' h1).next hr.2

theorem inClear {rows P : Nat} {keys : List Nat} {seen : Nat → List Obs} (hP : 0 < P) (qs : Nat → List QTicket)
    (plain : ∀ k < P, ∀ t ∈ qs k, t.Plain rows) (hq : ∀ k < P, queriesRead (seen (k + 1)) <+: (qs k).map QTicket.query)
    (hr : ∀ k < P, responsesSent (seen (k + 1)) <+: (qs k).map QTicket.resp) (hk : (qs 0).map QTicket.key = keys)
    (hall : queriesSent (seen 1) ≠ [] → (queriesRead (seen 1)).length = keys.length) : InClear rows P keys seen := by
  have look : ∀ db, Database.new rows = .ok db → ∀ k < P, ∀ t ∈ qs k, db.lookup t.key = .ok t.resp := by
    intro db hd k hk t ht
    rw [database_new] at hd
    obtain rfl := Except.ok.inj hd
    have := (plain k hk t ht).key
    rw [(plain k hk t ht).resp]
    exact rd_eq_ok.2 (by simp [this])
  have h1 : (queriesRead (seen 1)).map (fun q : Query => q.tally.toNat) <+: keys := by
    have := (hq 0 hP).map (fun q : Query => q.tally.toNat)
    rw [List.map_map] at this
    rw [← hk]
    convert this using 1
    exact List.map_congr_left fun t ht => ((plain 0 hP t ht).tally).symm
  refine ⟨h1, fun h => h1.eq_of_length (by rw [List.length_map, hall h]), fun db hd => ?_, fun db hd k hkP j q r h2 h3 => ?_⟩
  · have := (hr 0 hP).map (Except.ok (ε := Fault))
    rw [List.map_map] at this
    rw [← hk, List.map_map]
    convert this using 1
    exact List.map_congr_left fun t ht => look db hd 0 hP t ht
  · obtain ⟨hj, rfl⟩ := List.getElem?_eq_some_iff.1 h2
    obtain ⟨hj', rfl⟩ := List.getElem?_eq_some_iff.1 h3
    have e1 := (List.prefix_iff_getElem?.1 (hq k hkP)) j hj
    have e2 := (List.prefix_iff_getElem?.1 (hr k hkP)) j hj'
    rw [List.getElem?_map, Option.map_eq_some_iff] at e1 e2
    obtain ⟨t, ht, e1⟩ := e1
    obtain ⟨t', ht', e2⟩ := e2
    obtain rfl := Option.some.inj (ht.symm.trans ht')
    have hmem := List.mem_of_getElem? ht
    rw [← e1, ← e2]
    show db.lookup t.tally.toNat = _
    rw [(plain k hkP t hmem).tally]
    exact look db hd k hkP t hmem

theorem Chain.inClear {c : Chain box} (h : c.Valid) (n : PNet Nat Obs Unit)
    (pre : ∀ i, n.seen i <+: c.obsAll false true i)
    (hall : queriesSent (n.seen 1) ≠ [] → (queriesRead (n.seen 1)).length = c.count) :
    InClear c.rows c.parties ((List.range c.count).map c.wanted) n.seen := by
  have hP := h.parties
  refine Protocol.inClear (by omega) (c.qs false) (fun k hk => Chain.qs_plain h k hk) (fun k hk => ?_) (fun k hk => ?_)
    (Chain.qs_zero_keys c false) (fun hne => by simpa using hall hne)
  · rw [← Chain.queriesRead_pos c false k hk]
    exact Chain.queriesRead_prefix (pre _)
  · rw [← Chain.responsesSent_pos c false k hk]
    exact Chain.responsesSent_prefix (pre _)

theorem Grid.inClear {g : Grid box} (h : g.Valid) (n : PNet Node Obs Unit) {s : Nat} (hs : s < g.servers)
    (pre : ∀ i, n.seen (i, s) <+: g.obsAll false true i s)
    (hall : queriesSent (n.seen (1, s)) ≠ [] → (queriesRead (n.seen (1, s))).length = g.count s) :
    InClear g.rows g.parties ((List.range (g.count s)).map (g.wanted s)) (fun k => n.seen (k, s)) := by
  have hP := h.parties
  refine Protocol.inClear (by omega) (fun k => g.qs false k s) (fun k hk => Grid.qs_plain h k hk s hs) (fun k hk => ?_) (fun k hk => ?_)
    (Grid.qs_zero_keys g false s) (fun hne => by simpa using hall hne)
  · rw [← Grid.queriesRead_pos g false s k hk]
    exact Chain.queriesRead_prefix (pre _)
  · rw [← Grid.responsesSent_pos g false s k hk]
    exact Chain.responsesSent_prefix (pre _)

end DPPIR.Protocol
