import Verif.Proofs.ParallelStages
import Verif.Proofs.Chain
import Verif.Spec.Grid

/-!
# A deployment with several servers per party: counts, tickets and queries
-/

namespace DPPIR.Protocol
open DPPIR Proc Onion Incremental Additive Spec Props Shuffle

variable {box : SealedBox}

namespace Grid

/-- Server `s` of party `k`. -/
def slot (g : Grid box) (k s : Nat) : Slot box :=
  { S := g.servers, me := s, k := k, m := g.parties - k - 1, rows := g.rows, seed := g.sharedSeed k, lseed := g.localSeed k s
    rand := g.choices k s, noise := g.noise k, input := g.load k, start := g.first s, len := g.width s, pkeys := g.pkeys
    skeys := (List.range g.parties).map g.skey }

/-- Where the messages of the servers of party `k` go. -/
def dests (g : Grid box) (k : Nat) : Nat → List Nat := (g.slot k 0).dests

theorem slot_dests (g : Grid box) (k s : Nat) : (g.slot k s).dests = g.dests k := rfl

/-- Noise tickets of server `s` of party `k`. -/
def noiseTs (g : Grid box) (k s : Nat) : List (Ticket box) :=
  (List.range (g.noise k s)).map (fun i => ((g.partyRand k s).secret i).ticket (g.parties - k - 1) (g.noiseTag k s i))

/-- The secrets travelling from server `s` of level `k` to level `k + 1`. -/
def tickets (g : Grid box) : Nat → Nat → List (Ticket box)
  | 0, s => (List.range (g.count s)).map (fun i => ((g.clientRand s).secret i).ticket g.parties (g.clientTag s i))
  | k + 1, s => shuffled g.servers (g.dests k) (Slot.mixed (g.tickets k) (g.noiseTs k)) (g.slot k s).shuf.backward s

/-- Noise queries of server `s` of party `k`. -/
def noiseQs (g : Grid box) (offline : Bool) (k s : Nat) : List QTicket :=
  if offline then noiseQ (noiseKeysAt (g.partyRand k s).sample (g.first s) (g.width s)) (g.noiseTag k s) (g.slot k s).shares (g.slot k s).pres
  else noiseQ (noiseKeysAt (g.partyRand k s).sample (g.first s) (g.width s)) (fun _ => 0)
    (fun _ => List.replicate (g.parties - k - 1) ⟨0, 1⟩) (fun _ => List.replicate (g.parties - k - 1) (fun _ => 0))

/-- The secrets behind the queries of client `s`. -/
def tag (g : Grid box) (offline : Bool) (s j : Nat) : BitVec 64 := if offline then g.clientTag s j else 0
def shares (g : Grid box) (offline : Bool) (s j : Nat) : List Share :=
  if offline then preIncrementalSecretShares ((g.clientRand s).secret j).shares g.parties else List.replicate g.parties ⟨0, 1⟩
def pres (g : Grid box) (offline : Bool) (s j : Nat) : List Preshare :=
  if offline then (List.range g.parties).map ((g.clientRand s).secret j).preshares else List.replicate g.parties (fun _ => 0)
def own (g : Grid box) (offline : Bool) (s j : Nat) : Preshare :=
  if offline then ((g.clientRand s).secret j).own g.parties else fun _ => 0

/-- The queries of client `s`. -/
def clientQs (g : Grid box) (offline : Bool) (s j : Nat) : QTicket :=
  clientQ g.rows (g.clientRand s).row (g.tag offline s) (g.shares offline s) (g.pres offline s) j

/-- The queries travelling from server `s` of level `k` to level `k + 1`. -/
def qs (g : Grid box) (offline : Bool) : Nat → Nat → List QTicket
  | 0, s => (List.range (g.count s)).map (g.clientQs offline s)
  | k + 1, s => shuffled g.servers (g.dests k) (rawQ (g.noiseQs offline k) (g.qs offline k)) (g.slot k s).shuf.backward s

/-- What server `s` of party `k` broadcasts. -/
def items (g : Grid box) (k s : Nat) : List OfflineSecret :=
  ((g.partyRand k s).order ((g.tickets k s).map (fun t => OfflineSecret.entry t.head))).map secretOf

/-- What server `s` of the backend broadcasts. -/
def itemsB (g : Grid box) (s : Nat) : List OfflineSecret :=
  (g.backendOrder s ((g.tickets (g.parties - 1) s).map (fun t => OfflineSecret.entryB t.head))).map secretOfB

/-! ### Counts -/

theorem noise_eq (g : Grid box) (k s : Nat) : g.noise k s = sampleSum (g.partyRand k s).sample (g.width s) := rfl

theorem total_zero (g : Grid box) : g.total 0 = preSum g.count g.servers := rfl
theorem total_succ (g : Grid box) (k : Nat) : g.total (k + 1) = g.total k + preSum (g.noise k) g.servers := rfl

theorem total_mono (g : Grid box) {i j : Nat} (h : i ≤ j) : g.total i ≤ g.total j := by
  induction j, h using Nat.le_induction with
  | base => exact Nat.le_refl _
  | succ j _ ih => rw [total_succ]; omega

theorem preSum_const (q n : Nat) : preSum (fun _ => q) n = n * q := by
  induction n with
  | zero => simp [preSum_zero]
  | succ n ih => rw [preSum_succ, ih, Nat.succ_mul]

theorem load_succ (g : Grid box) (k s : Nat) : g.load (k + 1) s =
    if s + 1 = g.servers then g.total (k + 1) - (g.servers - 1) * (g.total (k + 1) / g.servers) else g.total (k + 1) / g.servers := rfl

theorem load_sum (g : Grid box) (hS : 0 < g.servers) (k : Nat) : preSum (g.load k) g.servers = g.total k := by
  cases k with
  | zero => exact (total_zero g).symm
  | succ k =>
    obtain ⟨n, hn⟩ : ∃ n, g.servers = n + 1 := ⟨g.servers - 1, by omega⟩
    have e : preSum (g.load (k + 1)) n = n * (g.total (k + 1) / g.servers) := by
      rw [preSum_congr (g := fun _ => g.total (k + 1) / g.servers), preSum_const]
      intro s hs
      rw [load_succ, if_neg (by omega)]
    have h1 : n * (g.total (k + 1) / g.servers) ≤ g.total (k + 1) := by
      calc n * (g.total (k + 1) / g.servers) ≤ g.servers * (g.total (k + 1) / g.servers) := Nat.mul_le_mul_right _ (by omega)
        _ ≤ g.total (k + 1) := Nat.mul_div_le _ _
    conv => lhs; rw [hn]
    rw [preSum_succ, e]
    rw [load_succ, if_pos hn.symm, show g.servers - 1 = n by omega]
    omega

theorem slot_total (g : Grid box) (hS : 0 < g.servers) (k s : Nat) : (g.slot k s).total = g.total (k + 1) := by
  have : (g.slot k s).total = preSum (fun s => g.noise k s + g.load k s) g.servers := rfl
  rw [this, preSum_add, load_sum g hS, total_succ]
  omega

theorem slot_tag (g : Grid box) (hS : 0 < g.servers) (k s i : Nat) : (g.slot k s).tag i = g.noiseTag k s i := by
  unfold Slot.tag noiseTag
  rw [slot_total g hS]
  rfl

theorem Valid.lt {g : Grid box} (h : g.Valid) {k : Nat} (hk : k < g.parties) : g.total k < 2 ^ 32 := by
  have := g.total_mono (show k ≤ g.parties - 1 by omega)
  have := h.fits
  omega

theorem Valid.pos {g : Grid box} (h : g.Valid) : 0 < g.servers := by have := h.servers; omega

theorem Valid.good {g : Grid box} (h : g.Valid) : GoodKeys box g.pkeys ((List.range g.parties).map g.skey) := by
  have e := h.keys
  refine ⟨by rw [e]; simp, ?_⟩
  generalize g.pkeys = pk at e
  subst e
  intro k h1 h2
  simp only [List.getElem_map, List.getElem_range]
  exact h.pairs k (by simpa using h1)

theorem Valid.keysLength {g : Grid box} (h : g.Valid) : g.pkeys.length = g.parties := by rw [h.keys]; simp

theorem Valid.rowsp {g : Grid box} (h : g.Valid) : 0 < g.rows ∧ g.rows ≤ Spec.p := by
  have := h.rows
  have := h.servers
  exact ⟨by omega, h.rows.2⟩

theorem Valid.slot {g : Grid box} (h : g.Valid) {k s : Nat} (hk : k + 1 < g.parties) (hs : s < g.servers) : (g.slot k s).Ok := by
  have hS := h.servers
  have hP := h.parties
  have hR := h.rows
  have hf := findRange_at (rnd := (g.choices k s).rnd) (h.division k s) g.servers g.rows s hs (by omega) (by omega) hR.1 h.ranges
  constructor
  · exact hS.1
  · show g.servers < 255
    omega
  · exact hs
  · show k + (g.parties - k - 1) + 1 = g.pkeys.length
    rw [h.keysLength]; omega
  · show 0 < g.parties - k - 1
    omega
  · show g.pkeys.length ≤ 255
    rw [h.keysLength]; omega
  · exact h.good
  · rw [slot_total g h.pos]
    exact h.lt hk
  · rfl
  · exact hf.2
  · exact h.rowsp.2
  · exact hf.1

theorem slice_eq {g : Grid box} (h : g.Valid) {k s : Nat} (hk : k + 1 < g.parties) (hs : s < g.servers) :
    (g.slot k s).slice = g.load (k + 1) s := by
  rw [(h.slot hk hs).slice_eq, slot_total g h.pos, load_succ]
  have e1 : (g.slot k s).me = s := rfl
  have e2 : (g.slot k s).S = g.servers := rfl
  rw [e1, e2]
  by_cases hl : s + 1 = g.servers
  · rw [if_pos (by omega), if_pos hl]
  · rw [if_neg (by omega), if_neg hl]

theorem routing {g : Grid box} (h : g.Valid) {k : Nat} (hk : k + 1 < g.parties) : Routing g.servers (g.dests k) :=
  (h.slot hk h.pos).routing

theorem dests_length {g : Grid box} (h : g.Valid) {k s : Nat} (hk : k + 1 < g.parties) (hs : s < g.servers) :
    (g.dests k s).length = g.noise k s + g.load k s := (h.slot hk h.pos).dests_length hs

theorem isShuffler {g : Grid box} (h : g.Valid) {k s : Nat} (hk : k + 1 < g.parties) (hs : s < g.servers) :
    IsShuffler (g.slot k s).shuf.forward (g.slot k s).shuf.backward (sliceOf g.servers (g.dests k) s) := (h.slot hk hs).shuf

theorem sliceOf_eq {g : Grid box} (h : g.Valid) {k s : Nat} (hk : k + 1 < g.parties) (hs : s < g.servers) :
    sliceOf g.servers (g.dests k) s = g.load (k + 1) s := slice_eq h hk hs

/-! ### Tickets -/

/-- Tags of the clients and of the noise of the parties before party `k`. -/
def tagsTo (g : Grid box) (k : Nat) : List (BitVec 64) :=
  (List.range g.servers).flatMap (fun s => (List.range (g.count s)).map (g.clientTag s)) ++
  (List.range k).flatMap (fun k => (List.range g.servers).flatMap (fun s => (List.range (g.noise k s)).map (g.noiseTag k s)))

theorem tagsTo_succ (g : Grid box) (k : Nat) :
    g.tagsTo (k + 1) = g.tagsTo k ++ (List.range g.servers).flatMap (fun s => (List.range (g.noise k s)).map (g.noiseTag k s)) := by
  unfold tagsTo
  rw [List.range_succ, List.flatMap_append, List.append_assoc]
  simp

theorem tagsTo_sublist (g : Grid box) {i j : Nat} (h : i ≤ j) : (g.tagsTo i).Sublist (g.tagsTo j) := by
  induction j, h using Nat.le_induction with
  | base => exact List.Sublist.refl _
  | succ j _ ih => rw [tagsTo_succ]; exact ih.trans (List.sublist_append_left _ _)

theorem tagsTo_nodup {g : Grid box} (hd : g.DistinctTags) {k : Nat} (hk : k < g.parties) : (g.tagsTo k).Nodup :=
  List.Nodup.sublist (g.tagsTo_sublist (show k ≤ g.parties - 1 by omega)) hd

theorem flatMap_append_perm' {α : Type} (l : List Nat) (f f' : Nat → List α) :
    (l.flatMap (fun s => f s ++ f' s)).Perm (l.flatMap f ++ l.flatMap f') := (List.flatMap_append_perm _ _ _).symm

theorem mixed_length (g : Grid box) {k : Nat} (T : Nat → List (Ticket box)) (s : Nat) (h : (T s).length = g.load k s) :
    (Slot.mixed T (g.noiseTs k) s).length = g.noise k s + g.load k s := by
  simp [Slot.mixed, noiseTs, h]

theorem tickets_spec {g : Grid box} (h : g.Valid) (k : Nat) (hk : k < g.parties) :
    (∀ s, s < g.servers → (g.tickets k s).length = g.load k s ∧ ∀ t ∈ g.tickets k s, t.Good (g.parties - k)) ∧
      ((List.range g.servers).flatMap (fun s => (g.tickets k s).map Ticket.tag)).Perm (g.tagsTo k) := by
  induction k with
  | zero =>
    refine ⟨?_, ?_⟩
    · intro s hs
      refine ⟨by simp [tickets, load], ?_⟩
      intro t ht
      simp only [tickets, List.mem_map] at ht
      obtain ⟨i, -, rfl⟩ := ht
      exact SecretRand.ticket_good _ _ _
    · refine List.Perm.of_eq ?_
      simp only [tagsTo, List.range_zero, List.flatMap_nil, List.append_nil, tickets, List.map_map]
      rfl
  | succ k ih =>
    obtain ⟨h1, h2⟩ := ih (by omega)
    have hlen : ∀ s, s < g.servers → (Slot.mixed (g.tickets k) (g.noiseTs k) s).length = (g.dests k s).length := by
      intro s hs
      rw [mixed_length g _ s (h1 s hs).1, dests_length h hk hs]
    have hB : ∀ t, t < g.servers → (g.slot k t).shuf.backward.Perm (List.range (sliceOf g.servers (g.dests k) t)) :=
      fun t ht => (isShuffler h hk ht).permB
    refine ⟨?_, ?_⟩
    · intro s hs
      refine ⟨?_, ?_⟩
      · rw [tickets, shuffled_length _ _ _ _ _ hlen (hB s hs), sliceOf_eq h hk hs]
      · intro t ht
        rw [tickets] at ht
        obtain ⟨s', hs', ht⟩ := mem_shuffled ht
        unfold Slot.mixed at ht
        rw [List.mem_append, List.mem_map] at ht
        rcases ht with ht | ⟨t', ht', rfl⟩
        · simp only [noiseTs, List.mem_map] at ht
          obtain ⟨i, -, rfl⟩ := ht
          have := SecretRand.ticket_good ((g.partyRand k s').secret i) (g.parties - k - 1) (g.noiseTag k s' i)
          rwa [Nat.sub_sub] at this
        · have := (h1 s' hs').2 t' ht'
          rw [show g.parties - k = g.parties - (k + 1) + 1 by omega] at this
          exact this.next
    · have hp := shuffled_perm g.servers (g.dests k) (Slot.mixed (g.tickets k) (g.noiseTs k)) (fun t => (g.slot k t).shuf.backward)
        hlen (routing h hk).lt hB
      have hp := hp.map Ticket.tag
      rw [List.map_flatMap, List.map_flatMap] at hp
      refine (List.Perm.trans (List.Perm.of_eq rfl) hp).trans ?_
      have e : (fun s => (Slot.mixed (g.tickets k) (g.noiseTs k) s).map Ticket.tag) =
          fun s => (List.range (g.noise k s)).map (g.noiseTag k s) ++ (g.tickets k s).map Ticket.tag := by
        funext s
        unfold Slot.mixed noiseTs
        rw [List.map_append, List.map_map, List.map_map]
        rfl
      rw [e, tagsTo_succ]
      exact (flatMap_append_perm' _ _ _).trans (List.perm_append_comm.trans (h2.append_right _))

theorem tickets_nodup {g : Grid box} (h : g.Valid) (hd : g.DistinctTags) {k : Nat} (hk : k < g.parties) :
    ((List.range g.servers).flatMap (fun s => (g.tickets k s).map Ticket.tag)).Nodup := by
  rw [(tickets_spec h k hk).2.nodup_iff]
  exact tagsTo_nodup hd hk

theorem secretOf_entry (x : OfflineSecret) : secretOf (OfflineSecret.entry x) = x := rfl
theorem entryB_secretOfB (x : BitVec 64 × BackendSecret) : OfflineSecret.entryB (secretOfB x) = x := rfl

theorem items_perm {g : Grid box} (h : g.Valid) (k s : Nat) : (g.items k s).Perm ((g.tickets k s).map Ticket.head) := by
  unfold items
  refine ((h.order k s _).map secretOf).trans (List.Perm.of_eq ?_)
  rw [List.map_map]
  rfl

theorem itemsB_perm {g : Grid box} (h : g.Valid) (s : Nat) :
    ((g.itemsB s).map OfflineSecret.entryB).Perm ((g.tickets (g.parties - 1) s).map (fun t => OfflineSecret.entryB t.head)) := by
  unfold itemsB
  rw [List.map_map]
  refine List.Perm.trans (List.Perm.of_eq ?_) (h.backendOrder s _)
  exact (List.map_congr_left (fun x _ => entryB_secretOfB x)).trans (List.map_id _)

theorem load_ok {g : Grid box} (h : g.Valid) {k s : Nat} (hk : k + 1 < g.parties) (hs : s < g.servers) :
    (g.slot k s).Load (g.tickets k) (g.noiseTs k) (g.items k) := by
  obtain ⟨h1, -⟩ := tickets_spec h k (by omega)
  constructor
  · intro t ht; exact (h1 t ht).1
  · intro t ht; simp [noiseTs]; rfl
  · intro t ht x hx
    have := (h1 t ht).2 x hx
    show x.Good (g.parties - k - 1 + 1)
    rwa [show g.parties - k - 1 + 1 = g.parties - k by omega]
  · intro t ht x hx
    simp only [noiseTs, List.mem_map] at hx
    obtain ⟨i, -, rfl⟩ := hx
    exact SecretRand.ticket_good _ _ _
  · show g.noiseTs k s = _
    unfold noiseTs
    refine List.map_congr_left ?_
    intro i _
    rw [slot_tag g h.pos]
    rfl
  · intro t _; exact items_perm h k t
  · rfl

/-! ### Queries -/

theorem clientQs_good {g : Grid box} (h : g.Valid) (offline : Bool) (s j : Nat) :
    (g.clientQs offline s j).Good g.rows g.parties ∧ (g.shares offline s j).length = g.parties ∧
      (g.pres offline s j).length = g.parties ∧ (∀ x ∈ g.shares offline s j, IsShare x) ∧
      g.own offline s j = bxAll (g.pres offline s j) (fun _ => 0) := by
  have hsl : ∀ j, (g.shares offline s j).length = g.parties := by
    intro j
    unfold shares
    split
    · exact preShares_length _ _
    · simp
  have hpl : ∀ j, (g.pres offline s j).length = g.parties := by
    intro j
    unfold pres
    split <;> simp
  have hsv : ∀ j, ∀ x ∈ g.shares offline s j, IsShare x := by
    intro j x hx
    unfold shares at hx
    split at hx
    · exact preShares_valid _ _ x hx
    · rw [List.eq_of_mem_replicate hx]
      exact isShare_id
  have := h.parties
  refine ⟨(clientQ_good g.rows (j + 1) g.parties (g.clientRand s).row h.rowsp.1 h.rowsp.2 (g.tag offline s) (g.shares offline s)
    (g.pres offline s) (by omega) (fun j _ => hsl j) (fun j _ => hpl j) (fun j _ => hsv j) j (by omega)).2, hsl j, hpl j, hsv j, ?_⟩
  unfold own pres
  split
  · rfl
  · generalize g.parties = m
    induction m with
    | zero => rfl
    | succ m ih =>
      rw [List.replicate_succ]
      have : ∀ (p : Preshare) l a, bxAll (p :: l) a = bxAll l (bx a p) := fun _ _ _ => rfl
      rw [this, show bx (fun _ => 0) (fun _ => 0) = (fun _ => 0 : Preshare) by funext i; simp [bx]]
      exact ih

theorem noiseQs_length (g : Grid box) (offline : Bool) (k s : Nat) : (g.noiseQs offline k s).length = g.noise k s := by
  unfold noiseQs
  split
  · rw [noiseQ_length, noiseKeysAt_length, noise_eq]
  · rw [noiseQ_length, noiseKeysAt_length, noise_eq]

theorem first_width {g : Grid box} (h : g.Valid) {s : Nat} (hs : s < g.servers) : g.first s + g.width s ≤ g.rows :=
  (findRange_at (rnd := (g.partyRand 0 0).rnd) (h.division 0 0) g.servers g.rows s hs (by have := h.servers; omega) (by have := h.rows; omega)
    h.rows.1 h.ranges).2

theorem noiseQs_good {g : Grid box} (h : g.Valid) (offline : Bool) {k s : Nat} (hk : k + 1 < g.parties) (hs : s < g.servers) :
    ∀ q ∈ g.noiseQs offline k s, q.Good g.rows (g.parties - (k + 1)) := by
  have hm : 0 < g.parties - k - 1 := by omega
  unfold noiseQs
  rw [← Nat.sub_sub]
  split
  · exact (noiseQ_good_at _ _ _ _ _ _ _ _ (first_width h hs) h.rowsp.2 hm (fun _ => preShares_valid _ _) (fun _ => preShares_length _ _)
      (fun _ => by simp [Slot.pres]; rfl)).2
  · exact (noiseQ_good_at _ _ _ _ _ _ _ _ (first_width h hs) h.rowsp.2 hm (by
      intro i x hx
      rw [List.eq_of_mem_replicate hx]
      exact isShare_id) (fun _ => by simp) (fun _ => by simp)).2

theorem rawQ_length (g : Grid box) (offline : Bool) {k : Nat} (Q : Nat → List QTicket) (s : Nat) (h : (Q s).length = g.load k s) :
    (rawQ (g.noiseQs offline k) Q s).length = g.noise k s + g.load k s := by
  simp [rawQ, noiseQs_length, h]

/-- A member of the shuffled batch of some server is a member of that of some server of
the level. -/
theorem exists_shuffled {g : Grid box} (h : g.Valid) {k : Nat} (hk : k + 1 < g.parties) {α : Type} (batch : Nat → List α)
    (hlen : ∀ s, s < g.servers → (batch s).length = (g.dests k s).length) {s : Nat} (hs : s < g.servers) {x : α} (hx : x ∈ batch s) :
    ∃ t, t < g.servers ∧ x ∈ shuffled g.servers (g.dests k) batch (g.slot k t).shuf.backward t := by
  have hp := shuffled_perm g.servers (g.dests k) batch (fun t => (g.slot k t).shuf.backward) hlen (routing h hk).lt
    (fun t ht => (isShuffler h hk ht).permB)
  have : x ∈ (List.range g.servers).flatMap batch := List.mem_flatMap.2 ⟨s, List.mem_range.2 hs, hx⟩
  rw [← hp.mem_iff, List.mem_flatMap] at this
  obtain ⟨t, ht, hx⟩ := this
  exact ⟨t, List.mem_range.1 ht, hx⟩

theorem qs_spec {g : Grid box} (h : g.Valid) (offline : Bool) (k : Nat) (hk : k < g.parties) :
    ∀ s, s < g.servers → (g.qs offline k s).length = g.load k s ∧ (∀ q ∈ g.qs offline k s, q.Good g.rows (g.parties - k)) ∧
      (offline = true → ∀ q ∈ g.qs offline k s, ∃ s', s' < g.servers ∧ ∃ t ∈ g.tickets k s', Chain.Matches q t) ∧
      (offline = false → ∀ q ∈ g.qs offline k s, Chain.Plain (g.parties - k) q) := by
  induction k with
  | zero =>
    intro s hs
    refine ⟨by simp [qs, load], ?_, ?_, ?_⟩
    · intro q hq
      simp only [qs, List.mem_map] at hq
      obtain ⟨i, -, rfl⟩ := hq
      exact (clientQs_good h offline s i).1
    · rintro rfl q hq
      simp only [qs, List.mem_map] at hq
      obtain ⟨i, hi, rfl⟩ := hq
      exact ⟨s, hs, _, List.mem_map.2 ⟨i, hi, rfl⟩, rfl, rfl, rfl⟩
    · rintro rfl q hq
      simp only [qs, List.mem_map] at hq
      obtain ⟨i, hi, rfl⟩ := hq
      exact ⟨rfl, rfl, rfl⟩
  | succ k ih =>
    intro s hs
    have ih := ih (by omega)
    have hlen : ∀ s, s < g.servers → (rawQ (g.noiseQs offline k) (g.qs offline k) s).length = (g.dests k s).length := by
      intro s hs
      rw [rawQ_length g offline _ s (ih s hs).1, dests_length h hk hs]
    have hmem : ∀ q ∈ g.qs offline (k + 1) s, ∃ s', s' < g.servers ∧ (q ∈ g.noiseQs offline k s' ∨ ∃ q' ∈ g.qs offline k s', q = q'.next) := by
      intro q hq
      rw [qs] at hq
      obtain ⟨s', hs', hq⟩ := mem_shuffled hq
      unfold rawQ at hq
      rw [List.mem_append, List.mem_map] at hq
      refine ⟨s', hs', hq.imp id ?_⟩
      rintro ⟨q', h1, rfl⟩
      exact ⟨q', h1, rfl⟩
    have hget : ∀ s', ∀ q ∈ g.noiseQs offline k s', ∃ i, i < g.noise k s' ∧
        (offline = true → q.tag = g.noiseTag k s' i ∧ q.shares = (g.slot k s').shares i ∧ q.pres = (g.slot k s').pres i) ∧
        (offline = false → Chain.Plain (g.parties - k - 1) q) := by
      intro s' q hq
      obtain ⟨i, hi⟩ := List.mem_iff_getElem?.1 hq
      have hlt : i < (noiseKeysAt (g.partyRand k s').sample (g.first s') (g.width s')).length := by
        have := (List.getElem?_eq_some_iff.1 hi).1
        rwa [noiseQs_length, noise_eq, ← noiseKeysAt_length (start := g.first s')] at this
      refine ⟨i, by rwa [noiseKeysAt_length] at hlt, ?_, ?_⟩
      · rintro rfl
        simp only [noiseQs, if_true] at hi
        rw [noiseQ_get _ _ _ _ _ hlt] at hi
        obtain rfl := Option.some.inj hi
        exact ⟨rfl, rfl, rfl⟩
      · rintro rfl
        simp only [noiseQs, Bool.false_eq_true, if_false] at hi
        rw [noiseQ_get _ _ _ _ _ hlt] at hi
        obtain rfl := Option.some.inj hi
        exact ⟨rfl, rfl, rfl⟩
    refine ⟨?_, ?_, ?_, ?_⟩
    · rw [qs, shuffled_length _ _ _ _ _ hlen (isShuffler h hk hs).permB, sliceOf_eq h hk hs]
    · intro q hq
      obtain ⟨s', hs', hq | ⟨q', hq', rfl⟩⟩ := hmem q hq
      · exact noiseQs_good h offline hk hs' q hq
      · have := (ih s' hs').2.1 q' hq'
        rw [show g.parties - k = g.parties - (k + 1) + 1 by omega] at this
        exact this.next
    · rintro rfl q hq
      have ht1 := fun s hs => ((tickets_spec h k (by omega)).1 s hs).1
      have htl : ∀ s, s < g.servers → (Slot.mixed (g.tickets k) (g.noiseTs k) s).length = (g.dests k s).length := by
        intro s hs
        rw [mixed_length g _ s (ht1 s hs), dests_length h hk hs]
      obtain ⟨s', hs', hq | ⟨q', hq', rfl⟩⟩ := hmem q hq
      · obtain ⟨i, hi, hm, -⟩ := hget s' q hq
        obtain ⟨e1, e2, e3⟩ := hm rfl
        have : ((g.partyRand k s').secret i).ticket (g.parties - k - 1) (g.noiseTag k s' i) ∈ Slot.mixed (g.tickets k) (g.noiseTs k) s' := by
          unfold Slot.mixed
          rw [List.mem_append]
          left
          exact List.mem_map.2 ⟨i, List.mem_range.2 hi, rfl⟩
        obtain ⟨t, ht, hx⟩ := exists_shuffled h hk _ htl hs' this
        exact ⟨t, ht, _, hx, e1.symm, e2.symm, e3.symm⟩
      · obtain ⟨s'', hs'', t, ht, e1, e2, e3⟩ := (ih s' hs').2.2.1 rfl q' hq'
        have : t.next ∈ Slot.mixed (g.tickets k) (g.noiseTs k) s'' := by
          unfold Slot.mixed
          rw [List.mem_append]
          right
          exact List.mem_map.2 ⟨t, ht, rfl⟩
        obtain ⟨u, hu, hx⟩ := exists_shuffled h hk _ htl hs'' this
        exact ⟨u, hu, _, hx, e1, by simp [Ticket.next, QTicket.next, e2], by simp [Ticket.next, QTicket.next, e3]⟩
    · rintro rfl q hq
      obtain ⟨s', hs', hq | ⟨q', hq', rfl⟩⟩ := hmem q hq
      · obtain ⟨i, hi, -, hm⟩ := hget s' q hq
        rw [← Nat.sub_sub]
        exact hm rfl
      · obtain ⟨e1, e2, e3⟩ := (ih s' hs').2.2.2 rfl q' hq'
        refine ⟨e1, ?_, ?_⟩
        · simp only [QTicket.next, e2, List.tail_replicate]
          rw [Nat.sub_sub]
        · simp only [QTicket.next, e3, List.tail_replicate]
          rw [Nat.sub_sub]

end Grid

end DPPIR.Protocol
