import Verif.Proofs.PartyRun
import Verif.Spec.Chain

/-!
# The whole deployment
-/

namespace DPPIR.Protocol
open DPPIR Proc Onion Incremental Additive Spec Props Shuffle

variable {box : SealedBox}

namespace Chain

theorem noise_eq (c : Chain box) (k : Nat) : c.noise k = sampleSum (c.partyRand k).sample c.rows := rfl

/-- The shuffler of party `k`. -/
def shuf (c : Chain box) (k : Nat) : LocalShuffler := shufOf (c.partyRand k).rand (c.seed k) (c.queries (k + 1))

/-- The secrets travelling from process `k` to process `k + 1`. -/
def tickets (c : Chain box) : Nat → List (Ticket box)
  | 0 => (List.range c.count).map (fun i => (c.clientRand.secret i).ticket c.parties (clientTag 0 c.count i))
  | k + 1 => pick (c.shuf k).forward
      (realNT (c.partyRand k) c.rows (c.parties - k - 1) (c.queries k) ++ (c.tickets k).map Ticket.next)

/-- Noise queries of party `k`. -/
def noiseQs (c : Chain box) (offline : Bool) (k : Nat) : List QTicket :=
  if offline then realNQ (c.partyRand k) c.rows (c.parties - k - 1) (c.queries k)
  else simNQ (c.partyRand k) c.rows (c.parties - k - 1)

/-- The secrets behind the client's queries. -/
def tag (c : Chain box) (offline : Bool) (j : Nat) : BitVec 64 := if offline then clientTag 0 c.count j else 0
def shares (c : Chain box) (offline : Bool) (j : Nat) : List Share :=
  if offline then preIncrementalSecretShares (c.clientRand.secret j).shares c.parties else List.replicate c.parties ⟨0, 1⟩
def pres (c : Chain box) (offline : Bool) (j : Nat) : List Preshare :=
  if offline then (List.range c.parties).map (c.clientRand.secret j).preshares else List.replicate c.parties (fun _ => 0)
def own (c : Chain box) (offline : Bool) (j : Nat) : Preshare :=
  if offline then (c.clientRand.secret j).own c.parties else fun _ => 0

/-- The client's queries. -/
def clientQs (c : Chain box) (offline : Bool) (j : Nat) : QTicket :=
  clientQ c.rows c.clientRand.row (c.tag offline) (c.shares offline) (c.pres offline) j

/-- The queries travelling from process `k` to process `k + 1`. -/
def qs (c : Chain box) (offline : Bool) : Nat → List QTicket
  | 0 => (List.range c.count).map (c.clientQs offline)
  | k + 1 => pick (c.shuf k).backward (c.noiseQs offline k ++ (c.qs offline k).map QTicket.next)

/-! ### Counts -/

theorem queries_mono (c : Chain box) {i j : Nat} (h : i ≤ j) : c.queries i ≤ c.queries j := by
  induction j, h using Nat.le_induction with
  | base => exact Nat.le_refl _
  | succ j _ ih => rw [queries]; omega

theorem Valid.lt {c : Chain box} (h : c.Valid) {k : Nat} (hk : k < c.parties) : c.queries k < 2 ^ 32 := by
  have := c.queries_mono (show k ≤ c.parties - 1 by omega)
  have := h.fits
  omega

theorem isShuffler {c : Chain box} (h : c.Valid) {k : Nat} (hk : k + 1 < c.parties) :
    IsShuffler (c.shuf k).forward (c.shuf k).backward (c.queries (k + 1)) :=
  (shufOf_ok (c.partyRand k).rand (LocalShuffler.new (c.seed k)) (c.seed k) rfl (c.queries (k + 1)) (h.lt hk)).2.2

theorem Valid.rowsp {c : Chain box} (h : c.Valid) : 0 < c.rows ∧ c.rows ≤ Spec.p := h.rows

/-! ### Tickets -/

theorem realNT_length (rand : PartyRand box) (rows m N : Nat) : (realNT rand rows m N).length = sampleSum rand.sample rows := by
  simp [realNT]

theorem tickets_spec {c : Chain box} (h : c.Valid) (k : Nat) (hk : k < c.parties) :
    (c.tickets k).length = c.queries k ∧ (∀ t ∈ c.tickets k, t.Good (c.parties - k)) ∧
      ((c.tickets k).map Ticket.tag).Perm ((List.range (c.queries k)).map (BitVec.ofNat 64)) := by
  induction k with
  | zero =>
    have h32 := h.lt hk
    refine ⟨by simp [tickets, queries], ?_, ?_⟩
    · intro t ht
      simp only [tickets, List.mem_map] at ht
      obtain ⟨i, -, rfl⟩ := ht
      exact SecretRand.ticket_good _ _ _
    · simp only [tickets, queries, List.map_map]
      refine List.Perm.of_eq (List.map_congr_left ?_)
      intro i hi
      rw [List.mem_range] at hi
      show clientTag 0 c.count i = _
      unfold clientTag
      rw [Nat.zero_mul, Nat.zero_add, wrap32_of_lt]
      simp only [queries] at h32
      omega
  | succ k ih =>
    obtain ⟨h1, h2, h3⟩ := ih (by omega)
    have h32 := h.lt hk
    have hl : (realNT (c.partyRand k) c.rows (c.parties - k - 1) (c.queries k) ++ (c.tickets k).map Ticket.next).length =
        c.queries (k + 1) := by
      rw [List.length_append, realNT_length, List.length_map, h1, queries, noise_eq, Nat.add_comm]
    have hp : (c.tickets (k + 1)).Perm (realNT (c.partyRand k) c.rows (c.parties - k - 1) (c.queries k) ++
        (c.tickets k).map Ticket.next) := by
      rw [tickets]
      apply pick_perm
      rw [hl]
      exact (isShuffler h hk).perm
    refine ⟨by rw [hp.length_eq, hl], ?_, ?_⟩
    · intro t ht
      rw [hp.mem_iff, List.mem_append] at ht
      rcases ht with ht | ht
      · simp only [realNT, List.mem_map] at ht
        obtain ⟨i, -, rfl⟩ := ht
        have := noiseT_good (c.partyRand k) (c.parties - k - 1) (c.queries k) i
        rwa [Nat.sub_sub] at this
      · rw [List.mem_map] at ht
        obtain ⟨t, ht, rfl⟩ := ht
        have := h2 t ht
        rw [show c.parties - k = c.parties - (k + 1) + 1 by omega] at this
        exact this.next
    · refine (hp.map Ticket.tag).trans ?_
      rw [List.map_append, List.map_map]
      have e : (c.tickets k).map (Ticket.tag ∘ Ticket.next) = (c.tickets k).map Ticket.tag := List.map_congr_left (fun _ _ => rfl)
      rw [e]
      refine List.perm_append_comm.trans ((h3.append_right _).trans (List.Perm.of_eq ?_))
      rw [queries, List.range_add, List.map_append]
      congr 1
      rw [realNT, List.map_map, List.map_map, noise_eq]
      apply List.map_congr_left
      intro i hi
      rw [List.mem_range] at hi
      show noiseTag _ _ = _
      unfold noiseTag
      rw [wrap32_of_lt]
      · rfl
      · rw [queries, noise_eq] at h32
        omega

theorem tickets_nodup {c : Chain box} (h : c.Valid) {k : Nat} (hk : k < c.parties) : ((c.tickets k).map Ticket.tag).Nodup := by
  obtain ⟨-, -, h3⟩ := tickets_spec h k hk
  rw [h3.nodup_iff]
  have h32 := h.lt hk
  refine List.Nodup.map_on ?_ List.nodup_range
  intro a ha b hb e
  rw [List.mem_range] at ha hb
  have := congrArg BitVec.toNat e
  simp only [BitVec.toNat_ofNat] at this
  omega

/-! ### Queries -/

theorem clientQs_good {c : Chain box} (h : c.Valid) (offline : Bool) (j : Nat) :
    (c.clientQs offline j).Good c.rows c.parties ∧ (c.shares offline j).length = c.parties ∧
      (c.pres offline j).length = c.parties ∧ (∀ s ∈ c.shares offline j, IsShare s) ∧
      c.own offline j = bxAll (c.pres offline j) (fun _ => 0) := by
  have hsl : ∀ j, (c.shares offline j).length = c.parties := by
    intro j
    unfold shares
    split
    · exact preShares_length _ _
    · simp
  have hpl : ∀ j, (c.pres offline j).length = c.parties := by
    intro j
    unfold pres
    split <;> simp
  have hsv : ∀ j, ∀ s ∈ c.shares offline j, IsShare s := by
    intro j s hs
    unfold shares at hs
    split at hs
    · exact preShares_valid _ _ s hs
    · rw [List.eq_of_mem_replicate hs]
      exact isShare_id
  have := h.parties
  refine ⟨(clientQ_good c.rows (j + 1) c.parties c.clientRand.row h.rowsp.1 h.rowsp.2 (c.tag offline) (c.shares offline)
    (c.pres offline) (by omega) (fun j _ => hsl j) (fun j _ => hpl j) (fun j _ => hsv j) j (by omega)).2, hsl j, hpl j, hsv j, ?_⟩
  unfold own pres
  split
  · rfl
  · generalize c.parties = m
    induction m with
    | zero => rfl
    | succ m ih =>
      rw [List.replicate_succ]
      have : ∀ (p : Preshare) l a, bxAll (p :: l) a = bxAll l (bx a p) := fun _ _ _ => rfl
      rw [this, show bx (fun _ => 0) (fun _ => 0) = (fun _ => 0 : Preshare) by funext i; simp [bx]]
      exact ih

/-- A query and its ticket. -/
def Matches (q : QTicket) (t : Ticket box) : Prop := t.tag = q.tag ∧ t.shares = q.shares ∧ t.pres = q.pres

theorem noiseQs_length (c : Chain box) (offline : Bool) (k : Nat) : (c.noiseQs offline k).length = c.noise k := by
  unfold noiseQs
  split
  · rw [realNQ, noiseQ_length, noiseKeys_length, noise_eq]
  · rw [simNQ, noiseQ_length, noiseKeys_length, noise_eq]

theorem noiseQs_good {c : Chain box} (h : c.Valid) (offline : Bool) (k : Nat) (hk : k + 1 < c.parties) :
    ∀ q ∈ c.noiseQs offline k, q.Good c.rows (c.parties - (k + 1)) := by
  have hm : 0 < c.parties - k - 1 := by omega
  unfold noiseQs
  rw [← Nat.sub_sub]
  split
  · exact (noiseQ_good _ _ _ _ _ _ h.rowsp.2 hm (fun _ => preShares_valid _ _) (fun _ => preShares_length _ _)
      (fun _ => by simp)).2
  · exact (noiseQ_good _ _ _ _ _ _ h.rowsp.2 hm (by
      intro i s hs
      rw [List.eq_of_mem_replicate hs]
      exact isShare_id) (fun _ => by simp) (fun _ => by simp)).2

/-- What a query of a simulated run looks like. -/
def Plain (m : Nat) (q : QTicket) : Prop :=
  q.tag = 0 ∧ q.shares = List.replicate m ⟨0, 1⟩ ∧ q.pres = List.replicate m (fun _ => 0)

theorem qs_perm {c : Chain box} (h : c.Valid) (offline : Bool) (k : Nat) (hk : k + 1 < c.parties)
    (hlen : (c.qs offline k).length = c.queries k) :
    (c.qs offline (k + 1)).Perm (c.noiseQs offline k ++ (c.qs offline k).map QTicket.next) ∧
      (c.noiseQs offline k ++ (c.qs offline k).map QTicket.next).length = c.queries (k + 1) := by
  have hl : (c.noiseQs offline k ++ (c.qs offline k).map QTicket.next).length = c.queries (k + 1) := by
    rw [List.length_append, noiseQs_length, List.length_map, hlen, queries, Nat.add_comm]
  refine ⟨?_, hl⟩
  rw [qs]
  apply pick_perm
  rw [hl]
  exact (isShuffler h hk).permB

theorem qs_spec {c : Chain box} (h : c.Valid) (offline : Bool) (k : Nat) (hk : k < c.parties) :
    (c.qs offline k).length = c.queries k ∧ (∀ q ∈ c.qs offline k, q.Good c.rows (c.parties - k)) ∧
      (offline = true → ∀ q ∈ c.qs offline k, ∃ t ∈ c.tickets k, Matches q t) ∧
      (offline = false → ∀ q ∈ c.qs offline k, Plain (c.parties - k) q) := by
  induction k with
  | zero =>
    refine ⟨by simp [qs, queries], ?_, ?_, ?_⟩
    · intro q hq
      simp only [qs, List.mem_map] at hq
      obtain ⟨i, -, rfl⟩ := hq
      exact (clientQs_good h offline i).1
    · rintro rfl q hq
      simp only [qs, List.mem_map] at hq
      obtain ⟨i, hi, rfl⟩ := hq
      exact ⟨_, List.mem_map.2 ⟨i, hi, rfl⟩, rfl, rfl, rfl⟩
    · rintro rfl q hq
      simp only [qs, List.mem_map] at hq
      obtain ⟨i, hi, rfl⟩ := hq
      exact ⟨rfl, rfl, rfl⟩
  | succ k ih =>
    obtain ⟨h1, h2, h3, h4⟩ := ih (by omega)
    obtain ⟨hp, hl⟩ := qs_perm h offline k hk h1
    refine ⟨by rw [hp.length_eq, hl], ?_, ?_, ?_⟩
    · intro q hq
      rw [hp.mem_iff, List.mem_append] at hq
      rcases hq with hq | hq
      · exact noiseQs_good h offline k hk q hq
      · rw [List.mem_map] at hq
        obtain ⟨q, hq, rfl⟩ := hq
        have := h2 q hq
        rw [show c.parties - k = c.parties - (k + 1) + 1 by omega] at this
        exact this.next
    · rintro rfl q hq
      obtain ⟨t1, t2, t3⟩ := tickets_spec h k (by omega)
      have htp : (c.tickets (k + 1)).Perm (realNT (c.partyRand k) c.rows (c.parties - k - 1) (c.queries k) ++
          (c.tickets k).map Ticket.next) := by
        rw [tickets]
        apply pick_perm
        rw [List.length_append, realNT_length, List.length_map, t1, ← noise_eq, Nat.add_comm, ← queries]
        exact (isShuffler h hk).perm
      rw [hp.mem_iff, List.mem_append] at hq
      rcases hq with hq | hq
      · obtain ⟨i, hi⟩ := List.mem_iff_getElem?.1 hq
        have hlt : i < (noiseKeys (c.partyRand k).sample c.rows).length := by
          have := (List.getElem?_eq_some_iff.1 hi).1
          rwa [noiseQs_length, noise_eq, ← noiseKeys_length] at this
        simp only [noiseQs, if_true, realNQ] at hi
        rw [noiseQ_get _ _ _ _ _ hlt] at hi
        obtain rfl := Option.some.inj hi
        refine ⟨noiseT (c.partyRand k) (c.parties - k - 1) (c.queries k) i, ?_, rfl, rfl, rfl⟩
        rw [htp.mem_iff, List.mem_append]
        left
        rw [noiseKeys_length] at hlt
        exact List.mem_map.2 ⟨i, List.mem_range.2 hlt, rfl⟩
      · rw [List.mem_map] at hq
        obtain ⟨q, hq, rfl⟩ := hq
        obtain ⟨t, ht, e1, e2, e3⟩ := h3 rfl q hq
        refine ⟨t.next, ?_, e1, by simp [Ticket.next, QTicket.next, e2], by simp [Ticket.next, QTicket.next, e3]⟩
        rw [htp.mem_iff, List.mem_append]
        right
        exact List.mem_map.2 ⟨t, ht, rfl⟩
    · rintro rfl q hq
      rw [hp.mem_iff, List.mem_append] at hq
      rcases hq with hq | hq
      · obtain ⟨i, hi⟩ := List.mem_iff_getElem?.1 hq
        have hlt : i < (noiseKeys (c.partyRand k).sample c.rows).length := by
          have := (List.getElem?_eq_some_iff.1 hi).1
          rwa [noiseQs_length, noise_eq, ← noiseKeys_length] at this
        simp only [noiseQs, Bool.false_eq_true, if_false, simNQ] at hi
        rw [noiseQ_get _ _ _ _ _ hlt] at hi
        obtain rfl := Option.some.inj hi
        exact ⟨rfl, rfl, rfl⟩
      · rw [List.mem_map] at hq
        obtain ⟨q, hq, rfl⟩ := hq
        obtain ⟨e1, e2, e3⟩ := h4 rfl q hq
        refine ⟨e1, ?_, ?_⟩
        · simp only [QTicket.next, e2, List.tail_replicate]
          rw [Nat.sub_sub]
        · simp only [QTicket.next, e3, List.tail_replicate]
          rw [Nat.sub_sub]

end Chain

end DPPIR.Protocol
