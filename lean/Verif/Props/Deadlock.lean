import Verif.Proofs.DeadlockRun
import Verif.Props.Broadcast
import Verif.Props.Siblings

/-!
# When exchanges among siblings can get stuck

As in the other files on siblings, `poll` may report any selection of the connections
with bytes in transit: bytes that were written need not have arrived yet.
-/

namespace DPPIR.Props
open DPPIR Proc PNet Onion Shuffle Spec Protocol

variable {box : SealedBox}

/-- **C46, queries.** If a connection can hold all the queries of a server (and a count),
some server can go on until all have returned, whatever the schedule. -/
theorem C46_queries_progress (d : Deal) (hS : 0 < d.servers ∧ d.servers < 255) (h32 : d.counts.sum < 2 ^ 32)
    (rand : Nat → ParallelRand box) (hr : ∀ s, s < d.servers → (rand s).rand = d.gen)
    (p : Nat → ParallelParty box) (hp : ∀ s, s < d.servers → d.Ready s (p s)) (batch : Nat → List Query)
    (hb : ∀ s, s < d.servers → (p s).queries.elements = .ok (batch s) ∧ (batch s).length = d.counts.getD s 0)
    (cap : Nat × Nat → Nat)
    (room : ∀ s t, s < d.servers → t < d.servers → 4 ≤ cap (s, t) ∧ d.counts.getD s 0 * querySize ≤ cap (s, t))
    (n : PNet Nat Obs (ParallelParty box)) (hn : Reach cap (siblings d.servers (fun s => queryShuffle (rand s)) p) n) :
    CanStep cap n ∨ ∀ t, ∃ p', n.Returned t p' := by
  have h : DealOk d := ⟨hS.1, h32⟩
  rcases (script_net (queryOrder_ok h batch (fun s hs => (hb s hs).2) room) (queryShuffle_does h hS.2 rand hr p hp batch hb)
    (fun i => proj_comm i _) hn).2.2 with h1 | h1
  · exact .inl h1
  · exact .inr (fun t => by obtain ⟨⟨a, ha, -⟩, -⟩ := h1.1 t; exact ⟨a, ha⟩)

/-- **C46, ciphers.** The same for the ciphers. -/
theorem C46_ciphers_progress (d : Deal) (hS : 0 < d.servers ∧ d.servers < 255) (h32 : d.counts.sum < 2 ^ 32)
    (rand : Nat → ParallelRand box) (hr : ∀ s, s < d.servers → (rand s).rand = d.gen)
    (p : Nat → ParallelParty box) (hp : ∀ s, s < d.servers → d.Ready s (p s))
    (unit : Nat) (hu : 0 < unit ∧ unit ≤ Sockets.bufferSize)
    (hpu : ∀ s, s < d.servers → (p s).ciphers.shortSize = unit ∧ (p s).outCiphers.shortSize = unit) (batch : Nat → List (List Byte))
    (hb : ∀ s, s < d.servers → (p s).ciphers.elements = .ok (batch s) ∧ (batch s).length = d.counts.getD s 0 ∧
      ∀ x ∈ batch s, x.length = unit)
    (cap : Nat × Nat → Nat)
    (room : ∀ s t, s < d.servers → t < d.servers → 4 ≤ cap (s, t) ∧ d.counts.getD s 0 * unit ≤ cap (s, t))
    (n : PNet Nat Obs (ParallelParty box)) (hn : Reach cap (siblings d.servers (fun s => cipherShuffle (rand s)) p) n) :
    CanStep cap n ∨ ∀ t, ∃ p', n.Returned t p' := by
  have h : DealOk d := ⟨hS.1, h32⟩
  rcases (script_net (cipherOrder_ok h unit batch (fun s hs => (hb s hs).2) room)
    (cipherShuffle_does h hS.2 rand hr p hp unit hu.1 hu.2 batch hpu hb) (fun i => proj_comm i _) hn).2.2 with h1 | h1
  · exact .inl h1
  · exact .inr (fun t => by obtain ⟨⟨a, ha, -⟩, -⟩ := h1.1 t; exact ⟨a, ha⟩)

/-- **C46.** Every run of such a group is finite (for the secrets see
`C43_progress` and `C43_runs_finite`). -/
theorem C46_runs_finite (S : Nat) (prog : Nat → ParallelParty box → PProg Nat (ParallelParty box)) (p : Nat → ParallelParty box)
    (cap : Nat × Nat → Nat) (run : Nat → PNet Nat Obs (ParallelParty box)) (h0 : run 0 = siblings S prog p) :
    ¬ ∀ k, ∃ i, Step cap i (run k) (run (k + 1)) :=
  no_infinite_run (Finset.range S) run (by rw [h0]; exact siblings_finite S prog p)

/-- **C46, queries can block.** If each of two servers has more queries for the other than
the connection holds, then they can get stuck, both of them in `send`. -/
theorem C46_queries_can_block (d : Deal) (hS : d.servers = 2) (h32 : d.counts.sum < 2 ^ 32)
    (rand : Nat → ParallelRand box) (hr : ∀ s, s < d.servers → (rand s).rand = d.gen)
    (p : Nat → ParallelParty box) (hp : ∀ s, s < d.servers → d.Ready s (p s)) (batch : Nat → List Query)
    (hb : ∀ s, s < d.servers → (p s).queries.elements = .ok (batch s) ∧ (batch s).length = d.counts.getD s 0)
    (cap : Nat × Nat → Nat) (h4 : 4 ≤ cap (0, 1) ∧ 4 ≤ cap (1, 0))
    (a k : Nat) (h01 : d.Goes 0 a 1 k) (hk : cap (0, 1) < (k + 1) * querySize)
    (a' k' : Nat) (h10 : d.Goes 1 a' 0 k') (hk' : cap (1, 0) < (k' + 1) * querySize) :
    ∃ n, Reach cap (siblings d.servers (fun s => queryShuffle (rand s)) p) n ∧ ¬ CanStep cap n ∧
      (∃ b q, n.proc 0 = .send 1 b q) ∧ (∃ b q, n.proc 1 = .send 0 b q) := by
  have h : DealOk d := ⟨by omega, h32⟩
  refine queries_block h hS rand hr p hp batch hb cap h4 (lt_of_lt_of_le hk (Nat.mul_le_mul_right _ ?_))
    (lt_of_lt_of_le hk' (Nat.mul_le_mul_right _ ?_))
  · exact occ_count ((h.goes_iff (by omega)).1 h01)
  · exact occ_count ((h.goes_iff (by omega)).1 h10)

/-- **C46, secrets can block.** The same for the broadcast of the secrets. -/
theorem C46_secrets_can_block (p : Nat → ParallelParty box) (rand : Nat → ParallelRand box) (h : Installed 2 p rand)
    (distinct : ∀ s t tag e e', s < 2 → t < 2 → CanLoad (p s).queriesState tag e → CanLoad (p t).queriesState tag e' → s = t)
    (cap : Nat × Nat → Nat) (h4 : 4 ≤ cap (0, 1) ∧ 4 ≤ cap (1, 0))
    (h0 : cap (0, 1) < (p 0).queriesState.secrets.length * secretSize)
    (h1 : cap (1, 0) < (p 1).queriesState.secrets.length * secretSize) :
    ∃ n, Reach cap (servers 2 (fun s p => p.broadcast (rand s) (fun s => s)) p) n ∧ ¬ CanStep cap n ∧
      (∃ b q, n.proc 0 = .send 1 b q) ∧ (∃ b q, n.proc 1 = .send 0 b q) := by
  refine casting_blocks (casting_party h) ?_ cap h4 ?_ ?_
  · show (((List.range 2).flatMap (fun s => (p s).queriesState.secrets)).map Prod.fst).Nodup
    rw [nodup_all _ _ h.keys]
    intro s t tag e e' hs ht h1 h2
    exact distinct s t tag e e' hs ht ((canLoad_iff (h.offline s hs) (h.keys s hs) _ _).2 h1) ((canLoad_iff (h.offline t ht) (h.keys t ht) _ _).2 h2)
  · unfold secretsOf
    rw [List.length_map, (h.order 0 (by decide)).length_eq]
    exact h0
  · unfold secretsOf
    rw [List.length_map, (h.order 1 (by decide)).length_eq]
    exact h1

/-- Tags `s * k, …, s * k + k - 1`. -/
def blockTags (k s : Nat) : List (BitVec 64) := (List.range k).map (fun i => BitVec.ofNat 64 (s * k + i))

theorem ofNat_inj {a b : Nat} (ha : a < 2 ^ 64) (hb : b < 2 ^ 64) (h : BitVec.ofNat 64 a = BitVec.ofNat 64 b) : a = b := by
  have := congrArg BitVec.toNat h
  simp only [BitVec.toNat_ofNat] at this
  rwa [Nat.mod_eq_of_lt ha, Nat.mod_eq_of_lt hb] at this

/-- **C46.** No capacity of the connections below 2 GB excludes that: for each there are
two servers with different tags that can get stuck, both of them in `send`. -/
theorem C46_no_capacity_suffices (cap : Nat × Nat → Nat) (h4 : 4 ≤ cap (0, 1) ∧ 4 ≤ cap (1, 0))
    (h2G : cap (0, 1) < 2 ^ 31 ∧ cap (1, 0) < 2 ^ 31) :
    ∃ (p : Nat → ParallelParty toyBox) (rand : Nat → ParallelRand toyBox), Installed 2 p rand ∧
      (∀ s t tag e e', s < 2 → t < 2 → CanLoad (p s).queriesState tag e → CanLoad (p t).queriesState tag e' → s = t) ∧
      ∃ n, Reach cap (servers 2 (fun s p => p.broadcast (rand s) (fun s => s)) p) n ∧ ¬ CanStep cap n ∧
        (∃ b q, n.proc 0 = .send 1 b q) ∧ (∃ b q, n.proc 1 = .send 0 b q) := by
  obtain ⟨k, hk⟩ : ∃ k, k = max (cap (0, 1)) (cap (1, 0)) / 2 + 1 := ⟨_, rfl⟩
  have hkl : 2 * k < 2 ^ 32 := by omega
  have htags : ∀ s, s < 2 → (blockTags k s).Nodup := by
    intro s hs
    unfold blockTags
    refine List.Nodup.map_on ?_ List.nodup_range
    intro a ha b hb hab
    have ha := List.mem_range.1 ha
    have hb := List.mem_range.1 hb
    have hsk : s * k ≤ 1 * k := Nat.mul_le_mul_right _ (by omega)
    have := ofNat_inj (by omega) (by omega) hab
    omega
  have hkeys : ∀ s, (exampleHolder 2 s (blockTags k s)).queriesState.secrets.map Prod.fst = blockTags k s := by
    intro s
    show ((blockTags k s).map _).map Prod.fst = _
    rw [List.map_map]
    exact List.map_id _
  have hlen : ∀ s, (exampleHolder 2 s (blockTags k s)).queriesState.secrets.length = k := by
    intro s
    show ((blockTags k s).map _).length = _
    simp [blockTags]
  have hinst : Installed 2 (fun s => exampleHolder 2 s (blockTags k s)) (fun _ => exampleOrder) := by
    refine ⟨by decide, fun _ _ => ⟨rfl, rfl⟩, fun _ _ => rfl, ?_, fun s _ => List.reverse_perm _, ?_⟩
    · intro s hs
      rw [hkeys]
      exact htags s hs
    · simp only [hlen]
      simp [List.range_succ]
      omega
  have hdis : ∀ s t tag e e', s < 2 → t < 2 → CanLoad (exampleHolder 2 s (blockTags k s)).queriesState tag e →
      CanLoad (exampleHolder 2 t (blockTags k t)).queriesState tag e' → s = t := by
    intro s t tag e e' hs ht h1 h2
    have m : ∀ s, s < 2 → ∀ e, CanLoad (exampleHolder 2 s (blockTags k s)).queriesState tag e → tag ∈ blockTags k s := by
      intro s hs e h
      rw [← hkeys s]
      exact List.mem_map_of_mem (f := Prod.fst) ((canLoad_iff (hinst.offline s hs) (hinst.keys s hs) _ _).1 h)
    obtain ⟨a, ha, e1⟩ := List.mem_map.1 (m s hs e h1)
    obtain ⟨b, hb, e2⟩ := List.mem_map.1 (m t ht e' h2)
    have ha := List.mem_range.1 ha
    have hb := List.mem_range.1 hb
    have h3 : s * k ≤ 1 * k := Nat.mul_le_mul_right _ (by omega)
    have h4 : t * k ≤ 1 * k := Nat.mul_le_mul_right _ (by omega)
    have := ofNat_inj (by omega) (by omega) (e1.trans e2.symm)
    have c1 : s = 0 ∨ s = 1 := by omega
    have c2 : t = 0 ∨ t = 1 := by omega
    rcases c1 with rfl | rfl <;> rcases c2 with rfl | rfl <;> omega
  refine ⟨_, _, hinst, hdis, C46_secrets_can_block _ _ hinst hdis cap h4 ?_ ?_⟩
  · rw [hlen]
    have : k * 2 ≤ k * secretSize := Nat.mul_le_mul_left _ (by decide)
    omega
  · rw [hlen]
    have : k * 2 ≤ k * secretSize := Nat.mul_le_mul_left _ (by decide)
    omega

/-- Two servers with three queries each; one query of each goes to the other. -/
def pairDeal : Deal := { exampleDeal with counts := [3, 3] }

def pairSibling (s : Nat) : ParallelParty toyBox :=
  { exampleSibling s with
    serverCount := 2, pshuffler := ParallelShuffler.new s 2 3, shuffledCount := 3, atSiblingCounts := [3, 3]
    queries := { ptr := List.replicate 3 ⟨0, 0⟩, capacity := 3 } }

/-- Non-vacuity: with connections that hold less than one query these two servers meet
the hypotheses of `C46_queries_can_block`. -/
example : ∃ n, Reach (fun _ => querySize - 1) (siblings pairDeal.servers (fun _ => queryShuffle exampleSiblingRand) pairSibling) n ∧
    ¬ CanStep (fun _ => querySize - 1) n ∧ (∃ b q, n.proc 0 = .send 1 b q) ∧ (∃ b q, n.proc 1 = .send 0 b q) := by
  have h : DealOk pairDeal := ⟨by decide, by decide⟩
  refine C46_queries_can_block pairDeal rfl (by decide) (fun _ => exampleSiblingRand) (fun _ _ => rfl) pairSibling ?_
    (fun _ => List.replicate 3 ⟨0, 0⟩) ?_ _ (by decide) 2 0 ((h.goes_iff (by decide)).2 (by unfold IsKthOcc; decide +kernel)) (by decide)
    2 0 ((h.goes_iff (by decide)).2 (by unfold IsKthOcc; decide +kernel)) (by decide)
  · intro s hs
    have hs : s < 2 := hs
    refine ⟨rfl, rfl, rfl, rfl, rfl, rfl, rfl, rfl, ?_⟩
    intro ps hps
    have := (h.planned hs hps).slice
    have e := (plan_ok pairDeal.gen pairDeal.seed pairDeal.counts (by decide) (by decide)).2.2.1 s hs
    show 3 = ps.sliceSize
    rw [this]
    refine Eq.trans ?_ e.symm
    match s, hs with
    | 0, _ => rfl
    | 1, _ => rfl
  · intro s hs
    have hs : s < 2 := hs
    refine ⟨QRep.elements ⟨rfl, rfl⟩, ?_⟩
    match s, hs with
    | 0, _ => rfl
    | 1, _ => rfl

/-- Non-vacuity: two servers with two tags each meet the hypotheses of
`C46_secrets_can_block` if a connection holds less than two secrets. -/
example : ∃ n, Reach (fun _ => 2 * secretSize - 1) (servers 2 (fun _ p => p.broadcast exampleOrder (fun s => s))
      (fun s => exampleHolder 2 s ([[0, 1], [2, 3]].getD s []))) n ∧
    ¬ CanStep (fun _ => 2 * secretSize - 1) n ∧ (∃ b q, n.proc 0 = .send 1 b q) ∧ (∃ b q, n.proc 1 = .send 0 b q) := by
  have h : Installed 2 (fun s => exampleHolder 2 s ([[0, 1], [2, 3]].getD s [])) (fun _ => exampleOrder) := by
    refine ⟨by decide, fun _ _ => ⟨rfl, rfl⟩, fun _ _ => rfl, ?_, fun s _ => List.reverse_perm _, by decide⟩
    intro s hs
    match s, hs with
    | 0, _ => decide
    | 1, _ => decide
  refine C46_secrets_can_block _ _ h ?_ _ (by decide) (by decide) (by decide)
  intro s t tag e e' hs ht h1 h2
  have h1 := List.mem_map_of_mem (f := Prod.fst) ((canLoad_iff (h.offline s hs) (h.keys s hs) _ _).1 h1)
  have h2 := List.mem_map_of_mem (f := Prod.fst) ((canLoad_iff (h.offline t ht) (h.keys t ht) _ _).1 h2)
  match s, t, hs, ht with
  | 0, 0, _, _ => rfl
  | 1, 1, _, _ => rfl
  | 0, 1, _, _ =>
    exfalso
    simp [exampleHolder] at h1 h2
    rcases h1 with rfl | rfl <;> simp at h2
  | 1, 0, _, _ =>
    exfalso
    simp [exampleHolder] at h1 h2
    rcases h1 with rfl | rfl <;> simp at h2

end DPPIR.Props
