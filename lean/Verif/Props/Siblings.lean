import Verif.Proofs.Siblings

/-!
# Properties of the exchanges among the servers of one party

`siblings S prog p` is the network of the servers before the first step.  `Reach cap` is
reachability by any interleaving of the servers' steps, where `poll` may report any
selection of the connections with bytes in transit and `read` returns any positive number
of them, with connections that hold `cap` bytes.
-/

namespace DPPIR.Props
open DPPIR Proc PNet Onion Shuffle Spec Protocol

variable {box : SealedBox}

/-- **C41, queries.** Whatever the schedule, the results of polls and reads and the
capacities of the connections: no server stops abnormally, and when a server has
returned, its batch of outgoing queries is the specified one: the `k`-th query from `s`
is at `LocalShuffle(prefix(s) + k)`, and every position holds exactly one. -/
theorem C41_queries_shuffled (d : Deal) (hS : 0 < d.servers ∧ d.servers < 255) (h32 : d.counts.sum < 2 ^ 32)
    (rand : Nat → ParallelRand box) (hr : ∀ s, s < d.servers → (rand s).rand = d.gen)
    (p : Nat → ParallelParty box) (hp : ∀ s, s < d.servers → d.Ready s (p s)) (batch : Nat → List Query)
    (hb : ∀ s, s < d.servers → (p s).queries.elements = .ok (batch s) ∧ (batch s).length = d.counts.getD s 0)
    (cap : Nat × Nat → Nat) (n : PNet Nat Obs (ParallelParty box))
    (hn : Reach cap (siblings d.servers (fun s => queryShuffle (rand s)) p) n) :
    (∀ s, ¬ n.Faulted s) ∧
    ∀ t p', t < d.servers → n.Returned t p' → ∃ out, p'.outQueries.elements = .ok out ∧ d.Shuffled batch t out := by
  have h : DealOk d := ⟨hS.1, h32⟩
  obtain ⟨h1, -, h3⟩ := script_safe (queryOrder_ok h batch (fun s hs => (hb s hs).2)
      (cap := fun c => 4 + d.counts.getD c.1 0 * querySize) (fun s t _ _ => ⟨Nat.le_add_right _ _, Nat.le_add_left _ _⟩))
    (queryShuffle_does h hS.2 rand hr p hp batch hb) (fun i => proj_comm i _) hn
  exact ⟨h1, fun t p' ht hp' => ⟨_, (h3 t p' hp').1 ht, h.result batch (fun s hs => (hb s hs).2) ht⟩⟩

/-- **C41, ciphers.** The same for the shuffle of the ciphers. -/
theorem C41_ciphers_shuffled (d : Deal) (hS : 0 < d.servers ∧ d.servers < 255) (h32 : d.counts.sum < 2 ^ 32)
    (rand : Nat → ParallelRand box) (hr : ∀ s, s < d.servers → (rand s).rand = d.gen)
    (p : Nat → ParallelParty box) (hp : ∀ s, s < d.servers → d.Ready s (p s))
    (unit : Nat) (hu : 0 < unit ∧ unit ≤ Sockets.bufferSize)
    (hpu : ∀ s, s < d.servers → (p s).ciphers.shortSize = unit ∧ (p s).outCiphers.shortSize = unit) (batch : Nat → List (List Byte))
    (hb : ∀ s, s < d.servers → (p s).ciphers.elements = .ok (batch s) ∧ (batch s).length = d.counts.getD s 0 ∧
      ∀ x ∈ batch s, x.length = unit)
    (cap : Nat × Nat → Nat) (n : PNet Nat Obs (ParallelParty box))
    (hn : Reach cap (siblings d.servers (fun s => cipherShuffle (rand s)) p) n) :
    (∀ s, ¬ n.Faulted s) ∧
    ∀ t p', t < d.servers → n.Returned t p' → ∃ out, p'.outCiphers.elements = .ok out ∧ d.Shuffled batch t out := by
  have h : DealOk d := ⟨hS.1, h32⟩
  obtain ⟨h1, -, h3⟩ := script_safe (cipherOrder_ok h unit batch (fun s hs => (hb s hs).2)
      (cap := fun c => 4 + d.counts.getD c.1 0 * unit) (fun s t _ _ => ⟨Nat.le_add_right _ _, Nat.le_add_left _ _⟩))
    (cipherShuffle_does h hS.2 rand hr p hp unit hu.1 hu.2 batch hpu hb) (fun i => proj_comm i _) hn
  exact ⟨h1, fun t p' ht hp' => ⟨_, (h3 t p' hp').1 ht, h.result batch (fun s hs => (hb s hs).2.1) ht⟩⟩

/-- **C41.** The specification leaves no choice: two batches that are both as specified
are the same. Together with the theorems above, the result depends neither on the
schedule nor on the capacities. -/
theorem C41_result_unique {α : Type} (d : Deal) (hS : 0 < d.servers) (h32 : d.counts.sum < 2 ^ 32) (batch : Nat → List α)
    (hb : ∀ s, s < d.servers → (batch s).length = d.counts.getD s 0) (t : Nat) (ht : t < d.servers)
    (out out' : List α) (h : d.Shuffled batch t out) (h' : d.Shuffled batch t out') : out = out' := by
  have hd : DealOk d := ⟨hS, h32⟩
  obtain ⟨ps, hps, -⟩ := hd.plan ht (d.noise t)
  have hlen : out.length = out'.length := by rw [h.length ps hps, h'.length ps hps]
  apply List.ext_getElem hlen
  intro y hy hy'
  obtain ⟨⟨s, a⟩, ⟨hs, k, hg, hsl⟩, -⟩ := h.full y hy
  have ha : a < (batch s).length := by
    rw [hb s hs, ← hd.length hs]
    exact (List.getElem?_eq_some_iff.1 ((hd.goes_iff hs).1 hg).1).1
  have uniq : ∀ z, d.Slot t s k z → z = y := by
    intro z hz
    have e1 := (hd.slot_iff ht hs).1 hz
    have e2 := (hd.slot_iff ht hs).1 hsl
    rw [e1] at e2
    exact Option.some.inj e2
  obtain ⟨z, z1, z2⟩ := h.placed s a k (batch s)[a] hs hg (List.getElem?_eq_getElem ha)
  obtain ⟨w, w1, w2⟩ := h'.placed s a k (batch s)[a] hs hg (List.getElem?_eq_getElem ha)
  rw [uniq z z1] at z2
  rw [uniq w w1] at w2
  rw [(List.getElem?_eq_some_iff.1 z2).2, (List.getElem?_eq_some_iff.1 w2).2]

/-- Three servers with two, three and one queries, and one noise query each. -/
def exampleDeal : Deal where
  gen := fun s i => s.toNat + 5 * i + i * i
  seed := 3
  counts := [2, 3, 1]
  localSeed := fun s => s + 1
  noise := fun _ => 1

def exampleBatch (s : Nat) : List Query := (List.range (exampleDeal.counts.getD s 0)).map (fun i => ⟨BitVec.ofNat 64 (10 * s + i), 0⟩)

def exampleSibling (s : Nat) : ParallelParty toyBox :=
  { partyId := 0, serverId := s, partyCount := 2, serverCount := 3, db := { size := 4, rows := [] }
    shuffler := LocalShuffler.new (s + 1), pshuffler := ParallelShuffler.new s 3 3
    ciphers := CipherBatch.new 48 96, outCiphers := CipherBatch.new 48 96
    queries := { ptr := exampleBatch s, capacity := exampleDeal.counts.getD s 0 }
    noiseCount := 1, shuffledCount := 2, atSiblingCounts := [2, 3, 1]
    noiseFrom := [], noisePrefix := [], pkeys := [], pkey := (0 : Byte), skey := (0 : Byte) }

def exampleSiblingRand : ParallelRand toyBox :=
  { rnd := id, rand := exampleDeal.gen, sample := fun _ => 1, order := id
    secret := fun _ => ⟨fun _ => 0, fun _ _ => 0, fun _ => (5 : Byte), fun _ => 0, fun _ => 0⟩ }

theorem exampleSibling_ready (s : Nat) (hs : s < 3) : exampleDeal.Ready s (exampleSibling s) := by
  refine ⟨rfl, rfl, rfl, rfl, rfl, rfl, rfl, rfl, ?_⟩
  intro ps hps
  have := (DealOk.planned (d := exampleDeal) ⟨by decide, by decide⟩ hs hps).slice
  have e := (plan_ok exampleDeal.gen exampleDeal.seed exampleDeal.counts (by decide) (by decide)).2.2.1 s hs
  show 2 = ps.sliceSize
  rw [this]
  refine Eq.trans ?_ e.symm
  match s, hs with
  | 0, _ => rfl
  | 1, _ => rfl
  | 2, _ => rfl

theorem exampleSibling_batch (s : Nat) (_ : s < exampleDeal.servers) :
    (exampleSibling s).queries.elements = .ok (exampleBatch s) ∧ (exampleBatch s).length = exampleDeal.counts.getD s 0 := by
  refine ⟨?_, by simp [exampleBatch]⟩
  exact QRep.elements ⟨rfl, by simp [exampleSibling, exampleBatch]⟩

/-- Non-vacuity: the servers above satisfy the hypotheses, a complete run exists, and in
it every server returns. -/
example : ∃ n, Reach (fun _ => 100) (siblings exampleDeal.servers (fun _ => queryShuffle exampleSiblingRand) exampleSibling) n ∧
    ∀ t, ∃ p', n.Returned t p' := by
  have h : DealOk exampleDeal := ⟨by decide, by decide⟩
  have hG := queryOrder_ok h exampleBatch (fun s hs => (exampleSibling_batch s hs).2) (cap := fun _ => 100) (by
    intro s t hs _
    have : s < 3 := hs
    match s, this with
    | 0, _ => decide
    | 1, _ => decide
    | 2, _ => decide)
  have hd := queryShuffle_does h (by decide) (fun _ => exampleSiblingRand) (fun _ _ => rfl) exampleSibling exampleSibling_ready exampleBatch
    exampleSibling_batch
  obtain ⟨n, h1, h2⟩ := script_complete hG hd (fun i => proj_comm i _) (Finset.range 3) (siblings_finite 3 _ _)
  refine ⟨n, h1, fun t => ?_⟩
  rcases (script_net hG hd (fun i => proj_comm i _) h1).2.2 with h3 | h3
  · exact absurd h3 h2
  · obtain ⟨⟨a, ha, -⟩, -⟩ := h3.1 t
    exact ⟨a, ha⟩

end DPPIR.Props
