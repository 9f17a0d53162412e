import Verif.Proofs.OnlineNet
import Verif.Props.Siblings

/-!
# Properties of the online stage of the servers of one party

`o.net p rand` is the network of the servers, their predecessors and their successors
before the first step.  `Reach cap` is reachability by any interleaving of the steps,
where `poll` may report any selection of the connections with bytes in transit and `read`
returns any positive number of them, with connections that hold `cap` bytes.
-/

namespace DPPIR.Props
open DPPIR Proc PNet Onion Shuffle Spec Protocol Additive

variable {box : SealedBox}

/-- **C42, any answers.** The successor of server `t` answers the queries it gets in any
way, as a function of all of them. There are lists `asked t` of queries and `result s` of
responses such that

* `asked t` is the specified shuffle of the batches of all servers, noise included;
* `result s` has one response for every query server `s` got from its predecessor, in
  that order: if the `i`-th of them is the `y`-th query of server `t` after the shuffle,
  the `i`-th response is the `y`-th answer of the successor of `t` without the share of
  the party;

and whatever the schedule, the results of polls and reads and the capacities: no process
stops abnormally, successors get the queries of `asked`, predecessors get the responses of
`result`, all of them when they have returned. -/
theorem C42_any_answers (o : Online) (secret : Nat → BitVec 64 → PartySecret) (hS : 2 ≤ o.servers ∧ o.servers < 255)
    (h32 : o.counts.sum < 2 ^ 32) (p : Nat → ParallelParty box) (rand : Nat → ParallelRand box)
    (hr : ∀ s, s < o.servers → (rand s).rand = o.gen) (hp : ∀ s, s < o.servers → o.Ready secret s (p s))
    (hans : ∀ t qs, t < o.servers → (o.answer t qs).length = qs.length) :
    ∃ (asked : Nat → List Query) (result : Nat → List Response),
      (∀ t, t < o.servers → o.Shuffled (o.batch secret) t (asked t)) ∧
      (∀ s, s < o.servers → (result s).length = (o.input s).length) ∧
      (∀ s i t y q, s < o.servers → t < o.servers → o.At s i t y → (o.input s)[i]? = some q →
        ∃ r a, (result s)[i]? = some r ∧ (o.answer t (asked t))[y]? = some a ∧
          ∀ target, additiveReconstructInto a (secret s q.tag).preshare target = .ok r) ∧
      ∀ cap n, Reach cap (o.net p rand) n →
        (∀ i, ¬ n.Faulted i) ∧
        (∀ s, s < o.servers → queriesRead (n.seen (2, s)) <+: asked s ∧ responsesRead (n.seen (0, s)) <+: result s) ∧
        (∀ s, s < o.servers → n.Returned (2, s) () → queriesRead (n.seen (2, s)) = asked s) ∧
        ∀ s, s < o.servers → n.Returned (0, s) () → responsesRead (n.seen (0, s)) = result s := by
  have h : DealOk o.toDeal := ⟨by show 0 < o.servers; omega, h32⟩
  have e0 : ∀ s, responsesRead (OnlineNet.obsv o secret 0 s) = OnlineNet.result o secret s := by
    intro s
    simp [OnlineNet.obsv, responsesRead, List.filterMap_append, List.filterMap_map]
  have e2 : ∀ s, queriesRead (OnlineNet.obsv o secret 2 s) = OnlineNet.asked o secret s := by
    intro s
    simp [OnlineNet.obsv, queriesRead, List.filterMap_append, List.filterMap_map]
  refine ⟨OnlineNet.asked o secret, OnlineNet.result o secret, fun t ht => ?_, fun s _ => OnlineNet.result_length s,
    fun s i t y q hs ht hat hq => OnlineNet.result_at h hp hans hs ht hat q hq, fun cap n hn => ?_⟩
  · have hb : ∀ s, s < o.servers → (o.batch secret s).length = o.counts.getD s 0 := by
      intro s hs
      unfold Online.batch
      rw [List.length_append, List.length_map, (hp s hs).noiseCount, List.getD_eq_getElem?_getD, (hp s hs).total]
      rfl
    have := h.result (o.batch secret) hb ht
    have e : OnlineNet.asked o secret t = shuffled o.servers o.dests (o.batch secret) (o.local t).backward t := by
      unfold OnlineNet.asked OnlineNet.outQ
      rw [← shuffled_map]
      refine shuffled_congr (fun s hs => OnlineNet.raw_query o secret s (fun q hq => ((hp s hs).secrets q hq).2))
    rw [e]
    exact this
  · obtain ⟨h1, h2, h3, -⟩ := (OnlineNet.every_run h hS hr hp hans cap).1 n hn
    refine ⟨h1, fun s hs => ⟨?_, ?_⟩, fun s hs hret => ?_, fun s hs hret => ?_⟩
    · rw [← e2]
      exact List.IsPrefix.filterMap _ (h2 s hs).2
    · rw [← e0]
      exact List.IsPrefix.filterMap _ (h2 s hs).1
    · rw [← e2, (h3 s hs).2 hret]
    · rw [← e0, (h3 s hs).1 hret]

/-- **C42, progress.** If the connections among the servers hold the messages of an
exchange, every run can go on until all processes have returned and all bytes are read. -/
theorem C42_progress (o : Online) (secret : Nat → BitVec 64 → PartySecret) (hS : 2 ≤ o.servers ∧ o.servers < 255)
    (h32 : o.counts.sum < 2 ^ 32) (p : Nat → ParallelParty box) (rand : Nat → ParallelRand box)
    (hr : ∀ s, s < o.servers → (rand s).rand = o.gen) (hp : ∀ s, s < o.servers → o.Ready secret s (p s))
    (hans : ∀ t qs, t < o.servers → (o.answer t qs).length = qs.length)
    (cap : Node × Node → Nat) (hc : o.Roomy cap) (n : PNet Node Obs Unit) (hn : Reach cap (o.net p rand) n) :
    n.CanStep cap ∨ (∀ i, n.Returned i ()) ∧ ∀ c, n.chan c = [] :=
  have h : DealOk o.toDeal := ⟨by show 0 < o.servers; omega, h32⟩
  ((OnlineNet.every_run h hS hr hp hans cap).1 n hn).2.2.2 hc

/-- **C42, termination.** There is no infinite run. -/
theorem C42_runs_finite (o : Online) (secret : Nat → BitVec 64 → PartySecret) (hS : 2 ≤ o.servers ∧ o.servers < 255)
    (h32 : o.counts.sum < 2 ^ 32) (p : Nat → ParallelParty box) (rand : Nat → ParallelRand box)
    (hr : ∀ s, s < o.servers → (rand s).rand = o.gen) (hp : ∀ s, s < o.servers → o.Ready secret s (p s))
    (hans : ∀ t qs, t < o.servers → (o.answer t qs).length = qs.length)
    (cap : Node × Node → Nat) (f : Nat → PNet Node Obs Unit) (hf : f 0 = o.net p rand) : ¬ ∀ k, ∃ i, Step cap i (f k) (f (k + 1)) :=
  have h : DealOk o.toDeal := ⟨by show 0 < o.servers; omega, h32⟩
  (OnlineNet.every_run h hS hr hp hans cap).2 f hf

/-- **C42.** If every successor answers each query with a function `f` of that query, the
responses a predecessor has got when it has returned are, in the order of its queries,
`f` of the query as the server passed it on, without the share of the party; there are no
others, in particular none for noise. -/
theorem C42_own_answers (o : Online) (secret : Nat → BitVec 64 → PartySecret) (hS : 2 ≤ o.servers ∧ o.servers < 255)
    (h32 : o.counts.sum < 2 ^ 32) (p : Nat → ParallelParty box) (rand : Nat → ParallelRand box)
    (hr : ∀ s, s < o.servers → (rand s).rand = o.gen) (hp : ∀ s, s < o.servers → o.Ready secret s (p s))
    (f : Query → Response) (hf : ∀ t qs, t < o.servers → o.answer t qs = qs.map f)
    (cap : Node × Node → Nat) (n : PNet Node Obs Unit) (hn : Reach cap (o.net p rand) n)
    (s : Nat) (hs : s < o.servers) (hret : n.Returned (0, s) ()) :
    List.Forall₂ (fun q r => ∀ target, additiveReconstructInto (f (passed (secret s q.tag) q)) (secret s q.tag).preshare target = .ok r)
      (o.input s) (responsesRead (n.seen (0, s))) := by
  have h : DealOk o.toDeal := ⟨by show 0 < o.servers; omega, h32⟩
  obtain ⟨asked, result, h1, h2, h3, h4⟩ := C42_any_answers o secret hS h32 p rand hr hp (fun t qs ht => by rw [hf t qs ht, List.length_map])
  rw [(h4 cap n hn).2.2.2 s hs hret, List.forall₂_iff_get]
  refine ⟨(h2 s hs).symm, fun i hi hi' => ?_⟩
  simp only [List.get_eq_getElem]
  have hcs : o.counts.getD s 0 = o.noise s + (o.input s).length := by
    rw [List.getD_eq_getElem?_getD, (hp s hs).total]
    rfl
  have hlt : o.noise s + i < (o.dests s).length := by
    rw [h.length hs, hcs]
    omega
  have hg : o.Goes s (o.noise s + i) (o.dests s)[o.noise s + i] (((o.dests s).take (o.noise s + i)).count (o.dests s)[o.noise s + i]) :=
    (h.goes_iff hs).2 ⟨List.getElem?_eq_getElem hlt, rfl⟩
  have ht := h.routing.lt s hs _ (List.getElem_mem hlt)
  generalize (o.dests s)[o.noise s + i] = t at hg ht
  obtain ⟨y, hy, hay⟩ := (h1 t ht).placed s _ _ (passed (secret s (o.input s)[i].tag) (o.input s)[i]) hs hg (by
    unfold Online.batch
    rw [List.getElem?_append_right (by rw [(hp s hs).noiseCount]; omega), (hp s hs).noiseCount, Nat.add_sub_cancel_left,
      List.getElem?_map, List.getElem?_eq_getElem hi]
    rfl)
  obtain ⟨r, a, hr1, ha, hra⟩ := h3 s i t y _ hs ht ⟨_, hg, hy⟩ (List.getElem?_eq_getElem hi)
  rw [hf t _ ht, List.getElem?_map, hay] at ha
  obtain rfl := Option.some.inj ha
  rw [List.getElem?_eq_getElem hi'] at hr1
  rw [Option.some.inj hr1]
  exact hra

/-! ### An instance -/

/-- The three servers of `exampleDeal`, with one, two and no queries from their
predecessors and one noise query each. -/
def exampleOnline : Online where
  toDeal := exampleDeal
  input := fun s => (List.range (exampleDeal.counts.getD s 0 - 1)).map (fun i => ⟨BitVec.ofNat 64 (10 * s + i), 5⟩)
  noiseQueries := fun s => [⟨BitVec.ofNat 64 (10 * s + 7), 9⟩]
  answer := fun _ qs => qs.map (fun q => ⟨q.tally, fun _ => 1⟩)

def exampleSecret (_ : Nat) (tag : BitVec 64) : PartySecret := ⟨tag, ⟨2, 3⟩, fun i => BitVec.ofNat 8 (tag.toNat + i)⟩

def exampleOnlineServer (s : Nat) : ParallelParty toyBox :=
  { exampleSibling s with
    inputCount := (exampleOnline.input s).length
    tags := Batch.initialize (exampleOnline.input s).length 0
    queries := { ptr := exampleOnline.noiseQueries s ++ List.replicate (exampleOnline.input s).length ⟨0, 0⟩
                 capacity := 1 + (exampleOnline.input s).length }
    queriesState := { secrets := (exampleOnline.input s).map (fun q => (q.tag, exampleSecret s q.tag)) } }

theorem exampleOnline_ready (s : Nat) (hs : s < 3) : exampleOnline.Ready exampleSecret s (exampleOnlineServer s) := by
  have h := exampleSibling_ready s hs
  refine ⟨⟨h.id, h.count, h.seed, h.planId, h.planCount, h.localSeed, h.counts, h.noise, h.slice⟩, rfl, ?_, rfl, rfl, ⟨rfl, ?_, rfl, rfl⟩, ?_⟩
  · match s, hs with
    | 0, _ => rfl
    | 1, _ => rfl
    | 2, _ => rfl
  · simp [exampleOnlineServer, exampleOnline, Nat.add_comm]
  · intro q hq
    refine ⟨?_, rfl⟩
    match s, hs with
    | 0, _ =>
      have : q = ⟨0, 5⟩ := by simpa [exampleOnline, exampleDeal] using hq
      subst this
      rfl
    | 1, _ =>
      have : q = ⟨10, 5⟩ ∨ q = ⟨11, 5⟩ := by simpa [exampleOnline, exampleDeal, List.range_succ] using hq
      rcases this with rfl | rfl <;> rfl
    | 2, _ => simp [exampleOnline, exampleDeal] at hq

/-- Non-vacuity: the servers above satisfy the hypotheses, connections of 1000 bytes
suffice, and there is a complete run, in which the predecessor of server 1 gets two
responses. -/
example : ∃ n, Reach (fun _ => 1000) (exampleOnline.net exampleOnlineServer (fun _ => exampleSiblingRand)) n ∧
    (∀ i, n.Returned i ()) ∧ (responsesRead (n.seen (0, 1))).length = 2 := by
  have hr : ∀ s, s < exampleOnline.servers → exampleSiblingRand.rand = exampleOnline.gen := fun _ _ => rfl
  have hS : 2 ≤ exampleOnline.servers ∧ exampleOnline.servers < 255 := by decide
  have hans : ∀ t qs, t < exampleOnline.servers → (exampleOnline.answer t qs).length = qs.length := fun t qs _ => by
    simp [exampleOnline]
  obtain ⟨n, h1, h2⟩ := OnlineNet.complete_run (o := exampleOnline) (secret := exampleSecret) (rand := fun _ => exampleSiblingRand)
    ⟨by decide, by decide⟩ hS hr exampleOnline_ready hans (cap := fun _ => 1000)
    ⟨fun _ => by decide, fun _ _ _ _ => by decide, fun s t hs _ => by
      have : s < 3 := hs
      match s, this with
      | 0, _ => decide
      | 1, _ => decide
      | 2, _ => decide, fun _ _ _ _ => by decide⟩
  refine ⟨n, h1, h2, ?_⟩
  obtain ⟨asked, result, -, h4, -, h5⟩ := C42_any_answers exampleOnline exampleSecret hS (by decide) exampleOnlineServer
    (fun _ => exampleSiblingRand) hr exampleOnline_ready hans
  rw [(h5 _ n h1).2.2.2 1 (by decide) (h2 _), h4 1 (by decide)]
  rfl

end DPPIR.Props
