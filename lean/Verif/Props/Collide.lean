import Verif.Proofs.GridStops
import Verif.Props.Grid

/-!
# Deployments with several servers per party whose tags collide

`Stops` says that the offline stage never ends: whatever the schedule and the connections,
no process ever returns, no client asks for or gets a row, all abnormal ends are failed
assertions, no run is infinite, and if the connections hold the messages of one exchange,
a run can only end because some process failed an assertion.
-/

namespace DPPIR.Props
open DPPIR Proc PNet Onion Spec Protocol

variable {box : SealedBox}

/-- A deployment whose offline stage never ends. -/
def Stops (g : Grid box) (online : Bool) : Prop :=
  ∀ cap : Node × Node → Nat,
    (∀ n, Reach cap (g.net true online) n →
      (∀ i s, i ≤ g.parties → s < g.servers → ¬ n.Returned (i, s) ()) ∧
      (∀ s < g.servers, wants (n.seen (0, s)) = [] ∧ results (n.seen (0, s)) = []) ∧
      (∀ i e, n.proc i = .fault e → e = .assertFail) ∧
      (g.Roomy cap → n.CanStep cap ∨ ∃ i, n.Faulted i)) ∧
    ¬ ∃ f : Nat → PNet Node Obs Unit, f 0 = g.net true online ∧ ∀ k, ∃ i, PNet.Step cap i (f k) (f (k + 1))

/-- A deployment that never ends its offline stage does not serve its clients. -/
theorem Stops.not_serves {g : Grid box} (h : Stops g true) : ¬ g.Serves true := by
  intro hs
  obtain ⟨cap, hc⟩ := g.exists_roomy
  obtain ⟨h1, h2⟩ := h cap
  obtain ⟨h3, -⟩ := hs cap
  have hno : ∀ n, Reach cap (g.net true true) n → n.CanStep cap := by
    intro n hn
    rcases (h1 n hn).2.2.2 hc with h4 | ⟨i, h4⟩
    · exact h4
    · exact absurd h4 ((h3 n hn).1 i)
  have step : ∀ n : { n // Reach cap (g.net true true) n }, ∃ m : { n // Reach cap (g.net true true) n }, ∃ i, Step cap i n.1 m.1 := by
    rintro ⟨n, hn⟩
    obtain ⟨i, m, hm⟩ := hno n hn
    exact ⟨⟨m, hn.step hm⟩, i, hm⟩
  choose nx hnx using step
  exact h2 ⟨fun k => (nx^[k] ⟨_, .refl⟩).1, rfl, fun k => by
    simp only [Function.iterate_succ_apply']
    exact hnx _⟩

/-- **C31, negative.** Whenever two secrets of a deployment get the same tag, its offline
stage never ends.  With `C44_distinct_tags` this is the exact condition. -/
theorem C31_violated_equal_tags (g : Grid box) (h : g.Valid) (hd : ¬ g.DistinctTags) (online : Bool) : Stops g online := by
  intro cap
  obtain ⟨h1, h2⟩ := Grid.stops h hd online cap
  exact ⟨h1, fun ⟨f, hf, ha⟩ => h2 f hf ha⟩

/-- **C31.** A valid deployment serves its clients if and only if no two secrets get the
same tag. -/
theorem C31_serves_iff_distinct (g : Grid box) (h : g.Valid) : g.Serves true ↔ g.DistinctTags :=
  ⟨fun hs => by
    by_contra hd
    exact (C31_violated_equal_tags g h hd true).not_serves hs, C44_distinct_tags g h⟩

theorem not_nodup_of_two {α β : Type} {l : List α} (f : α → List β) {a b : α} (hne : a ≠ b) (ha : a ∈ l) (hb : b ∈ l) {x : β}
    (hxa : x ∈ f a) (hxb : x ∈ f b) : ¬ (l.flatMap f).Nodup := by
  intro h
  rw [List.nodup_flatMap] at h
  obtain ⟨-, h⟩ := h
  have : Std.Symm (Function.onFun List.Disjoint f) := ⟨fun _ _ huv => List.disjoint_symm huv⟩
  exact (h.forall ha hb hne) hxa hxb

/-- **C31, negative.** Clients number their tags from their server's number times their
own number of queries on.  Two clients whose ranges overlap stop the deployment, whatever
the random choices of all parties are. -/
theorem C31_violated_unequal_clients (g : Grid box) (h : g.Valid) (online : Bool) (s t : Nat) (hs : s < g.servers) (ht : t < g.servers)
    (hst : s ≠ t) (x : Nat) (hxs : s * g.count s ≤ x ∧ x < (s + 1) * g.count s) (hxt : t * g.count t ≤ x ∧ x < (t + 1) * g.count t) :
    Stops g online := by
  refine C31_violated_equal_tags g h (fun hd => ?_) online
  refine not_nodup_of_two (fun s => (List.range (g.count s)).map (g.clientTag s)) hst (List.mem_range.2 hs) (List.mem_range.2 ht)
    (x := BitVec.ofNat 64 (wrap32 x)) ?_ ?_ (List.Nodup.of_append_left hd)
  · rw [Nat.succ_mul] at hxs
    refine List.mem_map.2 ⟨x - s * g.count s, List.mem_range.2 (by omega), ?_⟩
    unfold Grid.clientTag
    rw [Nat.add_sub_cancel' hxs.1]
  · rw [Nat.succ_mul] at hxt
    refine List.mem_map.2 ⟨x - t * g.count t, List.mem_range.2 (by omega), ?_⟩
    unfold Grid.clientTag
    rw [Nat.add_sub_cancel' hxt.1]

/-- **C31, negative.** For instance, if the client of server 0 has more queries than that
of server 1, who has some. -/
theorem C31_violated_first_client_larger (g : Grid box) (h : g.Valid) (online : Bool) (h0 : g.count 1 < g.count 0) (h1 : 0 < g.count 1) :
    Stops g online := by
  have hS := h.servers
  exact C31_violated_unequal_clients g h online 0 1 (by omega) (by omega) (by omega) (g.count 1) ⟨by omega, by omega⟩ ⟨by omega, by omega⟩

/-- **C31, negative.** Noise that is not the same for all rows: if the noise of a server
does not divide by its number of rows, and that of the following server, which has some,
amounts to as much per row, the deployment stops, whatever the clients do. -/
theorem C31_violated_uneven_noise (g : Grid box) (h : g.Valid) (online : Bool) (k s : Nat) (hk : k + 1 < g.parties) (hs : s + 1 < g.servers)
    (hr : g.noise k s % g.width s ≠ 0) (hp : g.noise k (s + 1) / g.width (s + 1) = g.noise k s / g.width s) (h1 : 0 < g.noise k (s + 1))
    (h32 : g.noise k s / g.width s * g.rows < 2 ^ 32) : Stops g online := by
  refine C31_violated_equal_tags g h (fun hd => ?_) online
  have hd2 := (List.Nodup.of_append_right hd)
  rw [List.nodup_flatMap] at hd2
  refine not_nodup_of_two (fun s => (List.range (g.noise k s)).map (g.noiseTag k s)) (show s ≠ s + 1 by omega)
    (List.mem_range.2 (by omega)) (List.mem_range.2 hs) (x := g.noiseTag k (s + 1) 0)
    (List.mem_map.2 ⟨g.noise k s / g.width s * g.width s, List.mem_range.2 ?_, ?_⟩) (List.mem_map.2 ⟨0, List.mem_range.2 h1, rfl⟩)
    (hd2.1 k (List.mem_range.2 (by omega)))
  · have := Nat.div_add_mod (g.noise k s) (g.width s)
    rw [Nat.mul_comm] at this
    omega
  · have hw : g.width s = g.share := by unfold Grid.width; rw [if_neg (by omega)]
    have hf : g.first (s + 1) = g.first s + g.width s := by rw [hw]; unfold Grid.first; rw [Nat.succ_mul]
    have hle : g.first (s + 1) ≤ g.rows := by
      have := h.ranges
      unfold Grid.first
      exact Nat.le_trans (Nat.mul_le_mul_right _ (by omega)) this
    unfold Grid.noiseTag
    rw [hp]
    simp only
    generalize g.noise k s / g.width s = N at *
    have e : ∀ f, f ≤ g.rows → wrap32 (wrap32 (N * g.rows) + 2 ^ 32 - wrap32 (f * N)) = N * g.rows - f * N := by
      intro f hf
      have : f * N ≤ N * g.rows := by rw [Nat.mul_comm f N]; exact Nat.mul_le_mul_left _ hf
      unfold wrap32
      omega
    rw [e _ hle, e _ (by omega), hf]
    have h2 : (g.first s + g.width s) * N ≤ N * g.rows := by
      rw [← hf, Nat.mul_comm]
      exact Nat.mul_le_mul_left _ hle
    rw [Nat.add_mul, Nat.mul_comm (g.width s) N] at h2 ⊢
    generalize g.first s * N = a at *
    generalize N * g.width s = b at *
    congr 1
    omega

/-- Non-vacuity: three queries for the client of server 0, two for that of server 1. -/
def unequalGrid : Grid toyBox := { exampleGrid with count := fun s => if s = 0 then 3 else 2 }

theorem unequalGrid_valid : unequalGrid.Valid := by
  refine ⟨by decide, by decide, by decide, by decide, rfl, fun _ _ => rfl, fun _ _ => ⟨monotone_id, fun _ _ => rfl⟩,
    fun _ _ l => List.reverse_perm l, fun _ l => List.Perm.refl l, by decide⟩

example : Stops unequalGrid true := C31_violated_first_client_larger unequalGrid unequalGrid_valid true (by decide) (by decide)

/-- Non-vacuity: equal clients; the first party makes two noise queries for row 0, which is
the first row of both its servers, and one for each other row of server 0. -/
def unevenGrid : Grid toyBox :=
  { exampleGrid with partyRand := fun k s => { exampleGrid.partyRand k s with sample := fun i => if k = 0 ∧ s = 0 ∧ i = 0 then 2 else 1 } }

theorem unevenGrid_valid : unevenGrid.Valid := by
  refine ⟨by decide, by decide, by decide, by decide, rfl, fun _ _ => rfl, fun _ _ => ⟨monotone_id, fun _ _ => rfl⟩,
    fun _ _ l => List.reverse_perm l, fun _ l => List.Perm.refl l, by decide⟩

example : Stops unevenGrid true :=
  C31_violated_uneven_noise unevenGrid unevenGrid_valid true 0 0 (by decide) (by decide) (by decide) (by decide) (by decide) (by decide)

example : unevenGrid.EqualClients := ⟨2, fun _ _ => rfl⟩

/-- Non-vacuity of the bound on connections and of the stop: in some run some process fails
an assertion. -/
example : ∃ cap n, unevenGrid.Roomy cap ∧ Reach cap (unevenGrid.net true true) n ∧ ¬ n.CanStep cap ∧ ∃ i, n.proc i = .fault .assertFail := by
  have hst : Stops unevenGrid true :=
    C31_violated_uneven_noise unevenGrid unevenGrid_valid true 0 0 (by decide) (by decide) (by decide) (by decide) (by decide) (by decide)
  obtain ⟨cap, hc⟩ := unevenGrid.exists_roomy
  obtain ⟨h1, h2⟩ := hst cap
  by_contra hno
  have step : ∀ n : { n // Reach cap (unevenGrid.net true true) n }, ∃ m : { n // Reach cap (unevenGrid.net true true) n }, ∃ i, Step cap i n.1 m.1 := by
    rintro ⟨n, hn⟩
    by_cases hcs : n.CanStep cap
    · obtain ⟨i, m, hm⟩ := hcs
      exact ⟨⟨m, hn.step hm⟩, i, hm⟩
    · rcases (h1 n hn).2.2.2 hc with h4 | ⟨i, e, h4⟩
      · exact absurd h4 hcs
      · have := (h1 n hn).2.2.1 i e h4
        subst this
        exact absurd ⟨cap, n, hc, hn, hcs, i, h4⟩ hno
  choose nx hnx using step
  exact h2 ⟨fun k => (nx^[k] ⟨_, .refl⟩).1, rfl, fun k => by
    simp only [Function.iterate_succ_apply']
    exact hnx _⟩

end DPPIR.Props
