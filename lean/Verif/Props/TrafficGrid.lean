import Verif.Proofs.TrafficGrid
import Verif.Spec.PrivateRun
import Verif.Props.Grid

/-!
# What the traffic of a deployment with parallel servers depends on (C68)
-/

namespace DPPIR.Props
open DPPIR Proc PNet Onion Spec Protocol Shuffle

variable {box : SealedBox}

/-- C68, how much, with several servers per party.  `H` is what server `s` of level `i`
has read from each other process.  Along a chain it is as with one server per party:
`load k s` queries leave server `s` of level `k`.  Between servers of one party it is:
a count and a ready message; in the offline stage another 15 bytes of counts and ready
messages, the ciphers that the plan sends here, and 76 bytes for each secret of the
sender; else one more count; in the online stage 4 ready messages, the queries that the
plan sends here, and the responses to those messages that were sent there, other than
noise.  Servers of the backend tell each other their secrets.  It is never more, not less
once the reader has returned, and nothing is read from any other process. -/
theorem C68_traffic_parallel (g : Grid box) (h : g.Valid) (offline online : Bool) (hd : offline = true → g.DistinctTags)
    (cap : Node × Node → Nat) (i s : Nat) (hs : s < g.servers) (n : PNet Node Obs Unit) (H : Node → List Byte)
    (hh : Hears cap (i, s) (g.net offline online) n H) :
    let got := fun j len => (H j).length ≤ len ∧ (n.Returned (i, s) () → (H j).length = len)
    (∀ k < g.parties, i = k + 1 → got (k, s)
      (4 + (if offline then g.load k s * (124 * (g.parties - k)) else 0) + if online then g.load k s * 12 else 0)) ∧
    (i < g.parties → got (i + 1, s) (1 + (if offline then 1 else 0) + if online then g.load i s * 52 else 0)) ∧
    (∀ k, k + 1 < g.parties → i = k + 1 → ∃ plan, g.Plans k s plan ∧ ∀ u < g.servers, u ≠ s → ∃ here there noise,
      plan.countFrom u = .ok here ∧ plan.countTo u = .ok there ∧ plan.countNoiseTo u = .ok noise ∧ got (i, u)
        (5 + (if offline then 15 + here * (124 * (g.parties - k - 1)) + g.load k u * 76 else 4) +
          if online then 4 + here * 12 + (there - noise) * 52 else 0)) ∧
    (i = g.parties → ∀ u < g.servers, u ≠ s → got (i, u) (if offline then 5 + g.load (g.parties - 1) u * 76 else 0)) ∧
    ∀ j ≠ (i, s), ¬ (j = (i - 1, s) ∧ 1 ≤ i ∧ i ≤ g.parties) → ¬ (j = (i + 1, s) ∧ i < g.parties) →
      ¬ (j.1 = i ∧ j.2 < g.servers ∧ 1 ≤ i ∧ i ≤ g.parties) → H j = [] := by
  have key := Grid.hears_len h offline online hd cap i s hs n H hh
  have sib : ∀ u, u ≠ s → ((i, u) : Node) ≠ (i, s) := fun u hu e => hu (congrArg Prod.snd e)
  refine ⟨?_, fun hi => ?_, ?_, ?_, fun j hj h1 h2 h3 => ?_⟩
  · rintro k hk rfl
    have := key (k, s) (by simp)
    rwa [Grid.heard_down h hk hs] at this
  · have := key (i + 1, s) (by simp)
    rwa [Grid.heard_up h hi hs] at this
  · rintro k hk rfl
    obtain ⟨plan, h1, h2⟩ := Grid.plan_counts h hk hs
    refine ⟨plan, h1, fun u hu hne => ⟨_, _, _, (h2 u hu).1, (h2 u hu).2.1, (h2 u hu).2.2, ?_⟩⟩
    have := key (k + 1, u) (sib u hne)
    rwa [Grid.heard_sibling h hu hs (Ne.symm hne) offline online hk] at this
  · rintro rfl u hu hne
    have := key (g.parties, u) (sib u hne)
    rwa [Grid.heard_backend h hu hs (Ne.symm hne) offline online] at this
  · have := (key j hj).1
    rw [Grid.heard_other h _ _ _ _ _ h1 h2 h3] at this
    exact List.length_eq_zero_iff.1 (Nat.le_zero.1 this)

/-- C68, what it depends on, with several servers per party: two deployments with as many
parties and servers, as many queries of each client, as much noise of each server, and
the same shared seeds and generator.  Whatever else is different (keys asked for,
database, encryption keys, random choices), and whatever the schedules and socket
buffers, a server that returns has read as many bytes from each other one. -/
theorem C68_same_traffic_parallel {box' : SealedBox} (g : Grid box) (g' : Grid box') (h : g.Valid) (h' : g'.Valid)
    (hp : g.parties = g'.parties) (hsv : g.servers = g'.servers) (hc : ∀ s < g.servers, g.count s = g'.count s)
    (hn : ∀ k, k + 1 < g.parties → ∀ s < g.servers, g.noise k s = g'.noise k s) (hr : g.rand = g'.rand)
    (hseed : ∀ k, k + 1 < g.parties → g.sharedSeed k = g'.sharedSeed k) (offline online : Bool)
    (hd : offline = true → g.DistinctTags ∧ g'.DistinctTags) (cap cap' : Node × Node → Nat) (i s : Nat) (hs : s < g.servers)
    (n n' : PNet Node Obs Unit) (H H' : Node → List Byte) (hh : Hears cap (i, s) (g.net offline online) n H)
    (hh' : Hears cap' (i, s) (g'.net offline online) n' H') (hf : n.Returned (i, s) ()) (hf' : n'.Returned (i, s) ())
    (j : Node) (hj : j ≠ (i, s)) : (H j).length = (H' j).length := by
  rw [(Grid.hears_len h offline online (fun e => (hd e).1) cap i s hs n H hh j hj).2 hf,
    (Grid.hears_len h' offline online (fun e => (hd e).2) cap' i s (by omega) n' H' hh' j hj).2 hf',
    Grid.heardLen_congr h h' hp hsv hc hn hr hseed offline online i s hs j hj]

/-- C68, for the keys, with several servers per party: the client of server `t` asks for
other keys, all else equal. -/
theorem C68_keys_do_not_show_parallel (g : Grid box) (h : g.Valid) (t : Nat) (row : Nat → Nat) (offline online : Bool)
    (hd : offline = true → g.DistinctTags) (cap cap' : Node × Node → Nat) (i s : Nat) (hs : s < g.servers)
    (n n' : PNet Node Obs Unit) (H H' : Node → List Byte) (hh : Hears cap (i, s) (g.net offline online) n H)
    (hh' : Hears cap' (i, s) ((g.asking t row).net offline online) n' H') (hf : n.Returned (i, s) ())
    (hf' : n'.Returned (i, s) ()) (j : Node) (hj : j ≠ (i, s)) : (H j).length = (H' j).length := by
  have ht : ∀ k, (g.asking t row).total k = g.total k := by
    intro k
    induction k with
    | zero => rfl
    | succ k ih => simp only [Grid.total, ih]; rfl
  have h' : (g.asking t row).Valid :=
    ⟨h.parties, h.servers, h.rows, h.ranges, h.keys, h.pairs, h.division, h.order, h.backendOrder, by rw [ht]; exact h.fits⟩
  have hd' : g.DistinctTags → (g.asking t row).DistinctTags := by
    have : (g.asking t row).allTags = g.allTags := by
      unfold Grid.allTags Grid.noiseTag
      simp only [ht]
      rfl
    unfold Grid.DistinctTags
    rw [this]
    exact id
  exact C68_same_traffic_parallel g (g.asking t row) h h' rfl rfl (fun _ _ => rfl) (fun _ _ _ _ => rfl) rfl (fun _ _ => rfl) offline online
    (fun e => ⟨hd e, hd' (hd e)⟩) cap cap' i s hs n n' H H' hh hh' hf hf' j hj

/-- With 3 parties of 2 servers, both stages: a server of the second party that returns. -/
example : exampleGrid.Valid ∧ exampleGrid.DistinctTags ∧ ∃ cap n H, Hears cap (2, 1) (exampleGrid.net true true) n H ∧
    n.Returned (2, 1) () ∧ (H (1, 1)).length = 4 + exampleGrid.load 1 1 * 248 + exampleGrid.load 1 1 * 12 ∧ exampleGrid.load 1 1 = 5 ∧
    20 + exampleGrid.load 1 0 * 76 ≤ (H (2, 0)).length ∧ H (3, 0) = [] := by
  have hd : exampleGrid.DistinctTags := Grid.distinct_even exampleGrid_valid exampleGrid_even.1 exampleGrid_even.2
  obtain ⟨cap, hc⟩ := exampleGrid.exists_roomy
  obtain ⟨n, hn, hr⟩ := Grid.complete_run exampleGrid_valid true true (fun _ => hd) hc
  obtain ⟨H, hH⟩ := (hears_iff_reach cap (2, 1) _ _).1 hn
  obtain ⟨h1, -, h3, -, h5⟩ := C68_traffic_parallel exampleGrid exampleGrid_valid true true (fun _ => hd) cap 2 1 (by decide) n H hH
  refine ⟨exampleGrid_valid, hd, cap, n, H, hH, hr _, (h1 1 (by decide) rfl).2 (hr _), by decide, ?_, h5 _ (by decide) (by decide)
    (by decide) (by decide)⟩
  obtain ⟨plan, -, hu⟩ := h3 1 (by decide) rfl
  obtain ⟨a, b, c, -, -, -, e⟩ := hu 0 (by decide) (by decide)
  rw [e.2 (hr _)]
  simp only [if_true]
  omega

/-- Another key of the client of server 0: the changed deployment has a complete run too. -/
example : ((exampleGrid.asking 0 (fun _ => 0)).clientRand 0).row 0 ≠ (exampleGrid.clientRand 0).row 0 ∧
    ∃ cap n H, Hears cap (2, 1) ((exampleGrid.asking 0 (fun _ => 0)).net true true) n H ∧ n.Returned (2, 1) () := by
  have hv : (exampleGrid.asking 0 (fun _ => 0)).Valid :=
    ⟨exampleGrid_valid.parties, exampleGrid_valid.servers, exampleGrid_valid.rows, exampleGrid_valid.ranges, exampleGrid_valid.keys,
      exampleGrid_valid.pairs, exampleGrid_valid.division, exampleGrid_valid.order, exampleGrid_valid.backendOrder, by decide⟩
  have hd : (exampleGrid.asking 0 (fun _ => 0)).DistinctTags :=
    Grid.distinct_even hv ⟨2, fun _ _ => rfl⟩ (fun _ _ => ⟨1, fun _ _ _ _ => rfl⟩)
  obtain ⟨cap, hc⟩ := (exampleGrid.asking 0 (fun _ => 0)).exists_roomy
  obtain ⟨n, hn, hr⟩ := Grid.complete_run hv true true (fun _ => hd) hc
  obtain ⟨H, hH⟩ := (hears_iff_reach cap (2, 1) _ _).1 hn
  exact ⟨by decide, cap, n, H, hH, hr _⟩

end DPPIR.Props
