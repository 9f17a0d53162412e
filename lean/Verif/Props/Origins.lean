import Verif.Proofs.Origins
import Verif.Props.Generator

/-!
# C73: whether the backend knows which look-up belongs to which query
-/

namespace DPPIR.Props
open DPPIR.Config DPPIR.Connect DPPIR.Noise DPPIR.Protocol DPPIR.Onion DPPIR.Main DPPIR.Joint

variable {box : SealedBox}

private theorem same_usable {w w' : World box} (hm : w.SameMachines w') {c : Config} {d : Dist} (h : Usable w c d) : Usable w' c d := by
  refine ⟨h.parties, h.servers, h.rows, fun p hp => ?_, ?_⟩
  · rw [hm.pkey, hm.skey]; exact h.pairs p hp
  · have := h.noise
    unfold World.distribution at this ⊢
    rw [hm.arith]; exact this

private theorem same_sample {w w' : World box} (hm : w.SameMachines w') (d : Dist) (k s i : Nat) :
    w'.unseeded.sample d k s i = w.unseeded.sample d k s i := by
  unfold World.sample World.unseeded
  dsimp only
  rw [hm.sampling, hm.arith, hm.rand]

private theorem same_upTo {w w' : World box} (hm : w.SameMachines w') {d : Dist} {N : Nat} (hN : w.unseeded.SamplesUpTo d N) :
    w'.unseeded.SamplesUpTo d N := by
  intro k s i
  rw [same_sample hm]
  exact hN k s i

private theorem count_query {l : List Origin} {own : List Origin} {noise : List Nat} (hp : l.Perm (own ++ noise.map .noise)) (s j : Nat) :
    l.count (.query s j) = own.count (.query s j) := by
  rw [hp.count_eq, List.count_append, Nat.add_eq_left, List.count_eq_zero]
  simp

/-- **C73** is false of the code.  The shuffles come from the seeds in the configuration,
which every process reads, and the noise from the unseeded generator.  So one list that
depends on the configuration, the C library and the number of queries only says where each
look-up of the backend comes from: in every run of every deployment, at every time, the
backend has looked up the rows of the first so many origins, in this order. -/
theorem C73_violated_one_server (w : World box) (hw : w.Sane) (c : Config) (d : Dist) (h : Usable w c d) (hS : c.serverCount.toNat = 1)
    (file : String → Option (List Byte)) (path stage : String) (hpath : path ≠ "") (hst : stage = "online" ∨ stage = "all")
    (hc : readFile (file path) = .ok c) (N : Nat) (hN : w.unseeded.SamplesUpTo d N) (q : Nat)
    (hq : q + (c.partyCount.toNat - 1) * (c.dbSize.toNat * N) < 2 ^ 32) :
    ∃ origin : List Origin, (∀ j < q, origin.count (.query 0 j) = 1) ∧
      ∀ w' : World box, w.SameMachines w' → w'.Sane → ∀ cap n, PNet.Reach cap (PNet.start (launchGen w' file path stage c.partyCount.toNat q)) n →
        lookups (n.seen c.partyCount.toNat) <+: origin.map (Origin.row (fun _ j => (w'.clientRand 0).row j % c.dbSize.toNat)) ∧
        (n.Returned c.partyCount.toNat () →
          lookups (n.seen c.partyCount.toNat) = origin.map (Origin.row (fun _ j => (w'.clientRand 0).row j % c.dbSize.toNat))) := by
  have hN32 := lt_of_fits h.parties.1 h.rows.1 hq
  have hv0 := chain_valid (unseeded_sane hw) (unseeded_usable h) hN hq
  refine ⟨(chainOf w.unseeded c d q).origins (c.partyCount.toNat - 1), fun j hj => ?_, fun w' hm hw' cap n hn => ?_⟩
  · rw [count_query (Chain.origins_perm hv0 (c.partyCount.toNat - 1) (by have := h.parties.1; show _ < c.partyCount.toNat; omega)).2]
    exact List.count_eq_one_of_mem (List.nodup_range.map (fun a b e => by cases e; rfl)) (List.mem_map.2 ⟨j, List.mem_range.2 hj, rfl⟩)
  have hu := same_usable hm h
  have hsN := same_upTo hm hN
  have hv := chain_valid (unseeded_sane hw') (unseeded_usable hu) hsN hq
  rw [launchGen_eq hu hN32 hsN hc, launch_eq _ c d (unseeded_usable hu) hsN hS file path stage hpath hst hc q (by omega)] at hn
  have hrun := (Chain.every_run_loops hv (stage == "all") true (fun x => cap x + 1) (fun _ _ => ⟨Nat.succ_pos _, Nat.succ_pos _⟩)).1 n
    (hn.mono (fun _ => Nat.le_succ _))
  have hP : c.partyCount.toNat - 1 + 1 = c.partyCount.toNat := by have := h.parties.1; omega
  have e : lookups ((chainOf w'.unseeded c d q).obsAll (stage == "all") true c.partyCount.toNat) =
      ((chainOf w.unseeded c d q).origins (c.partyCount.toNat - 1)).map (Origin.row (fun _ j => (w'.clientRand 0).row j % c.dbSize.toNat)) := by
    have e1 := Chain.lookups_backend (chainOf w'.unseeded c d q) (stage == "all") (c.partyCount.toNat - 1) hP
    rw [hP] at e1
    rw [e1, Chain.qs_origins, Chain.origins_congr (c := chainOf w.unseeded c d q) (c' := chainOf w'.unseeded c d q) rfl rfl rfl
      (fun k => hm.rand) (fun k => by
        show (fun i => BitVec.ofNat 32 ((w'.unseeded.sample d k 0 i).toOption.getD 0)) = fun i => BitVec.ofNat 32 ((w.unseeded.sample d k 0 i).toOption.getD 0)
        funext i
        rw [same_sample hm])]
    refine congrArg (fun f => List.map (Origin.row f) _) ?_
    funext _ j
    exact chain_wanted (unseeded_usable hu) q j
  rw [← e]
  exact ⟨(hrun.2.1 _).filterMap _, fun hr => congrArg lookups (hrun.2.2.1 _ hr)⟩

/-- **C73** is false of the code with several servers per party as well: there is one such
list for each server of the backend, and together they have each query of each client
once. -/
theorem C73_violated_many_servers (w : World box) (hw : w.Sane) (c : Config) (d : Dist) (h : Usable w c d)
    (hS : 2 ≤ c.serverCount.toNat ∧ c.serverCount.toNat ≤ 254) (hrows : c.serverCount.toNat ≤ c.dbSize.toNat)
    (hshare : (c.serverCount.toNat - 1) * ((c.dbSize.toNat + c.serverCount.toNat - 1) / c.serverCount.toNat) ≤ c.dbSize.toNat)
    (file : String → Option (List Byte)) (path stage : String) (hpath : path ≠ "") (hst : stage = "online" ∨ stage = "all")
    (hc : readFile (file path) = .ok c) (N : Nat) (hN : w.unseeded.SamplesUpTo d N) (q : Nat → Nat)
    (hall : stage = "all" → w.sampling = false ∧ ∃ q0, ∀ s < c.serverCount.toNat, q s = q0)
    (hq : ((List.range c.serverCount.toNat).map q).sum + (c.partyCount.toNat - 1) * (c.dbSize.toNat * N) < 2 ^ 32) :
    ∃ origin : Nat → List Origin,
      (∀ s < c.serverCount.toNat, ∀ j < q s, ((List.range c.serverCount.toNat).flatMap origin).count (.query s j) = 1) ∧
      ∀ w' : World box, w.SameMachines w' → w'.Sane → ∀ cap n,
        PNet.Reach cap (PNet.start (launchManyGen w' file path stage c.partyCount.toNat c.serverCount.toNat q)) n → ∀ t < c.serverCount.toNat,
          lookups (n.seen (c.partyCount.toNat, t)) <+: (origin t).map (Origin.row (fun s j => (w'.clientRand s).row j % c.dbSize.toNat)) ∧
          (n.Returned (c.partyCount.toNat, t) () →
            lookups (n.seen (c.partyCount.toNat, t)) = (origin t).map (Origin.row (fun s j => (w'.clientRand s).row j % c.dbSize.toNat))) := by
  have hN32 := lt_of_fits h.parties.1 h.rows.1 hq
  have hqs : ∀ s < c.serverCount.toNat, q s < 2 ^ 32 := fun s hs => by
    have : q s ≤ ((List.range c.serverCount.toNat).map q).sum := le_preSum hs
    omega
  have hone : ∀ s < c.serverCount.toNat, ∀ j < q s,
      ((List.range c.serverCount.toNat).flatMap (fun s => (List.range (q s)).map (Origin.query s))).count (.query s j) = 1 := by
    intro s hs j hj
    refine List.count_eq_one_of_mem ?_ (List.mem_flatMap.2 ⟨s, List.mem_range.2 hs, List.mem_map.2 ⟨j, List.mem_range.2 hj, rfl⟩⟩)
    refine List.nodup_flatMap.2 ⟨fun s _ => List.nodup_range.map (fun a b e => by cases e; rfl), ?_⟩
    refine List.nodup_range.pairwise_of_forall_ne fun a _ b _ hab => ?_
    intro x hx hy
    obtain ⟨i, -, rfl⟩ := List.mem_map.1 hx
    obtain ⟨i', -, e⟩ := List.mem_map.1 hy
    cases e
    exact hab rfl
  have hv0 := grid_valid (unseeded_sane hw) (unseeded_usable h) hN hS hrows hshare hq
  refine ⟨(gridOf w.unseeded c d q).origins (c.partyCount.toNat - 1), fun s hs j hj => ?_, fun w' hm hw' cap n hn t ht => ?_⟩
  · refine Eq.trans ?_ (hone s hs j hj)
    exact count_query (Grid.origins_perm hv0 (c.partyCount.toNat - 1) (by have := h.parties.1; show _ < c.partyCount.toNat; omega)).2 s j
  have hu := same_usable hm h
  have hsN := same_upTo hm hN
  have hv := grid_valid (unseeded_sane hw') (unseeded_usable hu) hsN hS hrows hshare hq
  rw [launchManyGen_eq hu hN32 hsN hc, launchMany_eq _ c d (unseeded_usable hu) hsN (by omega) file path stage hpath hst hc q hqs] at hn
  have hd : (stage == "all") = true → (gridOf w'.unseeded c d q).DistinctTags := fun hs => by
    obtain ⟨a1, a2⟩ := hall (by simpa using hs)
    exact Grid.distinct_even hv a2 (grid_even (w := w'.unseeded) (hm.sampling.trans a1) q)
  have hrun := (Grid.every_run_loops hv (stage == "all") true hd cap).1 n hn
  have hP : c.partyCount.toNat - 1 + 1 = c.partyCount.toNat := by have := h.parties.1; omega
  have e : lookups ((gridOf w'.unseeded c d q).obsAll (stage == "all") true c.partyCount.toNat t) =
      ((gridOf w.unseeded c d q).origins (c.partyCount.toNat - 1) t).map (Origin.row (fun s j => (w'.clientRand s).row j % c.dbSize.toNat)) := by
    have e1 := Grid.lookups_backend (gridOf w'.unseeded c d q) (stage == "all") t (c.partyCount.toNat - 1) hP
    rw [hP] at e1
    rw [e1, Grid.qs_origins, Grid.origins_congr (g := gridOf w.unseeded c d q) (g' := gridOf w'.unseeded c d q) rfl rfl rfl rfl rfl
      (hm.rand) (fun k s => by
        show (fun i => BitVec.ofNat 32 ((w'.unseeded.sample d k s i).toOption.getD 0)) = fun i => BitVec.ofNat 32 ((w.unseeded.sample d k s i).toOption.getD 0)
        funext i
        rw [same_sample hm])]
    refine congrArg (fun f => List.map (Origin.row f) _) ?_
    funext s j
    exact grid_wanted (unseeded_usable hu) q s j
  rw [← e]
  exact ⟨(hrun.2.1 _ t ht).filterMap _, fun hr => congrArg lookups (hrun.2.2.1 _ t ht hr)⟩

/-- **C73** is false of the code, in one line: for every query there is one place among
the look-ups of the backend where it finds the row of this query in every run. -/
theorem C73_violated_place (w : World box) (hw : w.Sane) (c : Config) (d : Dist) (h : Usable w c d) (hS : c.serverCount.toNat = 1)
    (file : String → Option (List Byte)) (path stage : String) (hpath : path ≠ "") (hst : stage = "online" ∨ stage = "all")
    (hc : readFile (file path) = .ok c) (N : Nat) (hN : w.unseeded.SamplesUpTo d N) (q : Nat)
    (hq : q + (c.partyCount.toNat - 1) * (c.dbSize.toNat * N) < 2 ^ 32) :
    ∃ place : Nat → Nat, (∀ j < q, ∀ j' < q, place j = place j' → j = j') ∧
      ∀ w' : World box, w.SameMachines w' → w'.Sane → ∀ cap n, PNet.Reach cap (PNet.start (launchGen w' file path stage c.partyCount.toNat q)) n →
        n.Returned c.partyCount.toNat () → ∀ j < q,
          (lookups (n.seen c.partyCount.toNat))[place j]? = some ((w'.clientRand 0).row j % c.dbSize.toNat) := by
  obtain ⟨origin, h1, h2⟩ := C73_violated_one_server w hw c d h hS file path stage hpath hst hc N hN q hq
  have hmem : ∀ j < q, .query 0 j ∈ origin := fun j hj => List.count_pos_iff.1 (by rw [h1 j hj]; exact Nat.one_pos)
  have hget : ∀ j < q, origin[origin.idxOf (.query 0 j)]? = some (.query 0 j) := fun j hj => by
    rw [List.getElem?_eq_getElem (List.idxOf_lt_length_of_mem (hmem j hj)), List.getElem_idxOf]
  refine ⟨fun j => origin.idxOf (.query 0 j), fun j hj j' hj' e => ?_, fun w' hm hw' cap n hn hr j hj => ?_⟩
  · have := hget j hj
    dsimp only at e
    rw [e, hget j' hj'] at this
    cases this
    rfl
  · rw [(h2 w' hm hw' cap n hn).2 hr, List.getElem?_map, hget j hj]
    rfl

/-- **C73** is false of the code, in one line, with several servers per party. -/
theorem C73_violated_place_many_servers (w : World box) (hw : w.Sane) (c : Config) (d : Dist) (h : Usable w c d)
    (hS : 2 ≤ c.serverCount.toNat ∧ c.serverCount.toNat ≤ 254) (hrows : c.serverCount.toNat ≤ c.dbSize.toNat)
    (hshare : (c.serverCount.toNat - 1) * ((c.dbSize.toNat + c.serverCount.toNat - 1) / c.serverCount.toNat) ≤ c.dbSize.toNat)
    (file : String → Option (List Byte)) (path stage : String) (hpath : path ≠ "") (hst : stage = "online" ∨ stage = "all")
    (hc : readFile (file path) = .ok c) (N : Nat) (hN : w.unseeded.SamplesUpTo d N) (q : Nat → Nat)
    (hall : stage = "all" → w.sampling = false ∧ ∃ q0, ∀ s < c.serverCount.toNat, q s = q0)
    (hq : ((List.range c.serverCount.toNat).map q).sum + (c.partyCount.toNat - 1) * (c.dbSize.toNat * N) < 2 ^ 32) :
    ∃ place : Nat → Nat → Nat × Nat,
      (∀ s < c.serverCount.toNat, ∀ j < q s, (place s j).1 < c.serverCount.toNat ∧
        ∀ s' < c.serverCount.toNat, ∀ j' < q s', place s j = place s' j' → s = s' ∧ j = j') ∧
      ∀ w' : World box, w.SameMachines w' → w'.Sane → ∀ cap n,
        PNet.Reach cap (PNet.start (launchManyGen w' file path stage c.partyCount.toNat c.serverCount.toNat q)) n →
        ∀ s < c.serverCount.toNat, ∀ j < q s, n.Returned (c.partyCount.toNat, (place s j).1) () →
          (lookups (n.seen (c.partyCount.toNat, (place s j).1)))[(place s j).2]? = some ((w'.clientRand s).row j % c.dbSize.toNat) := by
  obtain ⟨origin, h1, h2⟩ := C73_violated_many_servers w hw c d h hS hrows hshare file path stage hpath hst hc N hN q hall hq
  have hmem : ∀ s j, ∃ t, s < c.serverCount.toNat → j < q s → t < c.serverCount.toNat ∧ .query s j ∈ origin t := by
    intro s j
    by_cases hsj : s < c.serverCount.toNat ∧ j < q s
    · have : Origin.query s j ∈ (List.range c.serverCount.toNat).flatMap origin :=
        List.count_pos_iff.1 (by rw [h1 s hsj.1 j hsj.2]; exact Nat.one_pos)
      obtain ⟨t, ht, hm⟩ := List.mem_flatMap.1 this
      exact ⟨t, fun _ _ => ⟨List.mem_range.1 ht, hm⟩⟩
    · exact ⟨0, fun a b => absurd ⟨a, b⟩ hsj⟩
  choose t ht using hmem
  have hget : ∀ s < c.serverCount.toNat, ∀ j < q s, (origin (t s j))[(origin (t s j)).idxOf (.query s j)]? = some (.query s j) := fun s hs j hj => by
    rw [List.getElem?_eq_getElem (List.idxOf_lt_length_of_mem (ht s j hs hj).2), List.getElem_idxOf]
  refine ⟨fun s j => (t s j, (origin (t s j)).idxOf (.query s j)), fun s hs j hj => ⟨(ht s j hs hj).1, fun s' hs' j' hj' e => ?_⟩,
    fun w' hm hw' cap n hn s hs j hj hr => ?_⟩
  · have := hget s hs j hj
    obtain ⟨e1, e2⟩ := Prod.mk.inj e
    rw [e2, e1, hget s' hs' j' hj'] at this
    cases this
    exact ⟨rfl, rfl⟩
  · dsimp only at hr ⊢
    rw [(h2 w' hm hw' cap n hn (t s j) (ht s j hs hj).1).2 hr, List.getElem?_map, hget s hs j hj]
    rfl

/-- **C73**, what holds: the backend cannot tell the order of the queries from how often it
looks up each row, even if it knows everything about the machines.  Two deployments whose
clients ask for the same rows in different orders have the same numbers of look-ups. -/
theorem C73_counts_partial (w w' : World box) (hm : w.SameMachines w') (hw : w.Sane) (hw' : w'.Sane) (c : Config) (d : Dist) (h : Usable w c d)
    (hS : c.serverCount.toNat = 1) (file : String → Option (List Byte)) (path stage : String) (hpath : path ≠ "")
    (hst : stage = "online" ∨ stage = "all") (hc : readFile (file path) = .ok c) (N : Nat) (hN : w.unseeded.SamplesUpTo d N) (q : Nat)
    (hq : q + (c.partyCount.toNat - 1) * (c.dbSize.toNat * N) < 2 ^ 32)
    (hperm : ((List.range q).map (fun j => (w'.clientRand 0).row j % c.dbSize.toNat)).Perm
      ((List.range q).map (fun j => (w.clientRand 0).row j % c.dbSize.toNat)))
    (x x' : Fin c.dbSize.toNat → Nat) (hx : LooksUp (launchGen w file path stage c.partyCount.toNat q) [c.partyCount.toNat] x)
    (hx' : LooksUp (launchGen w' file path stage c.partyCount.toNat q) [c.partyCount.toNat] x') : x' = x := by
  have hN32 := lt_of_fits h.parties.1 h.rows.1 hq
  have key : ∀ w : World box, w.Sane → Usable w c d → w.unseeded.SamplesUpTo d N → ∀ x : Fin c.dbSize.toNat → Nat,
      LooksUp (launchGen w file path stage c.partyCount.toNat q) [c.partyCount.toNat] x →
      x = fun key : Fin c.dbSize.toNat => ((List.range q).map (fun j => (w.clientRand 0).row j % c.dbSize.toNat)).count key.val +
        ((List.range (c.partyCount.toNat - 1)).map
          (fun k => (BitVec.ofNat 32 ((w.unseeded.sample d k 0 key).toOption.getD 0)).toNat)).sum := by
    intro w hw h hN x hx
    have hv := chain_valid (unseeded_sane hw) (unseeded_usable h) hN hq
    rw [launchGen_eq h hN32 hN hc, launch_eq _ c d (unseeded_usable h) hN hS file path stage hpath hst hc q (by omega)] at hx
    refine (counts_total _ hv _ x (looksUp_counts hv _ hx)).trans ?_
    funext (key : Fin c.dbSize.toNat)
    have e2 : askedFor (chainOf w.unseeded c d q) key = ((List.range q).map (fun j => (w.clientRand 0).row j % c.dbSize.toNat)).count key.val := by
      unfold askedFor
      congr 1
      exact List.map_congr_left fun j _ => chain_wanted (unseeded_usable h) q j
    rw [e2]
    rfl
  rw [key w' hw' (same_usable hm h) (same_upTo hm hN) x' hx', key w hw h hN x hx]
  funext key
  rw [hperm.count_eq]
  simp only [same_sample hm]

/-! ### Examples -/

namespace Example

/-- The samples of the deployments of `private_ok` are at most 2, sampled or not. -/
theorem unseeded_samples (sampling : Bool) (S : Nat) (hS : S = 1 ∨ S = 2) {d : Dist} (hd : (privateWorld sampling).distribution (privateConfig S) = .ok d)
    {y : ℝ} (hy : d.cutoff = .fin y) (hy2 : ⌊2 * y⌋.toNat ≤ 2) : (privateWorld sampling).unseeded.SamplesUpTo d 2 := by
  obtain ⟨-, -, -, -, -, -, -, -, -, b1, b2, -⟩ := private_ok sampling S hS
  have hrep : Representable truncOps d.cutoff := by
    unfold World.distribution at hd
    rw [b1, b2] at hd
    obtain ⟨b, c, rfl, -, -, -, -, -, h6, -⟩ := accepted_rounded trunc_dist.1 (by norm_num) two_le (by norm_num) (by norm_num) hd
    exact h6
  obtain ⟨y', hy', hs⟩ := C61_samples (privateWorld sampling).unseeded (sound_of_double trunc_dist.1) (privateConfig S) d hd hrep
  have e : y = y' := Dbl.fin.inj (hy.symm.trans hy')
  intro k s i
  obtain ⟨v, h1, h2⟩ := hs k s i
  exact ⟨v, h1.trans (by rw [← e]; exact hy2), h2⟩

/-- Three parties, five rows, ten queries: the backend finds the row of every query. -/
example : ∃ place : Nat → Nat, (∀ j < 10, ∀ j' < 10, place j = place j' → j = j') ∧
    ∀ w' : World _, (privateWorld true).SameMachines w' → w'.Sane → ∀ cap n,
      PNet.Reach cap (PNet.start (launchGen w' (fun _ => some (privateFile 1)) "f" "all" (privateConfig 1).partyCount.toNat 10)) n →
      n.Returned (privateConfig 1).partyCount.toNat () → ∀ j < 10,
        (lookups (n.seen (privateConfig 1).partyCount.toNat))[place j]? = some ((w'.clientRand 0).row j % (privateConfig 1).dbSize.toNat) := by
  obtain ⟨d, y, hu, hy, hy2, hf, e1, e2, e3, -⟩ := private_ok true 1 (Or.inl rfl)
  exact C73_violated_place (privateWorld true) (privateWorld_sane true) (privateConfig 1) d hu e2 (fun _ => some (privateFile 1)) "f" "all"
    (by decide) (Or.inr rfl) hf 2 (unseeded_samples true 1 (Or.inl rfl) hu.noise hy hy2) 10 (by rw [e1, e3]; omega)

/-- Asking for the rows 0 to 9 upwards or downwards makes no difference to the numbers. -/
example : ∃ x, LooksUp (launchGen ((privateWorld true).asking 0 id) (fun _ => some (privateFile 1)) "f" "all"
      (privateConfig 1).partyCount.toNat 10) [(privateConfig 1).partyCount.toNat] (x : Fin (privateConfig 1).dbSize.toNat → Nat) ∧
    LooksUp (launchGen ((privateWorld true).asking 0 (9 - ·)) (fun _ => some (privateFile 1)) "f" "all"
      (privateConfig 1).partyCount.toNat 10) [(privateConfig 1).partyCount.toNat] x := by
  obtain ⟨d, y, hu, hy, hy2, hf, e1, e2, e3, -⟩ := private_ok true 1 (Or.inl rfl)
  have hs : ∀ row, ((privateWorld true).asking 0 row).unseeded.SamplesUpTo d 2 := fun row =>
    unseeded_samples true 1 (Or.inl rfl) hu.noise hy hy2
  have hus : ∀ row, Usable ((privateWorld true).asking 0 row) (privateConfig 1) d := fun row => ⟨hu.parties, hu.servers, hu.rows, hu.pairs, hu.noise⟩
  have hsane : ∀ row, ((privateWorld true).asking 0 row).Sane := fun row =>
    ⟨(privateWorld_sane true).division, (privateWorld_sane true).order, (privateWorld_sane true).backendOrder⟩
  have hq : 10 + ((privateConfig 1).partyCount.toNat - 1) * ((privateConfig 1).dbSize.toNat * 2) < 2 ^ 32 := by rw [e1, e3]; omega
  have hx := fun row => complete_of_answers (C72_one_server_partial ((privateWorld true).asking 0 row) (hsane row) (privateConfig 1) d (hus row) e2
    (fun _ => some (privateFile 1)) "f" "all" (by decide) (Or.inr rfl) hf 2 (hs row) 10 hq) [(privateConfig 1).partyCount.toNat]
    (privateConfig 1).dbSize.toNat
  obtain ⟨x, hx1⟩ := hx id
  obtain ⟨x', hx2⟩ := hx (9 - ·)
  refine ⟨x, hx1, ?_⟩
  have := C73_counts_partial ((privateWorld true).asking 0 id) ((privateWorld true).asking 0 (9 - ·)) ⟨rfl, rfl, rfl, rfl, rfl, rfl⟩ (hsane _) (hsane _)
    (privateConfig 1) d (hus _) e2 (fun _ => some (privateFile 1)) "f" "all" (by decide) (Or.inr rfl) hf 2 (hs _) 10 hq (by
      rw [e3]
      decide) x x' hx1 hx2
  rw [← this]
  exact hx2

/-- Two servers per party, both stages. -/
example : ∃ place : Nat → Nat → Nat × Nat,
    (∀ s < (privateConfig 2).serverCount.toNat, ∀ j < 10, (place s j).1 < (privateConfig 2).serverCount.toNat ∧
      ∀ s' < (privateConfig 2).serverCount.toNat, ∀ j' < 10, place s j = place s' j' → s = s' ∧ j = j') ∧
    ∀ w' : World _, (privateWorld false).SameMachines w' → w'.Sane → ∀ cap n,
      PNet.Reach cap (PNet.start (launchManyGen w' (fun _ => some (privateFile 2)) "f" "all" (privateConfig 2).partyCount.toNat
        (privateConfig 2).serverCount.toNat (fun _ => 10))) n →
      ∀ s < (privateConfig 2).serverCount.toNat, ∀ j < 10, n.Returned ((privateConfig 2).partyCount.toNat, (place s j).1) () →
        (lookups (n.seen ((privateConfig 2).partyCount.toNat, (place s j).1)))[(place s j).2]? =
          some ((w'.clientRand s).row j % (privateConfig 2).dbSize.toNat) := by
  obtain ⟨d, y, hu, hy, hy2, hf, e1, e2, e3, -⟩ := private_ok false 2 (Or.inr rfl)
  have hq : ((List.range (privateConfig 2).serverCount.toNat).map (fun _ => 10)).sum +
      ((privateConfig 2).partyCount.toNat - 1) * ((privateConfig 2).dbSize.toNat * 2) < 2 ^ 32 := by
    rw [e1, e2, e3]; simp [List.range_succ]
  have hshare : ((privateConfig 2).serverCount.toNat - 1) * (((privateConfig 2).dbSize.toNat + (privateConfig 2).serverCount.toNat - 1) /
      (privateConfig 2).serverCount.toNat) ≤ (privateConfig 2).dbSize.toNat := by rw [e2, e3]; norm_num
  exact C73_violated_place_many_servers (privateWorld false) (privateWorld_sane false) (privateConfig 2) d hu (by omega) (by omega) hshare
    (fun _ => some (privateFile 2)) "f" "all" (by decide) (Or.inr rfl) hf 2 (unseeded_samples false 2 (Or.inr rfl) hu.noise hy hy2) (fun _ => 10)
    (fun _ => ⟨rfl, 10, fun _ _ => rfl⟩) hq

end Example

end DPPIR.Props
