import Verif.Proofs.StartCausal
import Verif.Props.Causal
import Verif.Props.StartHiding

/-!
# C77, C79 and C80 for deployments started from the command line
-/

namespace DPPIR.Props
open DPPIR.Config DPPIR.Connect DPPIR.Noise DPPIR.Protocol DPPIR.Onion DPPIR.Main DPPIR.Joint DPPIR.Spec

variable {box : SealedBox} {H : Type} [DecidableEq H]

/-- Both moments as moments of runs of `prog` in which the connections exist. -/
theorem both {ι A : Type} [DecidableEq ι] [DecidableEq A] {prog : ι → PProg ι Unit} {pos : ι → Node}
    {setup : Node → CProc Node A (Wiring Node)} {seen later : ι → List Obs}
    (conn : ∀ (cap : Sock Node → Nat) (n : JNet ι A Obs), JNet.Reach pos cap (JNet.start setup prog) n →
      ∃ (cap' : ι × ι → Nat) (P : PNet ι Obs Unit), PNet.Reach cap' (PNet.start prog) P ∧ P.seen = n.seen)
    (hm : Moments prog seen later ∨ ConnectingMoments pos setup prog seen later) :
    (∃ (cap : ι × ι → Nat) (n : PNet ι Obs Unit), PNet.Reach cap (PNet.start prog) n ∧ n.seen = seen) ∧
    (∃ (cap : ι × ι → Nat) (n : PNet ι Obs Unit), PNet.Reach cap (PNet.start prog) n ∧ n.seen = later) ∧
    ∀ i, seen i <+: later i := by
  rcases hm with ⟨cap, n, m, h1, h2, rfl, rfl⟩ | ⟨cap, n, m, h1, h2, rfl, rfl⟩
  · exact ⟨⟨cap, n, h1, rfl⟩, ⟨cap, m, h1.trans h2, rfl⟩, fun i => h2.seen_prefix i⟩
  · exact ⟨conn cap n h1, conn cap m (h1.trans h2), fun i => h2.seen_prefix i⟩

theorem both_one {w : World box} (hw : w.Sane) {c : Config} {d : Dist} (h : Usable w c d) (hS : c.serverCount.toNat = 1)
    {m : Hosts H} (hr : m.Reaches c) (hn : m.NoClash c) {file : String → Option (List Byte)} {path stage : String} (hpath : path ≠ "")
    (hst : stage = "online" ∨ stage = "all") (hc : readFile (file path) = .ok c) {N : Nat} (hN : w.SamplesUpTo d N) {q : Nat}
    (hq : q + (c.partyCount.toNat - 1) * (c.dbSize.toNat * N) < 2 ^ 32) {seen later : Nat → List Obs}
    (hm : Moments (launch w file path stage c.partyCount.toNat q) seen later ∨
      ConnectingMoments (fun k => (k, 0)) (setup m c) (launch w file path stage c.partyCount.toNat q) seen later) :
    (∃ (cap : Nat × Nat → Nat) (n : PNet Nat Obs Unit), PNet.Reach cap ((chainOf w c d q).netLoops (stage == "all") true) n ∧ n.seen = seen) ∧
    (∃ (cap : Nat × Nat → Nat) (n : PNet Nat Obs Unit), PNet.Reach cap ((chainOf w c d q).netLoops (stage == "all") true) n ∧ n.seen = later) ∧
    ∀ i, seen i <+: later i := by
  have hk : Consistent c := ⟨h.parties.2, h.servers⟩
  have hP : 0 < c.partyCount.toNat := by have := h.parties.1; omega
  have key := both (fun cap n hn' => connecting_moment (pl := planOf m c) (planOf_distinct m c (config_complete hk) hn) (plan_small c m)
    (fun a b e => (Prod.mk.inj e).1)
    (inv_start hP (fun i hi => setup_eq m c (config_complete hk) hP hr i hi) (fun i hi => setup_out m c i hi))
    (by
      have := C61_one_server w hw c d h hS file path stage hpath hst hc N hN q hq
      show Answers _ (fun a b => Linked c.partyCount.toNat c.serverCount.toNat (a, 0) (b, 0)) _ _ _ _ _ _
      rw [hS]
      exact this) hn') hm
  rw [launch_eq w c d h hN hS file path stage hpath hst hc q (by omega)] at key
  exact key

theorem both_many {w : World box} (hw : w.Sane) {c : Config} {d : Dist} (h : Usable w c d)
    (hS : 2 ≤ c.serverCount.toNat ∧ c.serverCount.toNat ≤ 254) (hrows : c.serverCount.toNat ≤ c.dbSize.toNat)
    (hshare : (c.serverCount.toNat - 1) * ((c.dbSize.toNat + c.serverCount.toNat - 1) / c.serverCount.toNat) ≤ c.dbSize.toNat)
    {m : Hosts H} (hr : m.Reaches c) (hn : m.NoClash c) {file : String → Option (List Byte)} {path stage : String} (hpath : path ≠ "")
    (hst : stage = "online" ∨ stage = "all") (hc : readFile (file path) = .ok c) {N : Nat} (hN : w.SamplesUpTo d N) {q : Nat → Nat}
    (hall : stage = "all" → w.sampling = false ∧ ∃ q0, ∀ s < c.serverCount.toNat, q s = q0)
    (hq : ((List.range c.serverCount.toNat).map q).sum + (c.partyCount.toNat - 1) * (c.dbSize.toNat * N) < 2 ^ 32)
    {seen later : Node → List Obs}
    (hm : Moments (launchMany w file path stage c.partyCount.toNat c.serverCount.toNat q) seen later ∨
      ConnectingMoments id (setup m c) (launchMany w file path stage c.partyCount.toNat c.serverCount.toNat q) seen later) :
    (∃ (cap : Node × Node → Nat) (n : PNet Node Obs Unit), PNet.Reach cap ((gridOf w c d q).netLoops (stage == "all") true) n ∧ n.seen = seen) ∧
    (∃ (cap : Node × Node → Nat) (n : PNet Node Obs Unit), PNet.Reach cap ((gridOf w c d q).netLoops (stage == "all") true) n ∧ n.seen = later) ∧
    ∀ i, seen i <+: later i := by
  have hk : Consistent c := ⟨h.parties.2, h.servers⟩
  have hP : 0 < c.partyCount.toNat := by have := h.parties.1; omega
  have key := both (fun cap n hn' => connecting_moment (pl := planOf m c) (planOf_distinct m c (config_complete hk) hn) (plan_small c m)
    Function.injective_id
    (inv_start hP (fun i hi => setup_eq m c (config_complete hk) hP hr i hi) (fun i hi => setup_out m c i hi))
    (C61_many_servers w hw c d h hS hrows hshare file path stage hpath hst hc N hN q hall hq) hn') hm
  have hqs : ∀ s < c.serverCount.toNat, q s < 2 ^ 32 := fun s hs => by
    have : q s ≤ ((List.range c.serverCount.toNat).map q).sum := le_preSum hs
    omega
  rw [launchMany_eq w c d h hN (by omega) file path stage hpath hst hc q hqs] at key
  exact key

private theorem tags {w : World box} {c : Config} {d : Dist} {stage : String} {q : Nat → Nat} (hv : (gridOf w c d q).Valid)
    (hall : stage = "all" → w.sampling = false ∧ ∃ q0, ∀ s < c.serverCount.toNat, q s = q0) :
    (stage == "all") = true → (gridOf w c d q).DistinctTags :=
  fun hs => Grid.distinct_even hv (hall (by simpa using hs)).2 (grid_even (hall (by simpa using hs)).1 q)

private theorem same {α : Type} {l l' : List α} {n : Nat} (h : l <+: l') (h1 : l.length = n) (h2 : l'.length = n) : l' = l :=
  (h.eq_of_length (h1.trans h2.symm)).symm

private theorem still {α : Type} {l l' : List α} (h : l <+: l') (h1 : l ≠ []) : l' ≠ [] := by
  rintro rfl
  exact h1 (List.prefix_nil.1 h)

/-- **C79.** One server per party, started from the command line with a usable
configuration file, in any order, setting up the connections first or not: at every moment
everything that has been read was sent before. -/
theorem C79_one_server (w : World box) (hw : w.Sane) (c : Config) (d : Dist) (h : Usable w c d) (hS : c.serverCount.toNat = 1)
    (m : Hosts H) (hr : m.Reaches c) (hn : m.NoClash c)
    (file : String → Option (List Byte)) (path stage : String) (hpath : path ≠ "") (hst : stage = "online" ∨ stage = "all")
    (hc : readFile (file path) = .ok c) (N : Nat) (hN : w.SamplesUpTo d N) (q : Nat)
    (hq : q + (c.partyCount.toNat - 1) * (c.dbSize.toNat * N) < 2 ^ 32) (seen later : Nat → List Obs)
    (hm : Moments (launch w file path stage c.partyCount.toNat q) seen later ∨
      ConnectingMoments (fun k => (k, 0)) (setup m c) (launch w file path stage c.partyCount.toNat q) seen later) :
    InOrder c.partyCount.toNat seen := by
  obtain ⟨⟨cap, n, h1, rfl⟩, -⟩ := both_one hw h hS hr hn hpath hst hc hN hq hm
  exact C79_in_order_loops (chainOf w c d q) (chain_valid hw h hN hq) (stage == "all") cap n h1

/-- **C79.** The same with 2 to 254 servers per party and as many clients, under the
conditions of C61, for the chain of every server. -/
theorem C79_many_servers (w : World box) (hw : w.Sane) (c : Config) (d : Dist) (h : Usable w c d)
    (hS : 2 ≤ c.serverCount.toNat ∧ c.serverCount.toNat ≤ 254) (hrows : c.serverCount.toNat ≤ c.dbSize.toNat)
    (hshare : (c.serverCount.toNat - 1) * ((c.dbSize.toNat + c.serverCount.toNat - 1) / c.serverCount.toNat) ≤ c.dbSize.toNat)
    (m : Hosts H) (hr : m.Reaches c) (hn : m.NoClash c)
    (file : String → Option (List Byte)) (path stage : String) (hpath : path ≠ "") (hst : stage = "online" ∨ stage = "all")
    (hc : readFile (file path) = .ok c) (N : Nat) (hN : w.SamplesUpTo d N) (q : Nat → Nat)
    (hall : stage = "all" → w.sampling = false ∧ ∃ q0, ∀ s < c.serverCount.toNat, q s = q0)
    (hq : ((List.range c.serverCount.toNat).map q).sum + (c.partyCount.toNat - 1) * (c.dbSize.toNat * N) < 2 ^ 32)
    (seen later : Node → List Obs)
    (hm : Moments (launchMany w file path stage c.partyCount.toNat c.serverCount.toNat q) seen later ∨
      ConnectingMoments id (setup m c) (launchMany w file path stage c.partyCount.toNat c.serverCount.toNat q) seen later)
    (s : Nat) (hs : s < c.serverCount.toNat) : InOrder c.partyCount.toNat (fun k => seen (k, s)) := by
  obtain ⟨⟨cap, n, h1, rfl⟩, -⟩ := both_many hw h hS hrows hshare hr hn hpath hst hc hN hall hq hm
  have hv := grid_valid hw h hN (q := q) hS hrows hshare hq
  exact C79_in_order_loops_parallel (gridOf w c d q) hv (stage == "all") (tags hv hall) cap n h1 s hs

/-- **C80.** With 2 to 254 servers per party, started from the command line: as long as one
client has not sent all the queries it was started with, nothing goes on behind the first
party, for no client. -/
theorem C80_many_servers (w : World box) (hw : w.Sane) (c : Config) (d : Dist) (h : Usable w c d)
    (hS : 2 ≤ c.serverCount.toNat ∧ c.serverCount.toNat ≤ 254) (hrows : c.serverCount.toNat ≤ c.dbSize.toNat)
    (hshare : (c.serverCount.toNat - 1) * ((c.dbSize.toNat + c.serverCount.toNat - 1) / c.serverCount.toNat) ≤ c.dbSize.toNat)
    (m : Hosts H) (hr : m.Reaches c) (hn : m.NoClash c)
    (file : String → Option (List Byte)) (path stage : String) (hpath : path ≠ "") (hst : stage = "online" ∨ stage = "all")
    (hc : readFile (file path) = .ok c) (N : Nat) (hN : w.SamplesUpTo d N) (q : Nat → Nat)
    (hall : stage = "all" → w.sampling = false ∧ ∃ q0, ∀ s < c.serverCount.toNat, q s = q0)
    (hq : ((List.range c.serverCount.toNat).map q).sum + (c.partyCount.toNat - 1) * (c.dbSize.toNat * N) < 2 ^ 32)
    (seen later : Node → List Obs)
    (hm : Moments (launchMany w file path stage c.partyCount.toNat c.serverCount.toNat q) seen later ∨
      ConnectingMoments id (setup m c) (launchMany w file path stage c.partyCount.toNat c.serverCount.toNat q) seen later)
    (t : Nat) (ht : t < c.serverCount.toNat) (hsent : (queriesSent (seen (0, t))).length < q t)
    (s : Nat) (hs : s < c.serverCount.toNat) : Waiting c.partyCount.toNat (fun k => seen (k, s)) := by
  obtain ⟨⟨cap, n, h1, rfl⟩, -⟩ := both_many hw h hS hrows hshare hr hn hpath hst hc hN hall hq hm
  have hv := grid_valid hw h hN (q := q) hS hrows hshare hq
  exact C80_one_client_holds_all_loops (gridOf w c d q) hv (stage == "all") (tags hv hall) cap n h1 t ht hsent s hs

/-- **C77.** One server per party, started from the command line with a usable
configuration file, in any order, setting up the connections first or not: batches are
complete before any of them goes on. -/
theorem C77_one_server (w : World box) (hw : w.Sane) (c : Config) (d : Dist) (h : Usable w c d) (hS : c.serverCount.toNat = 1)
    (m : Hosts H) (hr : m.Reaches c) (hn : m.NoClash c)
    (file : String → Option (List Byte)) (path stage : String) (hpath : path ≠ "") (hst : stage = "online" ∨ stage = "all")
    (hc : readFile (file path) = .ok c) (N : Nat) (hN : w.SamplesUpTo d N) (q : Nat)
    (hq : q + (c.partyCount.toNat - 1) * (c.dbSize.toNat * N) < 2 ^ 32) (seen later : Nat → List Obs)
    (hm : Moments (launch w file path stage c.partyCount.toNat q) seen later ∨
      ConnectingMoments (fun k => (k, 0)) (setup m c) (launch w file path stage c.partyCount.toNat q) seen later) :
    Batches c.partyCount.toNat 1 (fun k _ => seen k) (fun k _ => later k) := by
  obtain ⟨⟨cap, n, h1, rfl⟩, ⟨cap', n', h2, rfl⟩, hp⟩ := both_one hw h hS hr hn hpath hst hc hN hq hm
  obtain ⟨a1, a2, a3, a4⟩ := C77_wait_loops (chainOf w c d q) (chain_valid hw h hN hq) (stage == "all") cap n h1
  obtain ⟨b1, b2, b3, b4⟩ := C77_wait_loops (chainOf w c d q) (chain_valid hw h hN hq) (stage == "all") cap' n' h2
  refine ⟨fun k t h0 hk _ hne j s hj0 hj _ => ?_, fun t _ hne => ⟨?_, fun j s hj0 hj _ => ?_⟩, fun k t h0 hk _ hne j s hj hjP _ => ?_,
    fun t _ hne j s hj0 hj _ => ?_⟩
  · exact same (Chain.queriesRead_prefix (hp j)) (a1 k h0 hk hne j hj0 hj)
      (b1 k h0 hk (still (Chain.queriesSent_prefix (hp k)) hne) j hj0 hj)
  · have hP : 1 ≤ c.partyCount.toNat := by have := h.parties.1; omega
    exact same (Chain.queriesRead_prefix (hp _)) (a2 hne _ hP le_rfl) (b2 (still (Chain.lookups_prefix (hp _)) hne) _ hP le_rfl)
  · exact same (Chain.queriesRead_prefix (hp j)) (a2 hne j hj0 hj.le) (b2 (still (Chain.lookups_prefix (hp _)) hne) j hj0 hj.le)
  · exact same (Chain.responsesRead_prefix (hp j)) (a3 k h0 hk hne j hj hjP)
      (b3 k h0 hk (still (Chain.responsesSent_prefix (hp k)) hne) j hj hjP)
  · exact same (Chain.responsesRead_prefix (hp j)) (a4 hne j hj0 hj) (b4 (still (Chain.responsesRead_prefix (hp 0)) hne) j hj0 hj)

/-- **C77.** The same with 2 to 254 servers per party and as many clients, under the
conditions of C61. -/
theorem C77_many_servers (w : World box) (hw : w.Sane) (c : Config) (d : Dist) (h : Usable w c d)
    (hS : 2 ≤ c.serverCount.toNat ∧ c.serverCount.toNat ≤ 254) (hrows : c.serverCount.toNat ≤ c.dbSize.toNat)
    (hshare : (c.serverCount.toNat - 1) * ((c.dbSize.toNat + c.serverCount.toNat - 1) / c.serverCount.toNat) ≤ c.dbSize.toNat)
    (m : Hosts H) (hr : m.Reaches c) (hn : m.NoClash c)
    (file : String → Option (List Byte)) (path stage : String) (hpath : path ≠ "") (hst : stage = "online" ∨ stage = "all")
    (hc : readFile (file path) = .ok c) (N : Nat) (hN : w.SamplesUpTo d N) (q : Nat → Nat)
    (hall : stage = "all" → w.sampling = false ∧ ∃ q0, ∀ s < c.serverCount.toNat, q s = q0)
    (hq : ((List.range c.serverCount.toNat).map q).sum + (c.partyCount.toNat - 1) * (c.dbSize.toNat * N) < 2 ^ 32)
    (seen later : Node → List Obs)
    (hm : Moments (launchMany w file path stage c.partyCount.toNat c.serverCount.toNat q) seen later ∨
      ConnectingMoments id (setup m c) (launchMany w file path stage c.partyCount.toNat c.serverCount.toNat q) seen later) :
    Batches c.partyCount.toNat c.serverCount.toNat (fun k s => seen (k, s)) (fun k s => later (k, s)) := by
  obtain ⟨⟨cap, n, h1, rfl⟩, ⟨cap', n', h2, rfl⟩, hp⟩ := both_many hw h hS hrows hshare hr hn hpath hst hc hN hall hq hm
  have hv := grid_valid hw h hN (q := q) hS hrows hshare hq
  have a := C77_wait_loops_parallel (gridOf w c d q) hv (stage == "all") (tags hv hall) cap n h1
  have b := C77_wait_loops_parallel (gridOf w c d q) hv (stage == "all") (tags hv hall) cap' n' h2
  refine ⟨fun k t h0 hk ht hne j s hj0 hj hs => ?_, fun t ht hne => ⟨?_, fun j s hj0 hj hs => ?_⟩, fun k t h0 hk ht hne j s hj hjP hs => ?_,
    fun t ht hne j s hj0 hj hs => ?_⟩
  · exact same (Chain.queriesRead_prefix (hp _)) ((a t ht).1 k h0 hk hne j s hj0 hj hs)
      ((b t ht).1 k h0 hk (still (Chain.queriesSent_prefix (hp _)) hne) j s hj0 hj hs)
  · exact same (Chain.queriesRead_prefix (hp _)) ((a t ht).2.1 hne).1 ((b t ht).2.1 (still (Chain.lookups_prefix (hp _)) hne)).1
  · exact same (Chain.queriesRead_prefix (hp _)) (((a t ht).2.1 hne).2 j s hj0 hj hs)
      (((b t ht).2.1 (still (Chain.lookups_prefix (hp _)) hne)).2 j s hj0 hj hs)
  · exact same (Chain.responsesRead_prefix (hp _)) ((a t ht).2.2.1 k h0 hk hne j s hj hjP hs)
      ((b t ht).2.2.1 k h0 hk (still (Chain.responsesSent_prefix (hp _)) hne) j s hj hjP hs)
  · exact same (Chain.responsesRead_prefix (hp _)) ((a t ht).2.2.2 hne j s hj0 hj hs)
      ((b t ht).2.2.2 (still (Chain.responsesRead_prefix (hp _)) hne) j s hj0 hj hs)

namespace Example

/-- Two servers per party and ten queries at each: at the end of some run that sets up the
connections first both clients have ten results; all that was read was sent before, and
batches were complete.  At its beginning, when client 1 has not sent a query, all wait. -/
example : ∃ seen later : Node → List Obs, ConnectingMoments id (setup oneMachine (privateConfig 2))
      (launchMany (privateWorld false) (fun _ => some (privateFile 2)) "f" "all"
        (privateConfig 2).partyCount.toNat (privateConfig 2).serverCount.toNat (fun _ => 10)) seen later ∧
    queriesSent (seen (0, 1)) = [] ∧ (∀ s < 2, (results (later (0, s))).length = 10) ∧
    (∀ s < 2, InOrder 3 (fun k => later (k, s))) ∧ (∀ s < 2, Waiting 3 (fun k => seen (k, s))) ∧
    Batches 3 2 (fun k s => later (k, s)) (fun k s => later (k, s)) := by
  obtain ⟨d, N, hu, hN, hN2, hf, e1, e2, e3, hn⟩ := private_samples 2 (Or.inr rfl)
  have hq : ((List.range (privateConfig 2).serverCount.toNat).map (fun _ => 10)).sum +
      ((privateConfig 2).partyCount.toNat - 1) * ((privateConfig 2).dbSize.toNat * N) < 2 ^ 32 := by
    rw [e1, e2, e3]; simp [List.range_succ]; omega
  have hs : (privateConfig 2).serverCount.toNat = 2 := e2
  have hshare : ((privateConfig 2).serverCount.toNat - 1) * (((privateConfig 2).dbSize.toNat + (privateConfig 2).serverCount.toNat - 1) /
      (privateConfig 2).serverCount.toNat) ≤ (privateConfig 2).dbSize.toNat := by rw [e2, e3]; norm_num
  have ha := C62_many_servers (privateWorld false) (privateWorld_sane false) (privateConfig 2) d hu (by omega) (by omega) hshare
    oneMachine (oneMachine_reaches _) hn (fun _ => some (privateFile 2)) "f" "all" (by decide) (.inr rfl) hf N hN (fun _ => 10)
    (fun _ => ⟨rfl, 10, fun _ _ => rfl⟩) hq
  obtain ⟨h1, h2⟩ := ha (fun _ => _ + 1) (fun _ => Nat.succ_pos _)
  obtain ⟨n, hn1, hstuck⟩ := exists_end h2
  obtain ⟨-, -, h3, h4⟩ := h1 n hn1
  have hret := ((h3 (fun _ => Nat.le_succ _)).resolve_left hstuck).1
  have hm0 : ConnectingMoments id (setup oneMachine (privateConfig 2))
      (launchMany (privateWorld false) (fun _ => some (privateFile 2)) "f" "all"
        (privateConfig 2).partyCount.toNat (privateConfig 2).serverCount.toNat (fun _ => 10)) (fun _ => []) n.seen :=
    ⟨_, _, n, .refl, hn1, rfl, rfl⟩
  have hm1 : ConnectingMoments id (setup oneMachine (privateConfig 2))
      (launchMany (privateWorld false) (fun _ => some (privateFile 2)) "f" "all"
        (privateConfig 2).partyCount.toNat (privateConfig 2).serverCount.toNat (fun _ => 10)) n.seen n.seen :=
    ⟨_, n, n, hn1, .refl, rfl, rfl⟩
  refine ⟨fun _ => [], n.seen, hm0, rfl, fun s hs2 => ?_, fun s hs2 => ?_, fun s hs2 => ?_, ?_⟩
  · obtain ⟨db, hdb⟩ : ∃ db, Database.new (privateConfig 2).dbSize.toNat = .ok db := by rw [e3]; exact ⟨_, rfl⟩
    have := congrArg List.length ((h4 s (by omega) db hdb).2 (hret _))
    simpa using this
  · rw [← e1]
    exact C79_many_servers (privateWorld false) (privateWorld_sane false) (privateConfig 2) d hu (by omega) (by omega) hshare
      oneMachine (oneMachine_reaches _) hn (fun _ => some (privateFile 2)) "f" "all" (by decide) (.inr rfl) hf N hN (fun _ => 10)
      (fun _ => ⟨rfl, 10, fun _ _ => rfl⟩) hq _ _ (.inr hm1) s (by omega)
  · rw [← e1]
    exact C80_many_servers (privateWorld false) (privateWorld_sane false) (privateConfig 2) d hu (by omega) (by omega) hshare
      oneMachine (oneMachine_reaches _) hn (fun _ => some (privateFile 2)) "f" "all" (by decide) (.inr rfl) hf N hN (fun _ => 10)
      (fun _ => ⟨rfl, 10, fun _ _ => rfl⟩) hq _ _ (.inr hm0) 1 (by omega) (by show 0 < 10; decide) s (by omega)
  · have := C77_many_servers (privateWorld false) (privateWorld_sane false) (privateConfig 2) d hu (by omega) (by omega) hshare
      oneMachine (oneMachine_reaches _) hn (fun _ => some (privateFile 2)) "f" "all" (by decide) (.inr rfl) hf N hN (fun _ => 10)
      (fun _ => ⟨rfl, 10, fun _ _ => rfl⟩) hq _ _ (.inr hm1)
    rwa [e1, e2] at this

/-- One server per party: the same for one client. -/
example (seen later : Nat → List Obs) (hm : ConnectingMoments (fun k => (k, 0)) (setup oneMachine (privateConfig 1))
      (launch (privateWorld false) (fun _ => some (privateFile 1)) "f" "all" (privateConfig 1).partyCount.toNat 10) seen later) :
    InOrder 3 seen ∧ Batches 3 1 (fun k _ => seen k) (fun k _ => later k) := by
  obtain ⟨d, N, hu, hN, hN2, hf, e1, e2, e3, hn⟩ := private_samples 1 (Or.inl rfl)
  have hq : 10 + ((privateConfig 1).partyCount.toNat - 1) * ((privateConfig 1).dbSize.toNat * N) < 2 ^ 32 := by
    rw [e1, e3]; omega
  rw [← e1]
  exact ⟨C79_one_server (privateWorld false) (privateWorld_sane false) (privateConfig 1) d hu e2
      oneMachine (oneMachine_reaches _) hn (fun _ => some (privateFile 1)) "f" "all" (by decide) (.inr rfl) hf N hN 10 hq seen later (.inr hm),
    C77_one_server (privateWorld false) (privateWorld_sane false) (privateConfig 1) d hu e2
      oneMachine (oneMachine_reaches _) hn (fun _ => some (privateFile 1)) "f" "all" (by decide) (.inr rfl) hf N hN 10 hq seen later (.inr hm)⟩

end Example
end DPPIR.Props
