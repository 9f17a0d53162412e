import Verif.Proofs.StartConserved
import Verif.Props.StartCounts

/-!
# C38 and C51 for deployments started from the command line
-/

namespace DPPIR.Props
open DPPIR.Config DPPIR.Connect DPPIR.Noise DPPIR.Protocol DPPIR.Onion DPPIR.Main DPPIR.Joint DPPIR.Spec

variable {box : SealedBox} {H : Type} [DecidableEq H]

/-- **C38.** One server per party, started from the command line with a usable
configuration file, in any order, setting up the connections first or not; `noise k r` is
what party `k` samples for row `r`: counts are conserved at every moment. -/
theorem C38_one_server (w : World box) (hw : w.Sane) (c : Config) (d : Dist) (h : Usable w c d) (hS : c.serverCount.toNat = 1)
    (m : Hosts H) (hr : m.Reaches c) (hn : m.NoClash c)
    (file : String → Option (List Byte)) (path stage : String) (hpath : path ≠ "") (hst : stage = "online" ∨ stage = "all")
    (hc : readFile (file path) = .ok c) (N : Nat) (hN : w.SamplesUpTo d N) (q : Nat)
    (hq : q + (c.partyCount.toNat - 1) * (c.dbSize.toNat * N) < 2 ^ 32)
    (noise : Nat → Nat → Nat) (hnoise : ∀ k r, w.sample d k 0 r = .ok (noise k r)) (seen later : Nat → List Obs)
    (hm : Moments (launch w file path stage c.partyCount.toNat q) seen later ∨
      ConnectingMoments (fun k => (k, 0)) (setup m c) (launch w file path stage c.partyCount.toNat q) seen later) :
    Conserved c.partyCount.toNat 1 c.dbSize.toNat q noise (fun k _ => seen k) := by
  obtain ⟨⟨cap, n, h1, rfl⟩, -⟩ := both_one hw h hS hr hn hpath hst hc hN hq hm
  have hv := chain_valid hw h hN hq
  have pre := ((Chain.every_run_loops hv (stage == "all") true (fun x => cap x + 1) (fun k _ => ⟨Nat.succ_pos _, Nat.succ_pos _⟩)).1 n
    (RNet.reach_mono (fun _ => Nat.le_succ _) h1)).2.1
  obtain ⟨-, b2, -, b4⟩ := C77_wait_loops (chainOf w c d q) hv (stage == "all") cap n h1
  have hlen := fun k hk => (Chain.qs_spec hv (stage == "all") k hk).1
  refine conserved_of (load := fun k _ => (chainOf w c d q).queries k) h.parties.1 (fun k hk => ?_) (fun k hk s hs x hx => ?_)
    (fun k hk s hs => ?_) (fun k hk s hs => ?_)
    (fun s hs => C79_in_order_loops (chainOf w c d q) hv (stage == "all") cap n h1)
    (fun t ht hne => ⟨b2 hne _ (by have := h.parties.1; show 1 ≤ c.partyCount.toNat; omega) le_rfl, fun j s hj0 hj _ => b2 hne j hj0 hj.le⟩)
    (fun s hs hne j t hj0 hj _ => b4 hne j hj0 hj)
  · rw [List.range_one, List.map_singleton, List.sum_singleton]
    exact Chain.queries_leaving (fun k r _ => sample_toNat hN (samples_small h.parties.1 h.rows.1 hq) (hnoise k r)) k
  · have hx' := (Chain.countsSent_prefix (pre k)).subset hx
    have h32 : (BitVec.ofNat 32 ((chainOf w c d q).queries k)).toNat = (chainOf w c d q).queries k := by
      rw [BitVec.toNat_ofNat, Nat.mod_eq_of_lt (hv.lt hk)]
    rcases Nat.eq_zero_or_pos k with rfl | hk0
    · rw [Chain.countsSent_client] at hx'
      rw [List.mem_singleton.1 hx']
      exact h32
    · obtain ⟨j, rfl⟩ : ∃ j, k = j + 1 := ⟨k - 1, by omega⟩
      rw [Chain.countsSent_party _ (stage == "all") true j hk] at hx'
      rw [List.mem_singleton.1 hx']
      exact h32
  · have a := (Chain.queriesSent_prefix (pre k)).length_le
    rcases Nat.eq_zero_or_pos k with rfl | hk0
    · rwa [Chain.queriesSent_client, List.length_map, hlen _ hk] at a
    · obtain ⟨j, rfl⟩ : ∃ j, k = j + 1 := ⟨k - 1, by omega⟩
      rwa [Chain.queriesSent_party _ (stage == "all") j hk, List.length_map, hlen _ hk] at a
  · have a := (Chain.responsesSent_prefix (pre (k + 1))).length_le
    rwa [Chain.responsesSent_pos _ (stage == "all") k hk, List.length_map, hlen _ hk] at a

/-- **C51.** The same with 2 to 254 servers per party and as many clients, under the
conditions of C61.  The servers of a party make noise for equal shares of the rows (rounded
up), in order: `noise k r` is what the server of party `k` for row `r` samples for it. -/
theorem C51_many_servers (w : World box) (hw : w.Sane) (c : Config) (d : Dist) (h : Usable w c d)
    (hS : 2 ≤ c.serverCount.toNat ∧ c.serverCount.toNat ≤ 254) (hrows : c.serverCount.toNat ≤ c.dbSize.toNat)
    (hshare : (c.serverCount.toNat - 1) * ((c.dbSize.toNat + c.serverCount.toNat - 1) / c.serverCount.toNat) ≤ c.dbSize.toNat)
    (m : Hosts H) (hr : m.Reaches c) (hn : m.NoClash c)
    (file : String → Option (List Byte)) (path stage : String) (hpath : path ≠ "") (hst : stage = "online" ∨ stage = "all")
    (hc : readFile (file path) = .ok c) (N : Nat) (hN : w.SamplesUpTo d N) (q : Nat → Nat)
    (hall : stage = "all" → w.sampling = false ∧ ∃ q0, ∀ s < c.serverCount.toNat, q s = q0)
    (hq : ((List.range c.serverCount.toNat).map q).sum + (c.partyCount.toNat - 1) * (c.dbSize.toNat * N) < 2 ^ 32)
    (share : Nat) (hsh : share = (c.dbSize.toNat + c.serverCount.toNat - 1) / c.serverCount.toNat)
    (noise : Nat → Nat → Nat) (hnoise : ∀ k r, w.sample d k (r / share) (r % share) = .ok (noise k r))
    (seen later : Node → List Obs)
    (hm : Moments (launchMany w file path stage c.partyCount.toNat c.serverCount.toNat q) seen later ∨
      ConnectingMoments id (setup m c) (launchMany w file path stage c.partyCount.toNat c.serverCount.toNat q) seen later) :
    Conserved c.partyCount.toNat c.serverCount.toNat c.dbSize.toNat ((List.range c.serverCount.toNat).map q).sum noise (fun k s => seen (k, s)) := by
  obtain ⟨⟨cap, n, h1, rfl⟩, -⟩ := both_many hw h hS hrows hshare hr hn hpath hst hc hN hall hq hm
  have hv := grid_valid hw h hN (q := q) hS hrows hshare hq
  have hd : (stage == "all") = true → (gridOf w c d q).DistinctTags := fun e => by
    obtain ⟨e1, e2⟩ := hall (by simpa using e)
    exact Grid.distinct_even hv e2 (grid_even e1 _)
  have pre := ((Grid.every_run_loops hv (stage == "all") true hd cap).1 n h1).2.1
  have b := C77_wait_loops_parallel (gridOf w c d q) hv (stage == "all") hd cap n h1
  have hlen := fun k hk s hs => (Grid.qs_spec hv (stage == "all") k hk s hs).1
  refine conserved_of (load := (gridOf w c d q).load) h.parties.1
    (fun k _ => Grid.load_leaving hv (fun k s i hs hi => shares_sample h hN (samples_small h.parties.1 h.rows.1 hq) hS.1 hsh hnoise hs hi) k)
    (fun k hk s hs x hx => ?_) (fun k hk s hs => ?_) (fun k hk s hs => ?_)
    (fun s hs => C79_in_order_loops_parallel (gridOf w c d q) hv (stage == "all") hd cap n h1 s hs)
    (fun t ht hne => (b t ht).2.1 hne) (fun s hs => (b s hs).2.2.2)
  · have hx' := (Chain.countsSent_prefix (pre k s hs)).subset hx
    have h32 : (BitVec.ofNat 32 ((gridOf w c d q).load k s)).toNat = (gridOf w c d q).load k s := by
      rw [BitVec.toNat_ofNat, Nat.mod_eq_of_lt (hv.load_lt hk hs)]
    rcases Nat.eq_zero_or_pos k with rfl | hk0
    · rw [Grid.countsSent_client] at hx'
      rw [List.mem_singleton.1 hx']
      exact h32
    · obtain ⟨j, rfl⟩ : ∃ j, k = j + 1 := ⟨k - 1, by omega⟩
      rw [Grid.countsSent_party _ (stage == "all") s true j hk] at hx'
      rw [List.mem_singleton.1 hx']
      exact h32
  · have a := (Chain.queriesSent_prefix (pre k s hs)).length_le
    rcases Nat.eq_zero_or_pos k with rfl | hk0
    · rwa [Grid.queriesSent_client, List.length_map, hlen _ hk s hs] at a
    · obtain ⟨j, rfl⟩ : ∃ j, k = j + 1 := ⟨k - 1, by omega⟩
      rwa [Grid.queriesSent_party _ (stage == "all") s j hk, List.length_map, hlen _ hk s hs] at a
  · have a := (Chain.responsesSent_prefix (pre (k + 1) s hs)).length_le
    rwa [Grid.responsesSent_pos _ (stage == "all") s k hk, List.length_map, hlen _ hk s hs] at a

namespace Example

/-- One server per party and ten queries, both stages: the end of some run that sets up the
connections first, when the client has results. -/
example : ∃ seen : Nat → List Obs, ConnectingMoments (fun k => (k, 0)) (setup oneMachine (privateConfig 1))
      (launch (privateWorld false) (fun _ => some (privateFile 1)) "f" "all" (privateConfig 1).partyCount.toNat 10) seen seen ∧
    results (seen 0) ≠ [] ∧
    ∃ (d : Dist) (noise : Nat → Nat → Nat), (∀ k r, (privateWorld false).sample d k 0 r = .ok (noise k r)) ∧
      Conserved 3 1 5 10 noise (fun k _ => seen k) := by
  obtain ⟨d, N, hu, hN, hN2, hf, e1, e2, e3, hn⟩ := private_samples 1 (Or.inl rfl)
  have hq : 10 + ((privateConfig 1).partyCount.toNat - 1) * ((privateConfig 1).dbSize.toNat * N) < 2 ^ 32 := by
    rw [e1, e3]; omega
  have ha := C62_one_server (privateWorld false) (privateWorld_sane false) (privateConfig 1) d hu e2
    oneMachine (oneMachine_reaches _) hn (fun _ => some (privateFile 1)) "f" "all" (by decide) (.inr rfl) hf N hN 10 hq
  obtain ⟨h1, h2⟩ := ha (fun _ => _ + 1) (fun _ => Nat.succ_pos _)
  obtain ⟨n, hn1, hstuck⟩ := exists_end h2
  obtain ⟨-, -, h3, h4⟩ := h1 n hn1
  have hret := ((h3 (fun _ => Nat.le_succ _)).resolve_left hstuck).1
  have hm1 : ConnectingMoments (fun k => (k, 0)) (setup oneMachine (privateConfig 1))
      (launch (privateWorld false) (fun _ => some (privateFile 1)) "f" "all" (privateConfig 1).partyCount.toNat 10) n.seen n.seen :=
    ⟨_, n, n, hn1, .refl, rfl, rfl⟩
  obtain ⟨db, hdb⟩ : ∃ db, Database.new (privateConfig 1).dbSize.toNat = .ok db := by rw [e3]; exact ⟨_, rfl⟩
  have hres : (results (n.seen 0)).length = 10 := by
    have := congrArg List.length ((h4 0 (by omega) db hdb).2 (hret _))
    simpa using this
  choose noise hle hnoise using fun k r => hN k 0 r
  have key := C38_one_server (privateWorld false) (privateWorld_sane false) (privateConfig 1) d hu e2
    oneMachine (oneMachine_reaches _) hn (fun _ => some (privateFile 1)) "f" "all" (by decide) (.inr rfl) hf N hN 10 hq noise hnoise _ _ (.inr hm1)
  refine ⟨n.seen, hm1, List.ne_nil_of_length_pos (by omega), d, noise, hnoise, ?_⟩
  rw [e1, e3] at key
  exact key

/-- Two servers per party, which make noise for three and two rows, and ten queries at
each: the same. -/
example : ∃ seen : Node → List Obs, ConnectingMoments id (setup oneMachine (privateConfig 2))
      (launchMany (privateWorld false) (fun _ => some (privateFile 2)) "f" "all"
        (privateConfig 2).partyCount.toNat (privateConfig 2).serverCount.toNat (fun _ => 10)) seen seen ∧
    (∀ s < 2, results (seen (0, s)) ≠ []) ∧
    ∃ (d : Dist) (noise : Nat → Nat → Nat), (∀ k r, (privateWorld false).sample d k (r / 3) (r % 3) = .ok (noise k r)) ∧
      Conserved 3 2 5 20 noise (fun k s => seen (k, s)) := by
  obtain ⟨d, N, hu, hN, hN2, hf, e1, e2, e3, hn⟩ := private_samples 2 (Or.inr rfl)
  have hq : (privateConfig 2).serverCount.toNat * 10 + ((privateConfig 2).partyCount.toNat - 1) * ((privateConfig 2).dbSize.toNat * N) < 2 ^ 32 := by
    rw [e1, e2, e3]; omega
  have hshare : ((privateConfig 2).serverCount.toNat - 1) * (((privateConfig 2).dbSize.toNat + (privateConfig 2).serverCount.toNat - 1) /
      (privateConfig 2).serverCount.toNat) ≤ (privateConfig 2).dbSize.toNat := by rw [e2, e3]; norm_num
  have ha := C62_many_servers (privateWorld false) (privateWorld_sane false) (privateConfig 2) d hu (by omega) (by omega) hshare
    oneMachine (oneMachine_reaches _) hn (fun _ => some (privateFile 2)) "f" "all" (by decide) (.inr rfl) hf N hN (fun _ => 10)
    (fun _ => ⟨rfl, 10, fun _ _ => rfl⟩) (by rw [e1, e2, e3]; simp [List.range_succ]; omega)
  obtain ⟨h1, h2⟩ := ha (fun _ => _ + 1) (fun _ => Nat.succ_pos _)
  obtain ⟨n, hn1, hstuck⟩ := exists_end h2
  obtain ⟨-, -, h3, h4⟩ := h1 n hn1
  have hret := ((h3 (fun _ => Nat.le_succ _)).resolve_left hstuck).1
  have hm1 : ConnectingMoments id (setup oneMachine (privateConfig 2))
      (launchMany (privateWorld false) (fun _ => some (privateFile 2)) "f" "all"
        (privateConfig 2).partyCount.toNat (privateConfig 2).serverCount.toNat (fun _ => 10)) n.seen n.seen :=
    ⟨_, n, n, hn1, .refl, rfl, rfl⟩
  obtain ⟨db, hdb⟩ : ∃ db, Database.new (privateConfig 2).dbSize.toNat = .ok db := by rw [e3]; exact ⟨_, rfl⟩
  have hres : ∀ s < 2, (results (n.seen (0, s))).length = 10 := fun s hs => by
    have := congrArg List.length ((h4 s (by omega) db hdb).2 (hret _))
    simpa using this
  choose noise hle hnoise using fun k r => hN k (r / 3) (r % 3)
  have key := C51_many_servers (privateWorld false) (privateWorld_sane false) (privateConfig 2) d hu (by omega) (by omega) hshare
    oneMachine (oneMachine_reaches _) hn (fun _ => some (privateFile 2)) "f" "all" (by decide) (.inr rfl) hf N hN (fun _ => 10)
    (fun _ => ⟨rfl, 10, fun _ _ => rfl⟩) (by rw [e1, e2, e3]; simp [List.range_succ]; omega) 3 (by rw [e2, e3]) noise hnoise _ _ (.inr hm1)
  refine ⟨n.seen, hm1, fun s hs => List.ne_nil_of_length_pos (by have := hres s hs; omega), d, noise, hnoise, ?_⟩
  rw [e1, e2, e3] at key
  exact key

end Example
end DPPIR.Props
