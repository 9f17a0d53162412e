import Verif.Props.Loops
import Verif.Props.StartCounts

/-!
# C40 and C53 for deployments started from the command line
-/

namespace DPPIR.Props
open DPPIR.Config DPPIR.Connect DPPIR.Noise DPPIR.Protocol DPPIR.Onion DPPIR.Main DPPIR.Joint DPPIR.Spec

variable {box : SealedBox} {H : Type} [DecidableEq H]

/-- **C40.** A deployment with one server per party, started from the command line with a
usable configuration file, its connections in place or still to be made: at every moment
of every run the backend has looked up rows of its database only. -/
theorem C40_one_server (w : World box) (hw : w.Sane) (c : Config) (d : Dist) (h : Usable w c d) (hS : c.serverCount.toNat = 1)
    (m : Hosts H) (hr : m.Reaches c) (hn : m.NoClash c)
    (file : String → Option (List Byte)) (path stage : String) (hpath : path ≠ "") (hst : stage = "online" ∨ stage = "all")
    (hc : readFile (file path) = .ok c) (N : Nat) (hN : w.SamplesUpTo d N) (q : Nat)
    (hq : q + (c.partyCount.toNat - 1) * (c.dbSize.toNat * N) < 2 ^ 32) (seen later : Nat → List Obs)
    (hm : Moments (launch w file path stage c.partyCount.toNat q) seen later ∨
      ConnectingMoments (fun k => (k, 0)) (setup m c) (launch w file path stage c.partyCount.toNat q) seen later) :
    ∀ row ∈ lookups (seen c.partyCount.toNat), row < c.dbSize.toNat := by
  obtain ⟨⟨cap, n, h1, rfl⟩, -⟩ := both_one hw h hS hr hn hpath hst hc hN hq hm
  have hv := chain_valid hw h hN hq
  obtain ⟨cap', s, m', k1, k2, k3, -⟩ := C60_loops_refine _ hv.parties.2 (stage == "all") true cap n h1 c.partyCount.toNat
  rw [← k3]
  exact C40_lookups_in_range _ hv (stage == "all") cap' k1 s m' k2

/-- **C53.** The same with 2 to 254 servers per party, for every server of the backend. -/
theorem C53_many_servers (w : World box) (hw : w.Sane) (c : Config) (d : Dist) (h : Usable w c d)
    (hS : 2 ≤ c.serverCount.toNat ∧ c.serverCount.toNat ≤ 254) (hrows : c.serverCount.toNat ≤ c.dbSize.toNat)
    (hshare : (c.serverCount.toNat - 1) * ((c.dbSize.toNat + c.serverCount.toNat - 1) / c.serverCount.toNat) ≤ c.dbSize.toNat)
    (m : Hosts H) (hr : m.Reaches c) (hn : m.NoClash c)
    (file : String → Option (List Byte)) (path stage : String) (hpath : path ≠ "") (hst : stage = "online" ∨ stage = "all")
    (hc : readFile (file path) = .ok c) (N : Nat) (hN : w.SamplesUpTo d N) (q : Nat → Nat)
    (hall : stage = "all" → w.sampling = false ∧ ∃ q0, ∀ s < c.serverCount.toNat, q s = q0)
    (hq : ((List.range c.serverCount.toNat).map q).sum + (c.partyCount.toNat - 1) * (c.dbSize.toNat * N) < 2 ^ 32)
    (seen later : Node → List Obs)
    (hm : Moments (launchMany w file path stage c.partyCount.toNat c.serverCount.toNat q) seen later ∨
      ConnectingMoments id (setup m c) (launchMany w file path stage c.partyCount.toNat c.serverCount.toNat q) seen later) :
    ∀ s < c.serverCount.toNat, ∀ row ∈ lookups (seen (c.partyCount.toNat, s)), row < c.dbSize.toNat := by
  obtain ⟨⟨cap, n, h1, rfl⟩, -⟩ := both_many hw h hS hrows hshare hr hn hpath hst hc hN hall hq hm
  have hv := grid_valid hw h hN (q := q) hS hrows hshare hq
  have hd : (stage == "all") = true → (gridOf w c d q).DistinctTags := fun e => by
    obtain ⟨e1, e2⟩ := hall (by simpa using e)
    exact Grid.distinct_even hv e2 (grid_even e1 _)
  intro s hs
  obtain ⟨cap', m', k2, k3, -⟩ := C60_loops_refine_parallel _ ⟨Nat.le_trans (by decide) hv.parties.1, hv.parties.2⟩ (stage == "all") true cap n h1
    (c.partyCount.toNat, s)
  rw [← k3]
  exact C53_lookups_in_range _ hv (stage == "all") hd cap' m' k2 s hs

private theorem some_lookup {P S R : Nat} {asked : Nat → List Nat} {noise : Nat → Nat → Nat} {client backend : Nat → List Obs}
    (h : ExactNoise P S R asked noise client backend) (hS : 0 < S) (hres : results (client 0) ≠ []) {r : Nat} (hr : r < R) (hr' : r ∈ asked 0) :
    ∃ s < S, lookups (backend s) ≠ [] := by
  by_contra hno
  have hnil : ∀ s < S, lookups (backend s) = [] := fun s hs => not_not.1 fun e => hno ⟨s, hs, e⟩
  have e := h.exact 0 hS hres r hr
  have e0 : ((List.range S).map fun s => (lookups (backend s)).count r).sum = 0 := by
    refine List.sum_eq_zero fun x hx => ?_
    obtain ⟨s, hs, rfl⟩ := List.mem_map.1 hx
    rw [hnil s (List.mem_range.1 hs), List.count_nil]
  have e1 : (asked 0).count r ≤ ((List.range S).map fun s => (asked s).count r).sum :=
    List.single_le_sum (by simp) _ (List.mem_map.2 ⟨0, List.mem_range.2 hS, rfl⟩)
  have := List.count_pos_iff.2 hr'
  omega

namespace Example

/-- One server per party and ten queries, both stages: the end of some run that sets up the
connections first, when the backend has looked up rows. -/
example : ∃ seen : Nat → List Obs, ConnectingMoments (fun k => (k, 0)) (setup oneMachine (privateConfig 1))
      (launch (privateWorld false) (fun _ => some (privateFile 1)) "f" "all" (privateConfig 1).partyCount.toNat 10) seen seen ∧
    lookups (seen 3) ≠ [] ∧ ∀ row ∈ lookups (seen 3), row < 5 := by
  obtain ⟨d, N, hu, hN, hN2, hf, e1, e2, e3, hn⟩ := private_samples 1 (Or.inl rfl)
  have hq : 10 + ((privateConfig 1).partyCount.toNat - 1) * ((privateConfig 1).dbSize.toNat * N) < 2 ^ 32 := by
    rw [e1, e3]; omega
  have ha := C62_one_server (privateWorld false) (privateWorld_sane false) (privateConfig 1) d hu e2
    oneMachine (oneMachine_reaches _) hn (fun _ => some (privateFile 1)) "f" "all" (by decide) (.inr rfl) hf N hN 10 hq
  obtain ⟨h1, h2⟩ := ha (fun _ => _ + 1) (fun _ => Nat.succ_pos _)
  obtain ⟨n, hn1, hstuck⟩ := exists_end h2
  obtain ⟨-, -, h3, h4⟩ := h1 n hn1
  have hret := ((h3 (fun _ => Nat.le_succ _)).resolve_left hstuck).1
  have hm1 : ConnectingMoments (fun k => (k, 0)) (setup oneMachine (privateConfig 1))
      (launch (privateWorld false) (fun _ => some (privateFile 1)) "f" "all" (privateConfig 1).partyCount.toNat 10) n.seen n.seen :=
    ⟨_, n, n, hn1, .refl, rfl, rfl⟩
  obtain ⟨db, hdb⟩ : ∃ db, Database.new (privateConfig 1).dbSize.toNat = .ok db := by rw [e3]; exact ⟨_, rfl⟩
  have hres : (results (n.seen 0)).length = 10 := by
    have := congrArg List.length ((h4 0 (by omega) db hdb).2 (hret _))
    simpa using this
  choose noise hle hnoise using fun k r => hN k 0 r
  have key := C39_one_server (privateWorld false) (privateWorld_sane false) (privateConfig 1) d hu e2
    oneMachine (oneMachine_reaches _) hn (fun _ => some (privateFile 1)) "f" "all" (by decide) (.inr rfl) hf N hN 10 hq noise hnoise _ _ (.inr hm1)
  have key' := C40_one_server (privateWorld false) (privateWorld_sane false) (privateConfig 1) d hu e2
    oneMachine (oneMachine_reaches _) hn (fun _ => some (privateFile 1)) "f" "all" (by decide) (.inr rfl) hf N hN 10 hq _ _ (.inr hm1)
  rw [e1, e3] at key key'
  obtain ⟨s, hs, hne⟩ := some_lookup key Nat.one_pos (List.ne_nil_of_length_pos (by omega)) (r := ((privateWorld false).clientRand 0).row 0 % 5)
    (Nat.mod_lt _ (by decide)) (List.mem_map.2 ⟨0, List.mem_range.2 (by decide), rfl⟩)
  exact ⟨n.seen, hm1, hne, key'⟩

/-- Two servers per party, which make noise for three and two rows, and ten queries at
each: the same. -/
example : ∃ seen : Node → List Obs, ConnectingMoments id (setup oneMachine (privateConfig 2))
      (launchMany (privateWorld false) (fun _ => some (privateFile 2)) "f" "all"
        (privateConfig 2).partyCount.toNat (privateConfig 2).serverCount.toNat (fun _ => 10)) seen seen ∧
    (∃ s < 2, lookups (seen (3, s)) ≠ []) ∧ ∀ s < 2, ∀ row ∈ lookups (seen (3, s)), row < 5 := by
  obtain ⟨d, N, hu, hN, hN2, hf, e1, e2, e3, hn⟩ := private_samples 2 (Or.inr rfl)
  have hq : (privateConfig 2).serverCount.toNat * 10 + ((privateConfig 2).partyCount.toNat - 1) * ((privateConfig 2).dbSize.toNat * N) < 2 ^ 32 := by
    rw [e1, e2, e3]; omega
  have hshare : ((privateConfig 2).serverCount.toNat - 1) * (((privateConfig 2).dbSize.toNat + (privateConfig 2).serverCount.toNat - 1) /
      (privateConfig 2).serverCount.toNat) ≤ (privateConfig 2).dbSize.toNat := by rw [e2, e3]; norm_num
  have ha := C62_many_servers (privateWorld false) (privateWorld_sane false) (privateConfig 2) d hu (by omega) (by omega) hshare
    oneMachine (oneMachine_reaches _) hn (fun _ => some (privateFile 2)) "f" "all" (by decide) (.inr rfl) hf N hN (fun _ => 10)
    (fun _ => ⟨rfl, 10, fun _ _ => rfl⟩) (by rw [e1, e2, e3]; simp [List.range_succ]; omega)
  obtain ⟨h1, h2⟩ := ha (fun _ => _ + 1) (fun _ => Nat.succ_pos _)
  obtain ⟨n, hn1, hstuck⟩ := exists_end h2
  obtain ⟨-, -, h3, h4⟩ := h1 n hn1
  have hret := ((h3 (fun _ => Nat.le_succ _)).resolve_left hstuck).1
  have hm1 : ConnectingMoments id (setup oneMachine (privateConfig 2))
      (launchMany (privateWorld false) (fun _ => some (privateFile 2)) "f" "all"
        (privateConfig 2).partyCount.toNat (privateConfig 2).serverCount.toNat (fun _ => 10)) n.seen n.seen :=
    ⟨_, n, n, hn1, .refl, rfl, rfl⟩
  obtain ⟨db, hdb⟩ : ∃ db, Database.new (privateConfig 2).dbSize.toNat = .ok db := by rw [e3]; exact ⟨_, rfl⟩
  have hres : ∀ s < 2, (results (n.seen (0, s))).length = 10 := fun s hs => by
    have := congrArg List.length ((h4 s (by omega) db hdb).2 (hret _))
    simpa using this
  choose noise hle hnoise using fun k r => hN k (r / 3) (r % 3)
  have key := C52_many_servers (privateWorld false) (privateWorld_sane false) (privateConfig 2) d hu (by omega) (by omega) hshare
    oneMachine (oneMachine_reaches _) hn (fun _ => some (privateFile 2)) "f" "all" (by decide) (.inr rfl) hf N hN (fun _ => 10)
    (fun _ => ⟨rfl, 10, fun _ _ => rfl⟩) (by rw [e1, e2, e3]; simp [List.range_succ]; omega) 3 (by rw [e2, e3]) noise hnoise _ _ (.inr hm1)
  have key' := C53_many_servers (privateWorld false) (privateWorld_sane false) (privateConfig 2) d hu (by omega) (by omega) hshare
    oneMachine (oneMachine_reaches _) hn (fun _ => some (privateFile 2)) "f" "all" (by decide) (.inr rfl) hf N hN (fun _ => 10)
    (fun _ => ⟨rfl, 10, fun _ _ => rfl⟩) (by rw [e1, e2, e3]; simp [List.range_succ]; omega) _ _ (.inr hm1)
  rw [e1, e2, e3] at key key'
  exact ⟨n.seen, hm1, some_lookup key Nat.two_pos (List.ne_nil_of_length_pos (by have := hres 0 (by decide); omega))
    (r := ((privateWorld false).clientRand 0).row 0 % 5) (Nat.mod_lt _ (by decide))
    (List.mem_map.2 ⟨0, List.mem_range.2 (by decide), rfl⟩), key'⟩

end Example
end DPPIR.Props
