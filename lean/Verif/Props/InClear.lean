import Verif.Proofs.InClear
import Verif.Props.StartCausal

/-!
# C82: the keys are hidden whatever stages are run (false of the code)

`main` also accepts `--stage=online`.  Then no secrets are made; the processes act as if
all shares were the identity and all masks were zero.
-/

namespace DPPIR.Props
open DPPIR.Config DPPIR.Connect DPPIR.Noise DPPIR.Protocol DPPIR.Onion DPPIR.Main DPPIR.Joint DPPIR.Spec

variable {box : SealedBox} {H : Type} [DecidableEq H]

/-- **C82, false of the code.**  One server per party, started from the command line with
`--stage=online` and a usable configuration file, in any order, setting up the connections
first or not: at every moment the first party has read the keys of the client as plain
numbers and has sent back the rows themselves, and so it is at every hop. -/
theorem C82_violated_one_server (w : World box) (hw : w.Sane) (c : Config) (d : Dist) (h : Usable w c d) (hS : c.serverCount.toNat = 1)
    (m : Hosts H) (hr : m.Reaches c) (hn : m.NoClash c)
    (file : String → Option (List Byte)) (path : String) (hpath : path ≠ "")
    (hc : readFile (file path) = .ok c) (N : Nat) (hN : w.SamplesUpTo d N) (q : Nat)
    (hq : q + (c.partyCount.toNat - 1) * (c.dbSize.toNat * N) < 2 ^ 32) (seen later : Nat → List Obs)
    (hm : Moments (launch w file path "online" c.partyCount.toNat q) seen later ∨
      ConnectingMoments (fun k => (k, 0)) (setup m c) (launch w file path "online" c.partyCount.toNat q) seen later) :
    InClear c.dbSize.toNat c.partyCount.toNat ((List.range q).map (fun j => (w.clientRand 0).row j % c.dbSize.toNat)) seen := by
  obtain ⟨⟨cap, n, h1, rfl⟩, -⟩ := both_one hw h hS hr hn hpath (.inl rfl) hc hN hq hm
  have hv := chain_valid hw h hN hq
  have h2 := h.parties.1
  have a3 := ((Chain.every_run_loops hv false true (fun x => cap x + 1) (fun k _ => ⟨Nat.succ_pos _, Nat.succ_pos _⟩)).1 n
    (RNet.reach_mono (fun _ => Nat.le_succ _) h1)).2.1
  have key := Chain.inClear hv n a3 fun hne => (C77_wait_loops (chainOf w c d q) hv false cap n h1).1 1 le_rfl h2 hne 1 le_rfl le_rfl
  have e : (List.range q).map (chainOf w c d q).wanted = (List.range q).map (fun j => (w.clientRand 0).row j % c.dbSize.toNat) :=
    List.map_congr_left fun j _ => chain_wanted h q j
  rw [← e]
  exact key

/-- **C82, false of the code.**  The same with 2 to 254 servers per party and as many
clients, for the chain of every server. -/
theorem C82_violated_many_servers (w : World box) (hw : w.Sane) (c : Config) (d : Dist) (h : Usable w c d)
    (hS : 2 ≤ c.serverCount.toNat ∧ c.serverCount.toNat ≤ 254) (hrows : c.serverCount.toNat ≤ c.dbSize.toNat)
    (hshare : (c.serverCount.toNat - 1) * ((c.dbSize.toNat + c.serverCount.toNat - 1) / c.serverCount.toNat) ≤ c.dbSize.toNat)
    (m : Hosts H) (hr : m.Reaches c) (hn : m.NoClash c)
    (file : String → Option (List Byte)) (path : String) (hpath : path ≠ "")
    (hc : readFile (file path) = .ok c) (N : Nat) (hN : w.SamplesUpTo d N) (q : Nat → Nat)
    (hq : ((List.range c.serverCount.toNat).map q).sum + (c.partyCount.toNat - 1) * (c.dbSize.toNat * N) < 2 ^ 32)
    (seen later : Node → List Obs)
    (hm : Moments (launchMany w file path "online" c.partyCount.toNat c.serverCount.toNat q) seen later ∨
      ConnectingMoments id (setup m c) (launchMany w file path "online" c.partyCount.toNat c.serverCount.toNat q) seen later)
    (s : Nat) (hs : s < c.serverCount.toNat) :
    InClear c.dbSize.toNat c.partyCount.toNat ((List.range (q s)).map (fun j => (w.clientRand s).row j % c.dbSize.toNat))
      (fun k => seen (k, s)) := by
  have hall : "online" = "all" → w.sampling = false ∧ ∃ q0, ∀ s < c.serverCount.toNat, q s = q0 := fun e => absurd e (by decide)
  obtain ⟨⟨cap, n, h1, rfl⟩, -⟩ := both_many hw h hS hrows hshare hr hn hpath (.inl rfl) hc hN hall hq hm
  have hv := grid_valid hw h hN (q := q) hS hrows hshare hq
  have h2 := h.parties.1
  have a3 := (((Grid.every_run_loops hv false true (by simp) cap).1 n h1).2.1)
  have key := Grid.inClear hv n hs (fun i => a3 i s hs) fun hne =>
    (C77_wait_loops_parallel (gridOf w c d q) hv false (by simp) cap n h1 s hs).1 1 le_rfl h2 hne 1 s le_rfl le_rfl hs
  have e : (List.range (q s)).map ((gridOf w c d q).wanted s) = (List.range (q s)).map (fun j => (w.clientRand s).row j % c.dbSize.toNat) :=
    List.map_congr_left fun j _ => grid_wanted h q s j
  rw [← e]
  exact key

namespace Example

/-- One server per party and ten queries: at the end of some run that sets up the
connections first the client has ten results, and the first party has sent back ten rows. -/
example : ∃ seen : Nat → List Obs, ConnectingMoments (fun k => (k, 0)) (setup oneMachine (privateConfig 1))
      (launch (privateWorld false) (fun _ => some (privateFile 1)) "f" "online" (privateConfig 1).partyCount.toNat 10) seen seen ∧
    (results (seen 0)).length = 10 ∧ (responsesSent (seen 1)).length = 10 ∧
    InClear 5 3 ((List.range 10).map (fun j => ((privateWorld false).clientRand 0).row j % 5)) seen := by
  obtain ⟨d, N, hu, hN, hN2, hf, e1, e2, e3, hn⟩ := private_samples 1 (Or.inl rfl)
  have hq : 10 + ((privateConfig 1).partyCount.toNat - 1) * ((privateConfig 1).dbSize.toNat * N) < 2 ^ 32 := by
    rw [e1, e3]; omega
  have ha := C62_one_server (privateWorld false) (privateWorld_sane false) (privateConfig 1) d hu e2
    oneMachine (oneMachine_reaches _) hn (fun _ => some (privateFile 1)) "f" "online" (by decide) (.inl rfl) hf N hN 10 hq
  obtain ⟨h1, h2⟩ := ha (fun _ => _ + 1) (fun _ => Nat.succ_pos _)
  obtain ⟨n, hn1, hstuck⟩ := exists_end h2
  obtain ⟨-, -, h3, h4⟩ := h1 n hn1
  have hret := ((h3 (fun _ => Nat.le_succ _)).resolve_left hstuck).1
  have hm1 : ConnectingMoments (fun k => (k, 0)) (setup oneMachine (privateConfig 1))
      (launch (privateWorld false) (fun _ => some (privateFile 1)) "f" "online" (privateConfig 1).partyCount.toNat 10) n.seen n.seen :=
    ⟨_, n, n, hn1, .refl, rfl, rfl⟩
  have key := C82_violated_one_server (privateWorld false) (privateWorld_sane false) (privateConfig 1) d hu e2
    oneMachine (oneMachine_reaches _) hn (fun _ => some (privateFile 1)) "f" (by decide) hf N hN 10 hq _ _ (.inr hm1)
  have hio := C79_one_server (privateWorld false) (privateWorld_sane false) (privateConfig 1) d hu e2
    oneMachine (oneMachine_reaches _) hn (fun _ => some (privateFile 1)) "f" "online" (by decide) (.inl rfl) hf N hN 10 hq _ _ (.inr hm1)
  obtain ⟨db, hdb⟩ : ∃ db, Database.new (privateConfig 1).dbSize.toNat = .ok db := by rw [e3]; exact ⟨_, rfl⟩
  have hres : (results (n.seen 0)).length = 10 := by
    have := congrArg List.length ((h4 0 (by omega) db hdb).2 (hret _))
    simpa using this
  refine ⟨n.seen, hm1, hres, ?_, ?_⟩
  · have h5 : _ ≤ (responsesSent (n.seen 1)).length := (hio.responses 0 (by omega)).length_le
    have h6 := hio.results
    have h7 := (key.responses db hdb).length_le
    simp only [List.length_map, List.length_range] at h7
    omega
  · rw [e1, e3] at key
    exact key

/-- Two servers per party, ten queries at one and twenty at the other: the same for both. -/
example : ∃ seen : Node → List Obs, ConnectingMoments id (setup oneMachine (privateConfig 2))
      (launchMany (privateWorld false) (fun _ => some (privateFile 2)) "f" "online"
        (privateConfig 2).partyCount.toNat (privateConfig 2).serverCount.toNat (fun s => 10 + 10 * s)) seen seen ∧
    ∀ s < 2, (results (seen (0, s))).length = 10 + 10 * s ∧ (responsesSent (seen (1, s))).length = 10 + 10 * s ∧
      InClear 5 3 ((List.range (10 + 10 * s)).map (fun j => ((privateWorld false).clientRand s).row j % 5)) (fun k => seen (k, s)) := by
  obtain ⟨d, N, hu, hN, hN2, hf, e1, e2, e3, hn⟩ := private_samples 2 (Or.inr rfl)
  have hq : ((List.range (privateConfig 2).serverCount.toNat).map (fun s => 10 + 10 * s)).sum +
      ((privateConfig 2).partyCount.toNat - 1) * ((privateConfig 2).dbSize.toNat * N) < 2 ^ 32 := by
    rw [e1, e2, e3]; simp [List.range_succ]; omega
  have hshare : ((privateConfig 2).serverCount.toNat - 1) * (((privateConfig 2).dbSize.toNat + (privateConfig 2).serverCount.toNat - 1) /
      (privateConfig 2).serverCount.toNat) ≤ (privateConfig 2).dbSize.toNat := by rw [e2, e3]; norm_num
  have ha := C62_many_servers (privateWorld false) (privateWorld_sane false) (privateConfig 2) d hu (by omega) (by omega) hshare
    oneMachine (oneMachine_reaches _) hn (fun _ => some (privateFile 2)) "f" "online" (by decide) (.inl rfl) hf N hN (fun s => 10 + 10 * s)
    (fun e => absurd e (by decide)) hq
  obtain ⟨h1, h2⟩ := ha (fun _ => _ + 1) (fun _ => Nat.succ_pos _)
  obtain ⟨n, hn1, hstuck⟩ := exists_end h2
  obtain ⟨-, -, h3, h4⟩ := h1 n hn1
  have hret := ((h3 (fun _ => Nat.le_succ _)).resolve_left hstuck).1
  have hm1 : ConnectingMoments id (setup oneMachine (privateConfig 2))
      (launchMany (privateWorld false) (fun _ => some (privateFile 2)) "f" "online"
        (privateConfig 2).partyCount.toNat (privateConfig 2).serverCount.toNat (fun s => 10 + 10 * s)) n.seen n.seen :=
    ⟨_, n, n, hn1, .refl, rfl, rfl⟩
  obtain ⟨db, hdb⟩ : ∃ db, Database.new (privateConfig 2).dbSize.toNat = .ok db := by rw [e3]; exact ⟨_, rfl⟩
  refine ⟨n.seen, hm1, fun s hs => ?_⟩
  have key := C82_violated_many_servers (privateWorld false) (privateWorld_sane false) (privateConfig 2) d hu (by omega) (by omega) hshare
    oneMachine (oneMachine_reaches _) hn (fun _ => some (privateFile 2)) "f" (by decide) hf N hN (fun s => 10 + 10 * s) hq _ _ (.inr hm1)
    s (by omega)
  have hio := C79_many_servers (privateWorld false) (privateWorld_sane false) (privateConfig 2) d hu (by omega) (by omega) hshare
    oneMachine (oneMachine_reaches _) hn (fun _ => some (privateFile 2)) "f" "online" (by decide) (.inl rfl) hf N hN (fun s => 10 + 10 * s)
    (fun e => absurd e (by decide)) hq _ _ (.inr hm1) s (by omega)
  have hres : (results (n.seen (0, s))).length = 10 + 10 * s := by
    have := congrArg List.length ((h4 s (by omega) db hdb).2 (hret _))
    simpa using this
  refine ⟨hres, ?_, ?_⟩
  · have h5 : _ ≤ (responsesSent (n.seen (1, s))).length := (hio.responses 0 (by omega)).length_le
    have h6 := hio.results
    have h7 := (key.responses db hdb).length_le
    simp only [List.length_map, List.length_range] at h5 h6 h7
    omega
  · rw [e1, e3] at key
    exact key

end Example
end DPPIR.Props
