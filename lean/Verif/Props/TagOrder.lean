import Verif.Proofs.TagOrder
import Verif.Props.StartCausal

/-!
# C48 for deployments started from the command line
-/

namespace DPPIR.Props
open DPPIR.Config DPPIR.Connect DPPIR.Noise DPPIR.Protocol DPPIR.Onion DPPIR.Main DPPIR.Joint DPPIR.Spec

variable {box : SealedBox} {H : Type} [DecidableEq H]

/-- **C48, violated.**  One server per party, started from the command line for both stages
with a usable configuration file, in any order, setting up the connections first or not: at
every moment the backend can tell by the tags which look-up is for which query of the
client. -/
theorem C48_violated_one_server (w : World box) (hw : w.Sane) (c : Config) (d : Dist) (h : Usable w c d) (hS : c.serverCount.toNat = 1)
    (m : Hosts H) (hr : m.Reaches c) (hn : m.NoClash c)
    (file : String → Option (List Byte)) (path : String) (hpath : path ≠ "")
    (hc : readFile (file path) = .ok c) (N : Nat) (hN : w.SamplesUpTo d N) (q : Nat)
    (hq : q + (c.partyCount.toNat - 1) * (c.dbSize.toNat * N) < 2 ^ 32) (seen later : Nat → List Obs)
    (hm : Moments (launch w file path "all" c.partyCount.toNat q) seen later ∨
      ConnectingMoments (fun k => (k, 0)) (setup m c) (launch w file path "all" c.partyCount.toNat q) seen later) :
    TagsTell 1 q (BitVec.ofNat 64) (fun j => (w.clientRand 0).row j % c.dbSize.toNat) (seen 0) (fun _ => seen c.partyCount.toNat) := by
  obtain ⟨⟨cap, n, h1, rfl⟩, -⟩ := both_one hw h hS hr hn hpath (.inr rfl) hc hN hq hm
  have hv := chain_valid hw h hN hq
  have h2 := h.parties.1
  have a3 := ((Chain.every_run_loops hv true true (fun x => cap x + 1) (fun k _ => ⟨Nat.succ_pos _, Nat.succ_pos _⟩)).1 n
    (RNet.reach_mono (fun _ => Nat.le_succ _) h1)).2.1
  obtain ⟨-, b2, -, b4⟩ := C77_wait_loops (chainOf w c d q) hv true cap n h1
  have key := Chain.tagsTell hv a3 (C79_in_order_loops (chainOf w c d q) hv true cap n h1) b4
    (fun hne => b2 hne _ (by have := hv.parties; omega) le_rfl)
  exact key.congr (fun _ _ => rfl) (fun j _ => chain_wanted h q j)

/-- **C48, violated.**  The same with 2 to 254 servers per party and as many clients, under
the conditions of C61: the servers of the backend together can tell it for each client. -/
theorem C48_violated_many_servers (w : World box) (hw : w.Sane) (c : Config) (d : Dist) (h : Usable w c d)
    (hS : 2 ≤ c.serverCount.toNat ∧ c.serverCount.toNat ≤ 254) (hrows : c.serverCount.toNat ≤ c.dbSize.toNat)
    (hshare : (c.serverCount.toNat - 1) * ((c.dbSize.toNat + c.serverCount.toNat - 1) / c.serverCount.toNat) ≤ c.dbSize.toNat)
    (m : Hosts H) (hr : m.Reaches c) (hn : m.NoClash c)
    (file : String → Option (List Byte)) (path : String) (hpath : path ≠ "")
    (hc : readFile (file path) = .ok c) (N : Nat) (hN : w.SamplesUpTo d N) (q : Nat) (hsampling : w.sampling = false)
    (hq : c.serverCount.toNat * q + (c.partyCount.toNat - 1) * (c.dbSize.toNat * N) < 2 ^ 32)
    (seen later : Node → List Obs)
    (hm : Moments (launchMany w file path "all" c.partyCount.toNat c.serverCount.toNat (fun _ => q)) seen later ∨
      ConnectingMoments id (setup m c) (launchMany w file path "all" c.partyCount.toNat c.serverCount.toNat (fun _ => q)) seen later)
    (s : Nat) (hs : s < c.serverCount.toNat) :
    TagsTell c.serverCount.toNat q (fun j => BitVec.ofNat 64 (s * q + j)) (fun j => (w.clientRand s).row j % c.dbSize.toNat)
      (seen (0, s)) (fun t => seen (c.partyCount.toNat, t)) := by
  have hsum : ((List.range c.serverCount.toNat).map (fun _ => q)).sum = c.serverCount.toNat * q := by simp
  have hq' : ((List.range c.serverCount.toNat).map (fun _ => q)).sum + (c.partyCount.toNat - 1) * (c.dbSize.toNat * N) < 2 ^ 32 := by
    rw [hsum]; exact hq
  have hq0 : ∃ q0, ∀ s < c.serverCount.toNat, (fun _ : Nat => q) s = q0 := ⟨q, fun _ _ => rfl⟩
  obtain ⟨⟨cap, n, h1, rfl⟩, -⟩ := both_many hw h hS hrows hshare hr hn hpath (.inr rfl) hc hN (fun _ => ⟨hsampling, hq0⟩) hq' hm
  have hv := grid_valid hw h hN (q := fun _ => q) hS hrows hshare hq'
  have hd : (gridOf w c d (fun _ => q)).DistinctTags := Grid.distinct_even hv hq0 (grid_even hsampling _)
  have a3 := ((Grid.every_run_loops hv true true (fun _ => hd) cap).1 n h1).2.1
  have b := C77_wait_loops_parallel (gridOf w c d (fun _ => q)) hv true (fun _ => hd) cap n h1
  have key := Grid.tagsTell hv hd a3 (fun s hs => C79_in_order_loops_parallel (gridOf w c d (fun _ => q)) hv true (fun _ => hd) cap n h1 s hs)
    hs (b s hs).2.2.2 (fun t ht hne => ((b t ht).2.1 hne).1)
  refine key.congr (fun j hj => ?_) (fun j _ => grid_wanted h _ s j)
  change j < q at hj
  show BitVec.ofNat 64 (wrap32 (s * q + j)) = _
  have : (s + 1) * q ≤ c.serverCount.toNat * q := Nat.mul_le_mul_right _ hs
  rw [wrap32_of_lt (by rw [Nat.add_mul] at this; omega)]

namespace Example

/-- One server per party and ten queries: at the end of some run that sets up the
connections first the backend can tell which look-ups were for the ten queries. -/
example : ∃ seen : Nat → List Obs, ConnectingMoments (fun k => (k, 0)) (setup oneMachine (privateConfig 1))
      (launch (privateWorld false) (fun _ => some (privateFile 1)) "f" "all" (privateConfig 1).partyCount.toNat 10) seen seen ∧
    results (seen 0) ≠ [] ∧
    TagsTell 1 10 (BitVec.ofNat 64) (fun j => ((privateWorld false).clientRand 0).row j % 5) (seen 0) (fun _ => seen 3) := by
  obtain ⟨d, N, hu, hN, hN2, hf, e1, e2, e3, hn⟩ := private_samples 1 (Or.inl rfl)
  have hq : 10 + ((privateConfig 1).partyCount.toNat - 1) * ((privateConfig 1).dbSize.toNat * N) < 2 ^ 32 := by
    rw [e1, e3]; omega
  have ha := C62_one_server (privateWorld false) (privateWorld_sane false) (privateConfig 1) d hu e2
    oneMachine (oneMachine_reaches _) hn (fun _ => some (privateFile 1)) "f" "all" (by decide) (.inr rfl) hf N hN 10 hq
  obtain ⟨h1, h2⟩ := ha (fun _ => _ + 1) (fun _ => Nat.succ_pos _)
  obtain ⟨n, hn1, hstuck⟩ := exists_end h2
  obtain ⟨-, -, h3, h4⟩ := h1 n hn1
  have hret := ((h3 (fun _ => Nat.le_succ _)).resolve_left hstuck).1
  have hm1 : ConnectingMoments (fun k => (k, 0)) (setup oneMachine (privateConfig 1))
      (launch (privateWorld false) (fun _ => some (privateFile 1)) "f" "all" (privateConfig 1).partyCount.toNat 10) n.seen n.seen :=
    ⟨_, n, n, hn1, .refl, rfl, rfl⟩
  obtain ⟨db, hdb⟩ : ∃ db, Database.new (privateConfig 1).dbSize.toNat = .ok db := by rw [e3]; exact ⟨_, rfl⟩
  have hres : (results (n.seen 0)).length = 10 := by
    have := congrArg List.length ((h4 0 (by omega) db hdb).2 (hret _))
    simpa using this
  have key := C48_violated_one_server (privateWorld false) (privateWorld_sane false) (privateConfig 1) d hu e2
    oneMachine (oneMachine_reaches _) hn (fun _ => some (privateFile 1)) "f" (by decide) hf N hN 10 hq _ _ (.inr hm1)
  refine ⟨n.seen, hm1, List.ne_nil_of_length_pos (by omega), ?_⟩
  rw [e1, e3] at key
  exact key

/-- Two servers per party and ten queries at each: the same for both clients. -/
example : ∃ seen : Node → List Obs, ConnectingMoments id (setup oneMachine (privateConfig 2))
      (launchMany (privateWorld false) (fun _ => some (privateFile 2)) "f" "all"
        (privateConfig 2).partyCount.toNat (privateConfig 2).serverCount.toNat (fun _ => 10)) seen seen ∧
    ∀ s < 2, results (seen (0, s)) ≠ [] ∧
      TagsTell 2 10 (fun j => BitVec.ofNat 64 (s * 10 + j)) (fun j => ((privateWorld false).clientRand s).row j % 5)
        (seen (0, s)) (fun t => seen (3, t)) := by
  obtain ⟨d, N, hu, hN, hN2, hf, e1, e2, e3, hn⟩ := private_samples 2 (Or.inr rfl)
  have hq : (privateConfig 2).serverCount.toNat * 10 + ((privateConfig 2).partyCount.toNat - 1) * ((privateConfig 2).dbSize.toNat * N) < 2 ^ 32 := by
    rw [e1, e2, e3]; omega
  have hshare : ((privateConfig 2).serverCount.toNat - 1) * (((privateConfig 2).dbSize.toNat + (privateConfig 2).serverCount.toNat - 1) /
      (privateConfig 2).serverCount.toNat) ≤ (privateConfig 2).dbSize.toNat := by rw [e2, e3]; norm_num
  have ha := C62_many_servers (privateWorld false) (privateWorld_sane false) (privateConfig 2) d hu (by omega) (by omega) hshare
    oneMachine (oneMachine_reaches _) hn (fun _ => some (privateFile 2)) "f" "all" (by decide) (.inr rfl) hf N hN (fun _ => 10)
    (fun _ => ⟨rfl, 10, fun _ _ => rfl⟩) (by rw [e1, e2, e3]; simp [List.range_succ]; omega)
  obtain ⟨h1, h2⟩ := ha (fun _ => _ + 1) (fun _ => Nat.succ_pos _)
  obtain ⟨n, hn1, hstuck⟩ := exists_end h2
  obtain ⟨-, -, h3, h4⟩ := h1 n hn1
  have hret := ((h3 (fun _ => Nat.le_succ _)).resolve_left hstuck).1
  have hm1 : ConnectingMoments id (setup oneMachine (privateConfig 2))
      (launchMany (privateWorld false) (fun _ => some (privateFile 2)) "f" "all"
        (privateConfig 2).partyCount.toNat (privateConfig 2).serverCount.toNat (fun _ => 10)) n.seen n.seen :=
    ⟨_, n, n, hn1, .refl, rfl, rfl⟩
  obtain ⟨db, hdb⟩ : ∃ db, Database.new (privateConfig 2).dbSize.toNat = .ok db := by rw [e3]; exact ⟨_, rfl⟩
  refine ⟨n.seen, hm1, fun s hs => ?_⟩
  have hres : (results (n.seen (0, s))).length = 10 := by
    have := congrArg List.length ((h4 s (by omega) db hdb).2 (hret _))
    simpa using this
  have key := C48_violated_many_servers (privateWorld false) (privateWorld_sane false) (privateConfig 2) d hu (by omega) (by omega) hshare
    oneMachine (oneMachine_reaches _) hn (fun _ => some (privateFile 2)) "f" (by decide) hf N hN 10 rfl hq _ _ (.inr hm1)
    s (by omega)
  refine ⟨List.ne_nil_of_length_pos (by omega), ?_⟩
  rw [e1, e2, e3] at key
  exact key

end Example
end DPPIR.Props
