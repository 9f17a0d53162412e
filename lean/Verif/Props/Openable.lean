import Verif.Proofs.Openable
import Verif.Props.StartHiding
import Verif.Props.Origins

/-!
# C74: what a party can find out with the configuration file
-/

namespace DPPIR.Props
open DPPIR.Config DPPIR.Connect DPPIR.Noise DPPIR.Protocol DPPIR.Onion DPPIR.Main

variable {box : SealedBox}

/-- **C74** is false of the code: the configuration file that all processes read has the
secret keys of all parties.  With them, the first party finds the row of every query in
what it reads, at any time and in the order of the queries, one server per party. -/
theorem C74_violated_one_server (w : World box) (hw : w.Sane) (c : Config) (d : Dist) (h : Usable w c d) (hS : c.serverCount.toNat = 1)
    (file : String → Option (List Byte)) (path : String) (hpath : path ≠ "") (hc : readFile (file path) = .ok c) (N : Nat)
    (hN : w.SamplesUpTo d N) (q : Nat) (hq : q + (c.partyCount.toNat - 1) * (c.dbSize.toNat * N) < 2 ^ 32) (cap : Nat × Nat → Nat)
    (n : PNet Nat Obs Unit) (hn : PNet.Reach cap (PNet.start (launch w file path "all" c.partyCount.toNat q)) n) :
    List.zipWith (w.reveal c) (ciphersRead (n.seen 1)) (queriesRead (n.seen 1)) <+:
      (List.range q).map (fun j => some ((w.clientRand 0).row j % c.dbSize.toNat)) ∧
    (n.Returned 1 () → List.zipWith (w.reveal c) (ciphersRead (n.seen 1)) (queriesRead (n.seen 1)) =
      (List.range q).map (fun j => some ((w.clientRand 0).row j % c.dbSize.toNat))) := by
  have hP := h.parties.1
  have hv := chain_valid hw h hN hq
  rw [launch_eq w c d h hN hS file path "all" hpath (Or.inr rfl) hc q (by omega)] at hn
  have hrun := (Chain.every_run_loops hv ("all" == "all") true (fun x => cap x + 1) (fun _ _ => ⟨Nat.succ_pos _, Nat.succ_pos _⟩)).1 n
    (hn.mono (fun _ => Nat.le_succ _))
  have e1 : ciphersRead ((chainOf w c d q).obsAll ("all" == "all") true 1) = ((chainOf w c d q).tickets 0).map (fun t => t.cipher (w.pkeys c) 0) :=
    Chain.ciphersRead_pos (chainOf w c d q) true 0 (by show 0 < c.partyCount.toNat; omega)
  have e2 : queriesRead ((chainOf w c d q).obsAll ("all" == "all") true 1) = ((chainOf w c d q).qs true 0).map QTicket.query :=
    Chain.queriesRead_pos (chainOf w c d q) true 0 (by show 0 < c.partyCount.toNat; omega)
  rw [← reveal_chain h q hv, ← e1, ← e2]
  exact ⟨zipWith_prefix _ ((hrun.2.1 1).filterMap _) ((hrun.2.1 1).filterMap _), fun hr => by rw [hrun.2.2.1 1 hr]⟩

/-- **C74** is false of the code with several servers per party as well: each server of the
first party finds the rows of its client's queries. -/
theorem C74_violated_many_servers (w : World box) (hw : w.Sane) (c : Config) (d : Dist) (h : Usable w c d)
    (hS : 2 ≤ c.serverCount.toNat ∧ c.serverCount.toNat ≤ 254) (hrows : c.serverCount.toNat ≤ c.dbSize.toNat)
    (hshare : (c.serverCount.toNat - 1) * ((c.dbSize.toNat + c.serverCount.toNat - 1) / c.serverCount.toNat) ≤ c.dbSize.toNat)
    (file : String → Option (List Byte)) (path : String) (hpath : path ≠ "") (hc : readFile (file path) = .ok c) (N : Nat)
    (hN : w.SamplesUpTo d N) (hs : w.sampling = false) (q : Nat) (hq : c.serverCount.toNat * q + (c.partyCount.toNat - 1) * (c.dbSize.toNat * N) < 2 ^ 32)
    (cap : Node × Node → Nat) (n : PNet Node Obs Unit)
    (hn : PNet.Reach cap (PNet.start (launchMany w file path "all" c.partyCount.toNat c.serverCount.toNat (fun _ => q))) n)
    (s : Nat) (hsS : s < c.serverCount.toNat) :
    List.zipWith (w.reveal c) (ciphersRead (n.seen (1, s))) (queriesRead (n.seen (1, s))) <+:
      (List.range q).map (fun j => some ((w.clientRand s).row j % c.dbSize.toNat)) ∧
    (n.Returned (1, s) () → List.zipWith (w.reveal c) (ciphersRead (n.seen (1, s))) (queriesRead (n.seen (1, s))) =
      (List.range q).map (fun j => some ((w.clientRand s).row j % c.dbSize.toNat))) := by
  have hP := h.parties.1
  have hq' : ((List.range c.serverCount.toNat).map (fun _ => q)).sum + (c.partyCount.toNat - 1) * (c.dbSize.toNat * N) < 2 ^ 32 := by
    simpa using hq
  have hqs : ∀ s < c.serverCount.toNat, q < 2 ^ 32 := fun s hs => by
    have : 1 * q ≤ c.serverCount.toNat * q := Nat.mul_le_mul_right q (by omega)
    omega
  have hv := grid_valid hw h hN (q := fun _ => q) hS hrows hshare hq'
  rw [launchMany_eq w c d h hN (by omega) file path "all" hpath (Or.inr rfl) hc (fun _ => q) hqs] at hn
  have hd : ("all" == "all") = true → (gridOf w c d (fun _ => q)).DistinctTags := fun _ =>
    Grid.distinct_even hv ⟨q, fun _ _ => rfl⟩ (grid_even hs (fun _ => q))
  have hrun := (Grid.every_run_loops hv ("all" == "all") true hd cap).1 n hn
  have e1 : ciphersRead ((gridOf w c d (fun _ => q)).obsAll ("all" == "all") true 1 s) =
      ((gridOf w c d (fun _ => q)).tickets 0 s).map (fun t => t.cipher (w.pkeys c) 0) :=
    Grid.ciphersRead_first (gridOf w c d (fun _ => q)) s (by show 1 < c.partyCount.toNat; omega)
  have e2 : queriesRead ((gridOf w c d (fun _ => q)).obsAll ("all" == "all") true 1 s) = ((gridOf w c d (fun _ => q)).qs true 0 s).map QTicket.query :=
    Grid.queriesRead_pos (gridOf w c d (fun _ => q)) true s 0 (by show 0 < c.partyCount.toNat; omega)
  rw [← reveal_grid h (fun _ => q) hv s, ← e1, ← e2]
  exact ⟨zipWith_prefix _ ((hrun.2.1 1 s hsS).filterMap _) ((hrun.2.1 1 s hsS).filterMap _), fun hr => by rw [hrun.2.2.1 1 s hsS hr]⟩

/-! ### Examples -/

namespace Example

/-- Three parties, five rows, ten queries: the first party finds out all ten rows. -/
example (row : Nat → Nat) (n : PNet Nat Obs Unit) (cap : Nat × Nat → Nat)
    (hn : PNet.Reach cap (PNet.start (launch ((privateWorld false).asking 0 row) (fun _ => some (privateFile 1)) "f" "all"
      (privateConfig 1).partyCount.toNat 10)) n) (hr : n.Returned 1 ()) :
    List.zipWith ((privateWorld false).reveal (privateConfig 1)) (ciphersRead (n.seen 1)) (queriesRead (n.seen 1)) =
      (List.range 10).map (fun j => some (row j % (privateConfig 1).dbSize.toNat)) := by
  obtain ⟨d, N, hu, hs, hN, hf, e1, e2, e3, -⟩ := private_samples 1 (Or.inl rfl)
  exact (C74_violated_one_server ((privateWorld false).asking 0 row)
    ⟨(privateWorld_sane false).division, (privateWorld_sane false).order, (privateWorld_sane false).backendOrder⟩ (privateConfig 1) d
    ⟨hu.parties, hu.servers, hu.rows, hu.pairs, hu.noise⟩ e2 (fun _ => some (privateFile 1)) "f" (by decide) hf N hs 10
    (by rw [e1, e3]; omega) cap n hn).2 hr

/-- The same with two servers per party. -/
example (n : PNet Node Obs Unit) (cap : Node × Node → Nat)
    (hn : PNet.Reach cap (PNet.start (launchMany (privateWorld false) (fun _ => some (privateFile 2)) "f" "all"
      (privateConfig 2).partyCount.toNat (privateConfig 2).serverCount.toNat (fun _ => 10))) n) (hr : n.Returned (1, 1) ()) :
    List.zipWith ((privateWorld false).reveal (privateConfig 2)) (ciphersRead (n.seen (1, 1))) (queriesRead (n.seen (1, 1))) =
      (List.range 10).map (fun j => some (((privateWorld false).clientRand 1).row j % (privateConfig 2).dbSize.toNat)) := by
  obtain ⟨d, N, hu, hs, hN, hf, e1, e2, e3, -⟩ := private_samples 2 (Or.inr rfl)
  have hshare : ((privateConfig 2).serverCount.toNat - 1) * (((privateConfig 2).dbSize.toNat + (privateConfig 2).serverCount.toNat - 1) /
      (privateConfig 2).serverCount.toNat) ≤ (privateConfig 2).dbSize.toNat := by rw [e2, e3]; norm_num
  exact (C74_violated_many_servers (privateWorld false) (privateWorld_sane false) (privateConfig 2) d hu (by omega) (by omega) hshare
    (fun _ => some (privateFile 2)) "f" (by decide) hf N hs rfl 10 (by rw [e1, e2, e3]; omega) cap n hn 1 (by omega)).2 hr

end Example

end DPPIR.Props
