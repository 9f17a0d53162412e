import Verif.Props.Coalition
import Verif.Props.StartCounts

/-!
# C78 for deployments started from the command line: what a client sees
-/

namespace DPPIR.Props
open DPPIR.Config DPPIR.Connect DPPIR.Noise DPPIR.Protocol DPPIR.Onion DPPIR.Main DPPIR.Joint DPPIR.Spec

variable {box : SealedBox} {H : Type} [DecidableEq H]

/-- **C78.** Two deployments, started from the command line with usable configuration files
with the same numbers of parties and rows and the same public keys, the same stages, and
for client `s` the same number of queries and the same random choices, among them its keys.
Everything else may be different: the files, the machines and addresses, the seeds and the
secret keys, the number of servers, the random choices of all others, the numbers of
queries of the other clients, the schedule and the capacities.  At any two moments of runs
of the two, setting up the connections first or not, the client has seen the same calls in
the same order, as far as it got. -/
theorem C78_started_client_view (w w' : World box) (hw : w.Sane) (hw' : w'.Sane) (c c' : Config) (d d' : Dist)
    (h : Usable w c d) (h' : Usable w' c' d')
    (hS : 2 ≤ c.serverCount.toNat ∧ c.serverCount.toNat ≤ 254) (hS' : 2 ≤ c'.serverCount.toNat ∧ c'.serverCount.toNat ≤ 254)
    (hrows : c.serverCount.toNat ≤ c.dbSize.toNat) (hrows' : c'.serverCount.toNat ≤ c'.dbSize.toNat)
    (hshare : (c.serverCount.toNat - 1) * ((c.dbSize.toNat + c.serverCount.toNat - 1) / c.serverCount.toNat) ≤ c.dbSize.toNat)
    (hshare' : (c'.serverCount.toNat - 1) * ((c'.dbSize.toNat + c'.serverCount.toNat - 1) / c'.serverCount.toNat) ≤ c'.dbSize.toNat)
    (m m' : Hosts H) (hr : m.Reaches c) (hr' : m'.Reaches c') (hn : m.NoClash c) (hn' : m'.NoClash c')
    (file file' : String → Option (List Byte)) (path path' stage : String) (hpath : path ≠ "") (hpath' : path' ≠ "")
    (hst : stage = "online" ∨ stage = "all") (hc : readFile (file path) = .ok c) (hc' : readFile (file' path') = .ok c')
    (N N' : Nat) (hN : w.SamplesUpTo d N) (hN' : w'.SamplesUpTo d' N') (q q' : Nat → Nat)
    (hall : stage = "all" → w.sampling = false ∧ ∃ q0, ∀ s < c.serverCount.toNat, q s = q0)
    (hall' : stage = "all" → w'.sampling = false ∧ ∃ q0, ∀ s < c'.serverCount.toNat, q' s = q0)
    (hq : ((List.range c.serverCount.toNat).map q).sum + (c.partyCount.toNat - 1) * (c.dbSize.toNat * N) < 2 ^ 32)
    (hq' : ((List.range c'.serverCount.toNat).map q').sum + (c'.partyCount.toNat - 1) * (c'.dbSize.toNat * N') < 2 ^ 32)
    (s : Nat) (hs : s < c.serverCount.toNat) (hs' : s < c'.serverCount.toNat)
    (same : c'.partyCount = c.partyCount ∧ c'.dbSize = c.dbSize)
    (keys : (c'.parties.map fun p => w'.pkey p.pkey) = c.parties.map fun p => w.pkey p.pkey)
    (asks : q' s = q s) (choices : w'.clientRand s = w.clientRand s)
    (seen later seen' later' : Node → List Obs)
    (hm : Moments (launchMany w file path stage c.partyCount.toNat c.serverCount.toNat q) seen later ∨
      ConnectingMoments id (setup m c) (launchMany w file path stage c.partyCount.toNat c.serverCount.toNat q) seen later)
    (hm' : Moments (launchMany w' file' path' stage c'.partyCount.toNat c'.serverCount.toNat q') seen' later' ∨
      ConnectingMoments id (setup m' c') (launchMany w' file' path' stage c'.partyCount.toNat c'.serverCount.toNat q') seen' later') :
    seen (0, s) <+: seen' (0, s) ∨ seen' (0, s) <+: seen (0, s) := by
  obtain ⟨⟨cap, n, h1, rfl⟩, -⟩ := both_many hw h hS hrows hshare hr hn hpath hst hc hN hall hq hm
  obtain ⟨⟨cap', n', h1', rfl⟩, -⟩ := both_many hw' h' hS' hrows' hshare' hr' hn' hpath' hst hc' hN' hall' hq' hm'
  have hv := grid_valid hw h hN (q := q) hS hrows hshare hq
  have hv' := grid_valid hw' h' hN' (q := q') hS' hrows' hshare' hq'
  have hd : (stage == "all") = true → (gridOf w c d q).DistinctTags := fun e => by
    obtain ⟨e1, e2⟩ := hall (by simpa using e)
    exact Grid.distinct_even hv e2 (grid_even e1 _)
  have hd' : (stage == "all") = true → (gridOf w' c' d' q').DistinctTags := fun e => by
    obtain ⟨e1, e2⟩ := hall' (by simpa using e)
    exact Grid.distinct_even hv' e2 (grid_even e1 _)
  exact (C78_client_view_loops (gridOf w c d q) (gridOf w' c' d' q') hv hv' (stage == "all") true hd hd' s hs hs'
    ⟨congrArg BitVec.toNat same.1, congrArg BitVec.toNat same.2, keys, asks, choices⟩ cap cap' n n' h1 h1').1

private theorem usable_rand {w : World box} {c : Config} {d : Dist} (h : Usable w c d) (r : Nat → ClientRand box) :
    Usable { w with clientRand := r } c d := ⟨h.parties, h.servers, h.rows, h.pairs, h.noise⟩

private theorem sane_rand {w : World box} (h : w.Sane) (r : Nat → ClientRand box) : World.Sane { w with clientRand := r } :=
  ⟨h.division, h.order, h.backendOrder⟩

namespace Example

/-- Two servers per party and ten queries at each: whatever client 0 asks for and draws,
client 1 sees the same.  At the end of some run it has seen its results. -/
example (r : ClientRand toyBox) : ∃ seen : Node → List Obs, results (seen (0, 1)) ≠ [] ∧
    ∀ seen' later', ConnectingMoments id (setup oneMachine (privateConfig 2))
      (launchMany { privateWorld false with clientRand := Function.update (privateWorld false).clientRand 0 r } (fun _ => some (privateFile 2)) "f" "all"
        (privateConfig 2).partyCount.toNat (privateConfig 2).serverCount.toNat (fun _ => 10)) seen' later' →
    seen (0, 1) <+: seen' (0, 1) ∨ seen' (0, 1) <+: seen (0, 1) := by
  obtain ⟨d, N, hu, hN, hN2, hf, e1, e2, e3, hn⟩ := private_samples 2 (Or.inr rfl)
  have hq : ((List.range (privateConfig 2).serverCount.toNat).map fun _ => 10).sum +
      ((privateConfig 2).partyCount.toNat - 1) * ((privateConfig 2).dbSize.toNat * N) < 2 ^ 32 := by
    rw [e1, e2, e3]; simp [List.range_succ]; omega
  have hshare : ((privateConfig 2).serverCount.toNat - 1) * (((privateConfig 2).dbSize.toNat + (privateConfig 2).serverCount.toNat - 1) /
      (privateConfig 2).serverCount.toNat) ≤ (privateConfig 2).dbSize.toNat := by rw [e2, e3]; norm_num
  have ha := C62_many_servers (privateWorld false) (privateWorld_sane false) (privateConfig 2) d hu (by omega) (by omega) hshare
    oneMachine (oneMachine_reaches _) hn (fun _ => some (privateFile 2)) "f" "all" (by decide) (.inr rfl) hf N hN (fun _ => 10)
    (fun _ => ⟨rfl, 10, fun _ _ => rfl⟩) hq
  obtain ⟨h1, h2⟩ := ha (fun _ => _ + 1) (fun _ => Nat.succ_pos _)
  obtain ⟨n, hn1, hstuck⟩ := exists_end h2
  obtain ⟨-, -, h3, h4⟩ := h1 n hn1
  have hret := ((h3 (fun _ => Nat.le_succ _)).resolve_left hstuck).1
  have hm1 : ConnectingMoments id (setup oneMachine (privateConfig 2))
      (launchMany (privateWorld false) (fun _ => some (privateFile 2)) "f" "all"
        (privateConfig 2).partyCount.toNat (privateConfig 2).serverCount.toNat (fun _ => 10)) n.seen n.seen :=
    ⟨_, n, n, hn1, .refl, rfl, rfl⟩
  obtain ⟨db, hdb⟩ : ∃ db, Database.new (privateConfig 2).dbSize.toNat = .ok db := by rw [e3]; exact ⟨_, rfl⟩
  have hres : (results (n.seen (0, 1))).length = 10 := by
    have := congrArg List.length ((h4 1 (by omega) db hdb).2 (hret _))
    simpa using this
  refine ⟨n.seen, List.ne_nil_of_length_pos (by omega), fun seen' later' hm' => ?_⟩
  exact C78_started_client_view (privateWorld false) { privateWorld false with clientRand := Function.update (privateWorld false).clientRand 0 r }
    (privateWorld_sane false) (sane_rand (privateWorld_sane false) _) (privateConfig 2) (privateConfig 2) d d hu (usable_rand hu _) (by omega) (by omega)
    (by omega) (by omega) hshare hshare oneMachine oneMachine (oneMachine_reaches _) (oneMachine_reaches _) hn hn (fun _ => some (privateFile 2))
    (fun _ => some (privateFile 2)) "f" "f" "all" (by decide) (by decide) (.inr rfl) hf hf N N hN hN (fun _ => 10) (fun _ => 10)
    (fun _ => ⟨rfl, 10, fun _ _ => rfl⟩) (fun _ => ⟨rfl, 10, fun _ _ => rfl⟩) hq hq 1 (by omega) (by omega) ⟨rfl, rfl⟩ rfl rfl
    (Function.update_of_ne Nat.one_ne_zero r (privateWorld false).clientRand) n.seen n.seen seen' later' (.inr hm1) (.inr hm')

end Example
end DPPIR.Props
