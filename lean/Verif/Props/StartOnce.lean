import Verif.Proofs.StartOnce
import Verif.Props.OfflineAlone

/-!
# C69 and C70 for deployments started from the command line
-/

namespace DPPIR.Props
open DPPIR.Config DPPIR.Connect DPPIR.Noise DPPIR.Protocol DPPIR.Onion DPPIR.Main DPPIR.Joint DPPIR.Spec

variable {box : SealedBox} {H : Type} [DecidableEq H]

private theorem answers_none {ι : Type} [DecidableEq ι] {prog : ι → PProg ι Unit} {link : ι → ι → Prop} {capacity P S q : Nat}
    {opened : Nat → List Byte → Option (List Byte)} {chain : Nat → Nat → ι} (hp : PreparesOnly prog link capacity opened P S chain q) :
    Answers prog link capacity 0 (chain 0) (fun _ => q) 0 (fun _ _ => 0) := fun cap hcap =>
  ⟨fun n hn => ⟨((hp cap hcap).1 n hn).1, ((hp cap hcap).1 n hn).2.1, fun _ h => absurd h (Nat.not_lt_zero _)⟩, (hp cap hcap).2⟩

private theorem script_one {w : World box} (hw : w.Sane) {c : Config} {d : Dist} (h : Usable w c d) (hS : c.serverCount.toNat = 1)
    {m : Hosts H} (hr : m.Reaches c) (hn : m.NoClash c) {file : String → Option (List Byte)} {path stage : String} (hpath : path ≠ "")
    (hst : stage = "offline" ∨ stage = "all") (hc : readFile (file path) = .ok c) {N : Nat} (hN : w.SamplesUpTo d N) {q : Nat}
    (hq : q + (c.partyCount.toNat - 1) * (c.dbSize.toNat * N) < 2 ^ 32) {seen later : Nat → List Obs}
    (hm : Moments (launch w file path stage c.partyCount.toNat q) seen later ∨
      ConnectingMoments (fun k => (k, 0)) (setup m c) (launch w file path stage c.partyCount.toNat q) seen later) (i : Nat) :
    seen i <+: (chainOf w c d q).obsAll true (stage == "all") i := by
  have hv := chain_valid hw h hN hq
  rcases hst with rfl | rfl
  · have hk : Consistent c := ⟨h.parties.2, h.servers⟩
    have hP : 0 < c.partyCount.toNat := by have := h.parties.1; omega
    obtain ⟨⟨cap, n, h1, rfl⟩, -⟩ := both (fun cap n hn' => connecting_moment (pl := planOf m c) (planOf_distinct m c (config_complete hk) hn)
      (plan_small c m) (fun a b e => (Prod.mk.inj e).1)
      (inv_start hP (fun i hi => setup_eq m c (config_complete hk) hP hr i hi) (fun i hi => setup_out m c i hi))
      (by
        have := answers_none (C81_one_server w hw c d h hS file path hpath hc N hN q hq)
        show Answers _ (fun a b => Linked c.partyCount.toNat c.serverCount.toNat (a, 0) (b, 0)) _ _ _ _ _ _
        rw [hS]
        exact this) hn') hm
    rw [launch_offline w c d h hN hS file path hpath hc q (by omega)] at h1
    exact ((Chain.every_run_loops hv true false (fun x => cap x + 1) (fun k _ => ⟨Nat.succ_pos _, Nat.succ_pos _⟩)).1 n
      (RNet.reach_mono (fun _ => Nat.le_succ _) h1)).2.1 i
  · obtain ⟨⟨cap, n, h1, rfl⟩, -⟩ := both_one hw h hS hr hn hpath (.inr rfl) hc hN hq hm
    exact ((Chain.every_run_loops hv true true (fun x => cap x + 1) (fun k _ => ⟨Nat.succ_pos _, Nat.succ_pos _⟩)).1 n
      (RNet.reach_mono (fun _ => Nat.le_succ _) h1)).2.1 i

private theorem sums {S q P R N : Nat} (hq : S * q + (P - 1) * (R * N) < 2 ^ 32) :
    ((List.range S).map (fun _ => q)).sum + (P - 1) * (R * N) < 2 ^ 32 := by
  have hsum : ((List.range S).map (fun _ => q)).sum = S * q := by simp
  rw [hsum]
  exact hq

private theorem script_many {w : World box} (hw : w.Sane) {c : Config} {d : Dist} (h : Usable w c d)
    (hS : 2 ≤ c.serverCount.toNat ∧ c.serverCount.toNat ≤ 254) (hrows : c.serverCount.toNat ≤ c.dbSize.toNat)
    (hshare : (c.serverCount.toNat - 1) * ((c.dbSize.toNat + c.serverCount.toNat - 1) / c.serverCount.toNat) ≤ c.dbSize.toNat)
    {m : Hosts H} (hr : m.Reaches c) (hn : m.NoClash c) {file : String → Option (List Byte)} {path stage : String} (hpath : path ≠ "")
    (hst : stage = "offline" ∨ stage = "all") (hc : readFile (file path) = .ok c) {N : Nat} (hN : w.SamplesUpTo d N)
    (hsam : w.sampling = false) {q : Nat}
    (hq : c.serverCount.toNat * q + (c.partyCount.toNat - 1) * (c.dbSize.toNat * N) < 2 ^ 32) {seen later : Node → List Obs}
    (hm : Moments (launchMany w file path stage c.partyCount.toNat c.serverCount.toNat (fun _ => q)) seen later ∨
      ConnectingMoments id (setup m c) (launchMany w file path stage c.partyCount.toNat c.serverCount.toNat (fun _ => q)) seen later)
    (i s : Nat) (hs : s < c.serverCount.toNat) :
    seen (i, s) <+: (gridOf w c d (fun _ => q)).obsAll true (stage == "all") i s := by
  have hv := grid_valid hw h hN (q := fun _ => q) hS hrows hshare (sums hq)
  have hd : (gridOf w c d (fun _ => q)).DistinctTags := Grid.distinct_even hv ⟨q, fun _ _ => rfl⟩ (grid_even hsam _)
  rcases hst with rfl | rfl
  · have hk : Consistent c := ⟨h.parties.2, h.servers⟩
    have hP : 0 < c.partyCount.toNat := by have := h.parties.1; omega
    obtain ⟨⟨cap, n, h1, rfl⟩, -⟩ := both (fun cap n hn' => connecting_moment (pl := planOf m c) (planOf_distinct m c (config_complete hk) hn)
      (plan_small c m) Function.injective_id
      (inv_start hP (fun i hi => setup_eq m c (config_complete hk) hP hr i hi) (fun i hi => setup_out m c i hi))
      (answers_none (C81_many_servers w hw c d h hS hrows hshare file path hpath hc N hN hsam q hq)) hn') hm
    have hqs : ∀ s < c.serverCount.toNat, (fun _ : Nat => q) s < 2 ^ 32 := fun s hs => by
      have : (fun _ : Nat => q) s ≤ ((List.range c.serverCount.toNat).map (fun _ => q)).sum := le_preSum (f := fun _ => q) hs
      have := sums hq
      dsimp only at *
      omega
    rw [launchMany_offline w c d h hN (by omega) file path hpath hc _ hqs] at h1
    exact ((Grid.every_run_loops hv true false (fun _ => hd) cap).1 n h1).2.1 i s hs
  · obtain ⟨⟨cap, n, h1, rfl⟩, -⟩ := both_many hw h hS hrows hshare hr hn hpath (.inr rfl) hc hN (fun _ => ⟨hsam, q, fun _ _ => rfl⟩)
      (sums hq) hm
    exact ((Grid.every_run_loops hv true true (fun _ => hd) cap).1 n h1).2.1 i s hs

/-- **C69.** One server per party, started from the command line for both stages with a
usable configuration file, in any order, setting up the connections first or not: at every
moment, every secret has served at most one query, and one once the client has a result. -/
theorem C69_one_server (w : World box) (hw : w.Sane) (c : Config) (d : Dist) (h : Usable w c d) (hS : c.serverCount.toNat = 1)
    (m : Hosts H) (hr : m.Reaches c) (hn : m.NoClash c)
    (file : String → Option (List Byte)) (path : String) (hpath : path ≠ "")
    (hc : readFile (file path) = .ok c) (N : Nat) (hN : w.SamplesUpTo d N) (q : Nat)
    (hq : q + (c.partyCount.toNat - 1) * (c.dbSize.toNat * N) < 2 ^ 32) (seen later : Nat → List Obs)
    (hm : Moments (launch w file path "all" c.partyCount.toNat q) seen later ∨
      ConnectingMoments (fun k => (k, 0)) (setup m c) (launch w file path "all" c.partyCount.toNat q) seen later) :
    SecretsServeOnce c.partyCount.toNat 1 (fun k _ => seen k) := by
  obtain ⟨⟨cap, n, h1, rfl⟩, -⟩ := both_one hw h hS hr hn hpath (.inr rfl) hc hN hq hm
  exact Chain.serveOnce (chain_valid hw h hN hq) h1

/-- **C69.** The same with 2 to 254 servers per party and as many clients, if the program
was built without `DPPIR_SAMPLE` and all clients have the same `--queries`. -/
theorem C69_many_servers (w : World box) (hw : w.Sane) (c : Config) (d : Dist) (h : Usable w c d)
    (hS : 2 ≤ c.serverCount.toNat ∧ c.serverCount.toNat ≤ 254) (hrows : c.serverCount.toNat ≤ c.dbSize.toNat)
    (hshare : (c.serverCount.toNat - 1) * ((c.dbSize.toNat + c.serverCount.toNat - 1) / c.serverCount.toNat) ≤ c.dbSize.toNat)
    (m : Hosts H) (hr : m.Reaches c) (hn : m.NoClash c)
    (file : String → Option (List Byte)) (path : String) (hpath : path ≠ "")
    (hc : readFile (file path) = .ok c) (N : Nat) (hN : w.SamplesUpTo d N) (hsam : w.sampling = false) (q : Nat)
    (hq : c.serverCount.toNat * q + (c.partyCount.toNat - 1) * (c.dbSize.toNat * N) < 2 ^ 32)
    (seen later : Node → List Obs)
    (hm : Moments (launchMany w file path "all" c.partyCount.toNat c.serverCount.toNat (fun _ => q)) seen later ∨
      ConnectingMoments id (setup m c) (launchMany w file path "all" c.partyCount.toNat c.serverCount.toNat (fun _ => q)) seen later) :
    SecretsServeOnce c.partyCount.toNat c.serverCount.toNat (fun k s => seen (k, s)) := by
  obtain ⟨⟨cap, n, h1, rfl⟩, -⟩ := both_many hw h hS hrows hshare hr hn hpath (.inr rfl) hc hN (fun _ => ⟨hsam, q, fun _ _ => rfl⟩)
    (sums hq) hm
  have hv := grid_valid hw h hN (q := fun _ => q) hS hrows hshare (sums hq)
  exact Grid.serveOnce hv (Grid.distinct_even hv ⟨q, fun _ _ => rfl⟩ (grid_even hsam _)) h1

/-- **C70.** One server per party, started from the command line twice, each time with
`--stage=offline` or `--stage=all`, in any order, on any machines, setting up the
connections first or not.  The client asks for other keys, all else is equal: every process
prepares in the same way.  So what `--stage=offline` prepares is what is needed later,
whatever the keys will be. -/
theorem C70_one_server (w : World box) (hw : w.Sane) (c : Config) (d : Dist) (h : Usable w c d) (hS : c.serverCount.toNat = 1)
    (m m' : Hosts H) (hr : m.Reaches c) (hn : m.NoClash c) (hr' : m'.Reaches c) (hn' : m'.NoClash c)
    (file : String → Option (List Byte)) (path stage stage' : String) (hpath : path ≠ "")
    (hst : stage = "offline" ∨ stage = "all") (hst' : stage' = "offline" ∨ stage' = "all")
    (hc : readFile (file path) = .ok c) (N : Nat) (hN : w.SamplesUpTo d N) (q : Nat)
    (hq : q + (c.partyCount.toNat - 1) * (c.dbSize.toNat * N) < 2 ^ 32) (row : Nat → Nat) (seen later seen' later' : Nat → List Obs)
    (hm : Moments (launch w file path stage c.partyCount.toNat q) seen later ∨
      ConnectingMoments (fun k => (k, 0)) (setup m c) (launch w file path stage c.partyCount.toNat q) seen later)
    (hm' : Moments (launch (w.asking 0 row) file path stage' c.partyCount.toNat q) seen' later' ∨
      ConnectingMoments (fun k => (k, 0)) (setup m' c) (launch (w.asking 0 row) file path stage' c.partyCount.toNat q) seen' later')
    (i : Nat) : SamePreparation (seen i) (seen' i) := by
  have hw' : (w.asking 0 row).Sane := ⟨hw.division, hw.order, hw.backendOrder⟩
  have h' : Usable (w.asking 0 row) c d := ⟨h.parties, h.servers, h.rows, h.pairs, h.noise⟩
  have a := script_one hw h hS hr hn hpath hst hc hN hq hm i
  have b := script_one hw' h' hS hr' hn' hpath hst' hc hN hq hm' i
  have e : chainOf (w.asking 0 row) c d q = (chainOf w c d q).asking row := by
    unfold chainOf Chain.asking World.asking
    simp only [Function.update_self]
    rfl
  rw [e] at b
  exact Chain.samePreparation _ row _ _ i a b

/-- **C70.** The same with 2 to 254 servers per party and as many clients, if the program
was built without `DPPIR_SAMPLE` and all clients have the same `--queries`; the client of
server `t` asks for other keys. -/
theorem C70_many_servers (w : World box) (hw : w.Sane) (c : Config) (d : Dist) (h : Usable w c d)
    (hS : 2 ≤ c.serverCount.toNat ∧ c.serverCount.toNat ≤ 254) (hrows : c.serverCount.toNat ≤ c.dbSize.toNat)
    (hshare : (c.serverCount.toNat - 1) * ((c.dbSize.toNat + c.serverCount.toNat - 1) / c.serverCount.toNat) ≤ c.dbSize.toNat)
    (m m' : Hosts H) (hr : m.Reaches c) (hn : m.NoClash c) (hr' : m'.Reaches c) (hn' : m'.NoClash c)
    (file : String → Option (List Byte)) (path stage stage' : String) (hpath : path ≠ "")
    (hst : stage = "offline" ∨ stage = "all") (hst' : stage' = "offline" ∨ stage' = "all")
    (hc : readFile (file path) = .ok c) (N : Nat) (hN : w.SamplesUpTo d N) (hsam : w.sampling = false) (q : Nat)
    (hq : c.serverCount.toNat * q + (c.partyCount.toNat - 1) * (c.dbSize.toNat * N) < 2 ^ 32)
    (t : Nat) (row : Nat → Nat) (seen later seen' later' : Node → List Obs)
    (hm : Moments (launchMany w file path stage c.partyCount.toNat c.serverCount.toNat (fun _ => q)) seen later ∨
      ConnectingMoments id (setup m c) (launchMany w file path stage c.partyCount.toNat c.serverCount.toNat (fun _ => q)) seen later)
    (hm' : Moments (launchMany (w.asking t row) file path stage' c.partyCount.toNat c.serverCount.toNat (fun _ => q)) seen' later' ∨
      ConnectingMoments id (setup m' c) (launchMany (w.asking t row) file path stage' c.partyCount.toNat c.serverCount.toNat (fun _ => q))
        seen' later')
    (i s : Nat) (hs : s < c.serverCount.toNat) : SamePreparation (seen (i, s)) (seen' (i, s)) := by
  have hw' : (w.asking t row).Sane := ⟨hw.division, hw.order, hw.backendOrder⟩
  have h' : Usable (w.asking t row) c d := ⟨h.parties, h.servers, h.rows, h.pairs, h.noise⟩
  have a := script_many hw h hS hrows hshare hr hn hpath hst hc hN hsam hq hm i s hs
  have b := script_many hw' h' hS hrows hshare hr' hn' hpath hst' hc hN hsam hq hm' i s hs
  have e : gridOf (w.asking t row) c d (fun _ => q) = (gridOf w c d (fun _ => q)).asking t row := rfl
  rw [e] at b
  exact Grid.samePreparation _ t row _ _ i s a b

namespace Example

/-- One server per party and ten queries, both runs setting up the connections first: at
the end of some run with `--stage=all` all secrets have served, the backend, the parties
and the client prepared as in some run with `--stage=offline` of a client that asks for
other rows, and the first party has installed ten secrets in that one. -/
example : ∃ seen seen' : Nat → List Obs, ConnectingMoments (fun k => (k, 0)) (setup oneMachine (privateConfig 1))
      (launch (privateWorld false) (fun _ => some (privateFile 1)) "f" "all" (privateConfig 1).partyCount.toNat 10) seen seen ∧
    ConnectingMoments (fun k => (k, 0)) (setup oneMachine (privateConfig 1))
      (launch ((privateWorld false).asking 0 (fun j => ((privateWorld false).clientRand 0).row j + 1)) (fun _ => some (privateFile 1)) "f"
        "offline" (privateConfig 1).partyCount.toNat 10) seen' seen' ∧
    results (seen 0) ≠ [] ∧ SecretsServeOnce 3 1 (fun k _ => seen k) ∧ (stores (seen' 1)).length = 10 ∧
    ∀ i, SamePreparation (seen i) (seen' i) := by
  obtain ⟨d, N, hu, hN, hN2, hf, e1, e2, e3, hn⟩ := private_samples 1 (Or.inl rfl)
  have hq : 10 + ((privateConfig 1).partyCount.toNat - 1) * ((privateConfig 1).dbSize.toNat * N) < 2 ^ 32 := by
    rw [e1, e3]; omega
  have ha := C62_one_server (privateWorld false) (privateWorld_sane false) (privateConfig 1) d hu e2
    oneMachine (oneMachine_reaches _) hn (fun _ => some (privateFile 1)) "f" "all" (by decide) (.inr rfl) hf N hN 10 hq
  obtain ⟨h1, h2⟩ := ha (fun _ => _ + 1) (fun _ => Nat.succ_pos _)
  obtain ⟨n, hn1, hstuck⟩ := exists_end h2
  obtain ⟨-, -, h3, h4⟩ := h1 n hn1
  have hret := ((h3 (fun _ => Nat.le_succ _)).resolve_left hstuck).1
  have hm1 : ConnectingMoments (fun k => (k, 0)) (setup oneMachine (privateConfig 1))
      (launch (privateWorld false) (fun _ => some (privateFile 1)) "f" "all" (privateConfig 1).partyCount.toNat 10) n.seen n.seen :=
    ⟨_, n, n, hn1, .refl, rfl, rfl⟩
  obtain ⟨db, hdb⟩ : ∃ db, Database.new (privateConfig 1).dbSize.toNat = .ok db := by rw [e3]; exact ⟨_, rfl⟩
  have hres : (results (n.seen 0)).length = 10 := by
    have := congrArg List.length ((h4 0 (by omega) db hdb).2 (hret _))
    simpa using this
  have key := C69_one_server (privateWorld false) (privateWorld_sane false) (privateConfig 1) d hu e2
    oneMachine (oneMachine_reaches _) hn (fun _ => some (privateFile 1)) "f" (by decide) hf N hN 10 hq _ _ (.inr hm1)
  let w' := (privateWorld false).asking 0 (fun j => ((privateWorld false).clientRand 0).row j + 1)
  obtain ⟨k1, k2⟩ := C81_one_server_connecting w' ⟨(privateWorld_sane false).division, (privateWorld_sane false).order,
    (privateWorld_sane false).backendOrder⟩ (privateConfig 1) d ⟨hu.parties, hu.servers, hu.rows, hu.pairs, hu.noise⟩ e2
    oneMachine (oneMachine_reaches _) hn (fun _ => some (privateFile 1)) "f" (by decide) hf N hN 10 hq (fun _ => 1) (fun _ => one_pos)
  obtain ⟨n', hn1', hstuck'⟩ := exists_end k2
  obtain ⟨-, -, k3, -, k4⟩ := k1 n' hn1'
  have hd := k4 ((k3 (fun _ => le_rfl)).resolve_left hstuck').1
  have hm2 : ConnectingMoments (fun k => (k, 0)) (setup oneMachine (privateConfig 1))
      (launch w' (fun _ => some (privateFile 1)) "f" "offline" (privateConfig 1).partyCount.toNat 10) n'.seen n'.seen :=
    ⟨_, n', n', hn1', .refl, rfl, rfl⟩
  have same := C70_one_server (privateWorld false) (privateWorld_sane false) (privateConfig 1) d hu e2
    oneMachine oneMachine (oneMachine_reaches _) hn (oneMachine_reaches _) hn (fun _ => some (privateFile 1)) "f" "all" "offline" (by decide)
    (.inr rfl) (.inl rfl) hf N hN 10 hq _ _ _ _ _ (.inr hm1) (.inr hm2)
  rw [e1] at key hd
  refine ⟨n.seen, n'.seen, hm1, hm2, List.ne_nil_of_length_pos (by omega), key, ?_, same⟩
  have := (hd.installed 0 (by omega) 0 one_pos).length_eq
  rw [hd.ciphers 0 (by omega) 0 one_pos, hd.announced 0 (by omega) 0 one_pos, hd.asked 0 one_pos] at this
  simpa using this.symm

/-- Two servers per party and ten queries at each: the same, if the client of server 1
asks for other rows. -/
example : ∃ seen seen' : Node → List Obs, ConnectingMoments id (setup oneMachine (privateConfig 2))
      (launchMany (privateWorld false) (fun _ => some (privateFile 2)) "f" "all"
        (privateConfig 2).partyCount.toNat (privateConfig 2).serverCount.toNat (fun _ => 10)) seen seen ∧
    ConnectingMoments id (setup oneMachine (privateConfig 2))
      (launchMany ((privateWorld false).asking 1 (fun j => ((privateWorld false).clientRand 1).row j + 1)) (fun _ => some (privateFile 2)) "f"
        "offline" (privateConfig 2).partyCount.toNat (privateConfig 2).serverCount.toNat (fun _ => 10)) seen' seen' ∧
    (∀ s < 2, results (seen (0, s)) ≠ []) ∧ SecretsServeOnce 3 2 (fun k s => seen (k, s)) ∧ (stores (seen' (1, 1))).length = 10 ∧
    ∀ i, ∀ s < 2, SamePreparation (seen (i, s)) (seen' (i, s)) := by
  obtain ⟨d, N, hu, hN, hN2, hf, e1, e2, e3, hn⟩ := private_samples 2 (Or.inr rfl)
  have hq : (privateConfig 2).serverCount.toNat * 10 + ((privateConfig 2).partyCount.toNat - 1) * ((privateConfig 2).dbSize.toNat * N) < 2 ^ 32 := by
    rw [e1, e2, e3]; omega
  have hshare : ((privateConfig 2).serverCount.toNat - 1) * (((privateConfig 2).dbSize.toNat + (privateConfig 2).serverCount.toNat - 1) /
      (privateConfig 2).serverCount.toNat) ≤ (privateConfig 2).dbSize.toNat := by rw [e2, e3]; norm_num
  have ha := C62_many_servers (privateWorld false) (privateWorld_sane false) (privateConfig 2) d hu (by omega) (by omega) hshare
    oneMachine (oneMachine_reaches _) hn (fun _ => some (privateFile 2)) "f" "all" (by decide) (.inr rfl) hf N hN (fun _ => 10)
    (fun _ => ⟨rfl, 10, fun _ _ => rfl⟩) (sums hq)
  obtain ⟨h1, h2⟩ := ha (fun _ => _ + 1) (fun _ => Nat.succ_pos _)
  obtain ⟨n, hn1, hstuck⟩ := exists_end h2
  obtain ⟨-, -, h3, h4⟩ := h1 n hn1
  have hret := ((h3 (fun _ => Nat.le_succ _)).resolve_left hstuck).1
  have hm1 : ConnectingMoments id (setup oneMachine (privateConfig 2))
      (launchMany (privateWorld false) (fun _ => some (privateFile 2)) "f" "all"
        (privateConfig 2).partyCount.toNat (privateConfig 2).serverCount.toNat (fun _ => 10)) n.seen n.seen :=
    ⟨_, n, n, hn1, .refl, rfl, rfl⟩
  obtain ⟨db, hdb⟩ : ∃ db, Database.new (privateConfig 2).dbSize.toNat = .ok db := by rw [e3]; exact ⟨_, rfl⟩
  have hres : ∀ s < 2, (results (n.seen (0, s))).length = 10 := fun s hs => by
    have := congrArg List.length ((h4 s (by omega) db hdb).2 (hret _))
    simpa using this
  have key := C69_many_servers (privateWorld false) (privateWorld_sane false) (privateConfig 2) d hu (by omega) (by omega) hshare
    oneMachine (oneMachine_reaches _) hn (fun _ => some (privateFile 2)) "f" (by decide) hf N hN rfl 10 hq _ _ (.inr hm1)
  let w' := (privateWorld false).asking 1 (fun j => ((privateWorld false).clientRand 1).row j + 1)
  obtain ⟨k1, k2⟩ := C81_many_servers_connecting w' ⟨(privateWorld_sane false).division, (privateWorld_sane false).order,
    (privateWorld_sane false).backendOrder⟩ (privateConfig 2) d ⟨hu.parties, hu.servers, hu.rows, hu.pairs, hu.noise⟩ (by omega) (by omega) hshare
    oneMachine (oneMachine_reaches _) hn (fun _ => some (privateFile 2)) "f" (by decide) hf N hN rfl 10 hq (fun _ => _ + 1) (fun _ => Nat.succ_pos _)
  obtain ⟨n', hn1', hstuck'⟩ := exists_end k2
  obtain ⟨-, -, k3, -, k4⟩ := k1 n' hn1'
  have hd := k4 ((k3 (fun _ => Nat.le_succ _)).resolve_left hstuck').1
  have hm2 : ConnectingMoments id (setup oneMachine (privateConfig 2))
      (launchMany w' (fun _ => some (privateFile 2)) "f" "offline"
        (privateConfig 2).partyCount.toNat (privateConfig 2).serverCount.toNat (fun _ => 10)) n'.seen n'.seen :=
    ⟨_, n', n', hn1', .refl, rfl, rfl⟩
  have same := C70_many_servers (privateWorld false) (privateWorld_sane false) (privateConfig 2) d hu (by omega) (by omega) hshare
    oneMachine oneMachine (oneMachine_reaches _) hn (oneMachine_reaches _) hn (fun _ => some (privateFile 2)) "f" "all" "offline" (by decide)
    (.inr rfl) (.inl rfl) hf N hN rfl 10 hq 1 _ _ _ _ _ (.inr hm1) (.inr hm2)
  rw [e1, e2] at key hd
  refine ⟨n.seen, n'.seen, hm1, hm2, fun s hs => List.ne_nil_of_length_pos (by have := hres s hs; omega), key, ?_,
    fun i s hs => same i s (by omega)⟩
  have := (hd.installed 0 (by omega) 1 (by omega)).length_eq
  rw [hd.ciphers 0 (by omega) 1 (by omega), hd.announced 0 (by omega) 1 (by omega), hd.asked 1 (by omega)] at this
  simpa using this.symm

end Example
end DPPIR.Props
