import Verif.Proofs.OfflineAlone
import Verif.Proofs.StartCounts
import Verif.Spec.StartInstall
import Verif.Props.GridInstall
import Verif.Props.StartCausal

/-!
# C47 for deployments started from the command line
-/

namespace DPPIR.Props
open DPPIR.Config DPPIR.Connect DPPIR.Noise DPPIR.Protocol DPPIR.Onion DPPIR.Main DPPIR.Joint DPPIR.Spec

variable {box : SealedBox} {H : Type} [DecidableEq H]

private theorem ciphers_chain (c : Chain box) (k : Nat) (hk : k < c.parties) :
    (ciphersSent (c.obsAll true true k)).length = (c.tickets k).length := by
  cases k with
  | zero => rw [Chain.ciphersSent_client, List.length_map]
  | succ k => rw [Chain.ciphersSent_party c true k hk, List.length_map]

private theorem ciphers_grid (g : Grid box) (s k : Nat) (hk : k < g.parties) :
    (ciphersSent (g.obsAll true true k s)).length = (g.tickets k s).length := by
  have : ciphersSent (g.obsAll true true k s) = (g.tickets k s).map (fun t => t.cipher g.pkeys k) := by
    cases k with
    | zero =>
      rw [Grid.client_obs, ciphersSent]
      parts
    | succ k =>
      rw [Grid.party_obs g true true s k hk, ciphersSent]
      parts
  rw [this, List.length_map]

private theorem still_sent {l l' : List Obs} (h : l <+: l') (hne : queriesSent l ≠ []) : queriesSent l' ≠ [] := fun e => by
  have := Chain.queriesSent_prefix h
  rw [e] at this
  exact hne (List.prefix_nil.1 this)

/-- **C47.** One server per party, started from the command line for both stages with a
usable configuration file, in any order, setting up the connections first or not: once the
client has sent a query, all secrets are installed. -/
theorem C47_one_server (w : World box) (hw : w.Sane) (c : Config) (d : Dist) (h : Usable w c d) (hS : c.serverCount.toNat = 1)
    (m : Hosts H) (hr : m.Reaches c) (hn : m.NoClash c)
    (file : String → Option (List Byte)) (path : String) (hpath : path ≠ "")
    (hc : readFile (file path) = .ok c) (N : Nat) (hN : w.SamplesUpTo d N) (q : Nat)
    (hq : q + (c.partyCount.toNat - 1) * (c.dbSize.toNat * N) < 2 ^ 32) (seen later : Nat → List Obs)
    (hm : Moments (launch w file path "all" c.partyCount.toNat q) seen later ∨
      ConnectingMoments (fun k => (k, 0)) (setup m c) (launch w file path "all" c.partyCount.toNat q) seen later) :
    AllInstalled c.partyCount.toNat 1 (fun k _ => seen k) (fun k _ => later k) := by
  obtain ⟨⟨cap, n, h1, rfl⟩, ⟨cap', n', h2, rfl⟩, hp⟩ := both_one hw h hS hr hn hpath (.inr rfl) hc hN hq hm
  have hv := chain_valid hw h hN hq
  have a := fun hne k hk => (C47_installed_before_online_loops (chainOf w c d q) hv cap n h1 hne k hk).1
  have b := fun hne k hk => (C47_installed_before_online_loops (chainOf w c d q) hv cap' n' h2 hne k hk).1
  have pre := ((Chain.every_run_loops hv true true (fun x => cap' x + 1) (fun k _ => ⟨Nat.succ_pos _, Nat.succ_pos _⟩)).1 n'
    (RNet.reach_mono (fun _ => Nat.le_succ _) h2)).2.1
  refine ⟨fun _ _ hne k hk _ _ => ?_, fun _ _ hne k hk _ _ => ?_, fun _ _ hne k hk _ _ => ?_⟩
  · exact ((Chain.stores_prefix (hp (k + 1))).eq_of_length (by rw [a hne k hk, b (still_sent (hp 0) hne) k hk])).symm
  · show (ciphersSent (n'.seen k)).length ≤ (stores (n.seen (k + 1))).length
    rw [a hne k hk]
    have := (Chain.ciphersSent_prefix (pre k)).length_le
    rwa [ciphers_chain _ k hk, (Chain.tickets_spec hv k hk).1] at this
  · show (queriesRead (n'.seen (k + 1))).length ≤ (stores (n.seen (k + 1))).length
    rw [a hne k hk]
    have := (Chain.queriesRead_prefix (pre (k + 1))).length_le
    rwa [Chain.queriesRead_pos _ true k hk, List.length_map, (Chain.qs_spec hv true k hk).1] at this

/-- **C47.** The same with 2 to 254 servers per party and as many clients, if the program
was built without `DPPIR_SAMPLE` and all clients have the same `--queries`: once any client
has sent a query, all servers of all parties have installed all their secrets. -/
theorem C47_many_servers (w : World box) (hw : w.Sane) (c : Config) (d : Dist) (h : Usable w c d)
    (hS : 2 ≤ c.serverCount.toNat ∧ c.serverCount.toNat ≤ 254) (hrows : c.serverCount.toNat ≤ c.dbSize.toNat)
    (hshare : (c.serverCount.toNat - 1) * ((c.dbSize.toNat + c.serverCount.toNat - 1) / c.serverCount.toNat) ≤ c.dbSize.toNat)
    (m : Hosts H) (hr : m.Reaches c) (hn : m.NoClash c)
    (file : String → Option (List Byte)) (path : String) (hpath : path ≠ "")
    (hc : readFile (file path) = .ok c) (N : Nat) (hN : w.SamplesUpTo d N) (hsam : w.sampling = false) (q : Nat)
    (hq : c.serverCount.toNat * q + (c.partyCount.toNat - 1) * (c.dbSize.toNat * N) < 2 ^ 32)
    (seen later : Node → List Obs)
    (hm : Moments (launchMany w file path "all" c.partyCount.toNat c.serverCount.toNat (fun _ => q)) seen later ∨
      ConnectingMoments id (setup m c) (launchMany w file path "all" c.partyCount.toNat c.serverCount.toNat (fun _ => q)) seen later) :
    AllInstalled c.partyCount.toNat c.serverCount.toNat (fun k s => seen (k, s)) (fun k s => later (k, s)) := by
  have hsum : ((List.range c.serverCount.toNat).map (fun _ => q)).sum = c.serverCount.toNat * q := by simp
  have hq' : ((List.range c.serverCount.toNat).map (fun _ => q)).sum + (c.partyCount.toNat - 1) * (c.dbSize.toNat * N) < 2 ^ 32 := by
    rw [hsum]; exact hq
  obtain ⟨⟨cap, n, h1, rfl⟩, ⟨cap', n', h2, rfl⟩, hp⟩ :=
    both_many hw h hS hrows hshare hr hn hpath (.inr rfl) hc hN (fun _ => ⟨hsam, q, fun _ _ => rfl⟩) hq' hm
  have hv := grid_valid hw h hN (q := fun _ => q) hS hrows hshare hq'
  have hd : (gridOf w c d (fun _ => q)).DistinctTags := Grid.distinct_even hv ⟨q, fun _ _ => rfl⟩ (grid_even hsam _)
  have a := fun s hs hne k t hk ht => (C47_installed_before_online_loops_parallel (gridOf w c d (fun _ => q)) hv hd cap n h1 s hs hne k t hk ht).1
  have b := fun s hs hne k t hk ht => (C47_installed_before_online_loops_parallel (gridOf w c d (fun _ => q)) hv hd cap' n' h2 s hs hne k t hk ht).1
  have pre := ((Grid.every_run_loops hv true true (fun _ => hd) cap').1 n' h2).2.1
  refine ⟨fun s hs hne k hk t ht => ?_, fun s hs hne k hk t ht => ?_, fun s hs hne k hk t ht => ?_⟩
  · exact ((Chain.stores_prefix (hp (k + 1, t))).eq_of_length
      (by rw [a s hs hne k t hk ht, b s hs (still_sent (hp (0, s)) hne) k t hk ht])).symm
  · show (ciphersSent (n'.seen (k, t))).length ≤ (stores (n.seen (k + 1, t))).length
    rw [a s hs hne k t hk ht]
    have := (Chain.ciphersSent_prefix (pre k t ht)).length_le
    rwa [ciphers_grid _ t k hk, ((Grid.tickets_spec hv k hk).1 t ht).1] at this
  · show (queriesRead (n'.seen (k + 1, t))).length ≤ (stores (n.seen (k + 1, t))).length
    rw [a s hs hne k t hk ht]
    have := (Chain.queriesRead_prefix (pre (k + 1) t ht)).length_le
    rwa [Grid.queriesRead_pos _ true t k hk, List.length_map, (Grid.qs_spec hv true k hk t ht).1] at this

namespace Example

/-- One server per party and ten queries, both stages: the end of some run that sets up the
connections first, when the client has sent queries. -/
example : ∃ seen : Nat → List Obs, ConnectingMoments (fun k => (k, 0)) (setup oneMachine (privateConfig 1))
      (launch (privateWorld false) (fun _ => some (privateFile 1)) "f" "all" (privateConfig 1).partyCount.toNat 10) seen seen ∧
    queriesSent (seen 0) ≠ [] ∧ AllInstalled 3 1 (fun k _ => seen k) (fun k _ => seen k) := by
  obtain ⟨d, N, hu, hN, hN2, hf, e1, e2, e3, hn⟩ := private_samples 1 (Or.inl rfl)
  have hq : 10 + ((privateConfig 1).partyCount.toNat - 1) * ((privateConfig 1).dbSize.toNat * N) < 2 ^ 32 := by
    rw [e1, e3]; omega
  have ha := C62_one_server (privateWorld false) (privateWorld_sane false) (privateConfig 1) d hu e2
    oneMachine (oneMachine_reaches _) hn (fun _ => some (privateFile 1)) "f" "all" (by decide) (.inr rfl) hf N hN 10 hq
  obtain ⟨h1, h2⟩ := ha (fun _ => _ + 1) (fun _ => Nat.succ_pos _)
  obtain ⟨n, hn1, hstuck⟩ := exists_end h2
  obtain ⟨-, -, h3, h4⟩ := h1 n hn1
  have hret := ((h3 (fun _ => Nat.le_succ _)).resolve_left hstuck).1
  have hm1 : ConnectingMoments (fun k => (k, 0)) (setup oneMachine (privateConfig 1))
      (launch (privateWorld false) (fun _ => some (privateFile 1)) "f" "all" (privateConfig 1).partyCount.toNat 10) n.seen n.seen :=
    ⟨_, n, n, hn1, .refl, rfl, rfl⟩
  obtain ⟨db, hdb⟩ : ∃ db, Database.new (privateConfig 1).dbSize.toNat = .ok db := by rw [e3]; exact ⟨_, rfl⟩
  have hres : (results (n.seen 0)).length = 10 := by
    have := congrArg List.length ((h4 0 (by omega) db hdb).2 (hret _))
    simpa using this
  have key := C47_one_server (privateWorld false) (privateWorld_sane false) (privateConfig 1) d hu e2
    oneMachine (oneMachine_reaches _) hn (fun _ => some (privateFile 1)) "f" (by decide) hf N hN 10 hq _ _ (.inr hm1)
  refine ⟨n.seen, hm1, ?_, by rw [e1] at key; exact key⟩
  obtain ⟨⟨cap, P, r1, r2⟩, -⟩ := both_one (m := oneMachine) (file := fun _ => some (privateFile 1)) (path := "f") (stage := "all")
    (privateWorld_sane false) hu e2 (oneMachine_reaches _) hn (by decide) (.inr rfl) hf hN hq (.inr hm1)
  have hv := chain_valid (privateWorld_sane false) hu hN hq
  obtain ⟨-, a2, -, a4⟩ := C77_wait_loops _ hv true cap P r1
  have hio := C79_in_order_loops _ hv true cap P r1
  rw [r2] at a2 a4 hio
  have l := Chain.lookups_full hv hio a4 (List.ne_nil_of_length_pos (by omega))
  have c0 : ∀ k, 10 ≤ (chainOf (privateWorld false) (privateConfig 1) d 10).queries k := fun k => by
    induction k with
    | zero => exact le_of_eq rfl
    | succ k ih => exact ih.trans (Nat.le_add_right _ _)
  have e := a2 (List.ne_nil_of_length_pos (by have := c0 ((chainOf (privateWorld false) (privateConfig 1) d 10).parties - 1); omega)) 1 le_rfl
    (by have := hv.parties; omega)
  have f := (hio.queries 0 (by have := hv.parties; omega)).length_le
  refine List.ne_nil_of_length_pos ?_
  have := c0 0
  simp only [Nat.zero_add, Nat.sub_self] at e f
  omega

/-- Two servers per party and ten queries at each client: the same. -/
example : ∃ seen : Node → List Obs, ConnectingMoments id (setup oneMachine (privateConfig 2))
      (launchMany (privateWorld false) (fun _ => some (privateFile 2)) "f" "all"
        (privateConfig 2).partyCount.toNat (privateConfig 2).serverCount.toNat (fun _ => 10)) seen seen ∧
    (∀ s < 2, queriesSent (seen (0, s)) ≠ []) ∧ AllInstalled 3 2 (fun k s => seen (k, s)) (fun k s => seen (k, s)) := by
  obtain ⟨d, N, hu, hN, hN2, hf, e1, e2, e3, hn⟩ := private_samples 2 (Or.inr rfl)
  have hq : (privateConfig 2).serverCount.toNat * 10 + ((privateConfig 2).partyCount.toNat - 1) * ((privateConfig 2).dbSize.toNat * N) < 2 ^ 32 := by
    rw [e1, e2, e3]; omega
  have hq' : ((List.range (privateConfig 2).serverCount.toNat).map (fun _ => 10)).sum +
      ((privateConfig 2).partyCount.toNat - 1) * ((privateConfig 2).dbSize.toNat * N) < 2 ^ 32 := by
    rw [e1, e2, e3]; simp [List.range_succ]; omega
  have hshare : ((privateConfig 2).serverCount.toNat - 1) * (((privateConfig 2).dbSize.toNat + (privateConfig 2).serverCount.toNat - 1) /
      (privateConfig 2).serverCount.toNat) ≤ (privateConfig 2).dbSize.toNat := by rw [e2, e3]; norm_num
  have ha := C62_many_servers (privateWorld false) (privateWorld_sane false) (privateConfig 2) d hu (by omega) (by omega) hshare
    oneMachine (oneMachine_reaches _) hn (fun _ => some (privateFile 2)) "f" "all" (by decide) (.inr rfl) hf N hN (fun _ => 10)
    (fun _ => ⟨rfl, 10, fun _ _ => rfl⟩) hq'
  obtain ⟨h1, h2⟩ := ha (fun _ => _ + 1) (fun _ => Nat.succ_pos _)
  obtain ⟨n, hn1, hstuck⟩ := exists_end h2
  obtain ⟨-, -, h3, h4⟩ := h1 n hn1
  have hret := ((h3 (fun _ => Nat.le_succ _)).resolve_left hstuck).1
  have hm1 : ConnectingMoments id (setup oneMachine (privateConfig 2))
      (launchMany (privateWorld false) (fun _ => some (privateFile 2)) "f" "all"
        (privateConfig 2).partyCount.toNat (privateConfig 2).serverCount.toNat (fun _ => 10)) n.seen n.seen :=
    ⟨_, n, n, hn1, .refl, rfl, rfl⟩
  obtain ⟨db, hdb⟩ : ∃ db, Database.new (privateConfig 2).dbSize.toNat = .ok db := by rw [e3]; exact ⟨_, rfl⟩
  have key := C47_many_servers (privateWorld false) (privateWorld_sane false) (privateConfig 2) d hu (by omega) (by omega) hshare
    oneMachine (oneMachine_reaches _) hn (fun _ => some (privateFile 2)) "f" (by decide) hf N hN rfl 10 hq _ _ (.inr hm1)
  refine ⟨n.seen, hm1, fun s hs hnil => ?_, by rw [e1, e2] at key; exact key⟩
  have hres : (results (n.seen (0, s))).length = 10 := by
    have := congrArg List.length ((h4 s (by omega) db hdb).2 (hret _))
    simpa using this
  have hw := C80_many_servers (privateWorld false) (privateWorld_sane false) (privateConfig 2) d hu (by omega) (by omega) hshare
    oneMachine (oneMachine_reaches _) hn (fun _ => some (privateFile 2)) "f" "all" (by decide) (.inr rfl) hf N hN (fun _ => 10)
    (fun _ => ⟨rfl, 10, fun _ _ => rfl⟩) hq' _ _ (.inr hm1) s (by omega) (by rw [hnil]; show 0 < 10; decide) s (by omega)
  have := hw.results
  simp only [this, List.length_nil] at hres
  omega

end Example
end DPPIR.Props
