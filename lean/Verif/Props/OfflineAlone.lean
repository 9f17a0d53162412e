import Verif.Proofs.OfflineAlone
import Verif.Props.StartCausal

/-!
# C81: the offline stage alone
-/

namespace DPPIR.Props
open DPPIR.Config DPPIR.Connect DPPIR.Noise DPPIR.Protocol DPPIR.Onion DPPIR.Main DPPIR.Joint DPPIR.Spec

variable {box : SealedBox} {H : Type} [DecidableEq H]

/-- **C81.** One server per party, started from the command line with a usable
configuration file and `--stage=offline`, on existing connections. -/
theorem C81_one_server (w : World box) (hw : w.Sane) (c : Config) (d : Dist) (h : Usable w c d) (hS : c.serverCount.toNat = 1)
    (file : String → Option (List Byte)) (path : String) (hpath : path ≠ "")
    (hc : readFile (file path) = .ok c) (N : Nat) (hN : w.SamplesUpTo d N) (q : Nat)
    (hq : q + (c.partyCount.toNat - 1) * (c.dbSize.toNat * N) < 2 ^ 32) :
    PreparesOnly (launch w file path "offline" c.partyCount.toNat q) (fun a b => Linked c.partyCount.toNat 1 (a, 0) (b, 0)) 1
      (opens w c) c.partyCount.toNat 1 (fun k _ => k) q := by
  intro cap hcap
  have hv := chain_valid hw h hN hq
  rw [launch_offline w c d h hN hS file path hpath hc q (by omega)]
  obtain ⟨h1, h2⟩ := Chain.every_run_loops hv true false cap
    (fun k hk => ⟨hcap k (k + 1) ⟨hk.le, one_pos, hk, one_pos, .inl ⟨rfl, .inl rfl⟩⟩, hcap (k + 1) k ⟨hk, one_pos, hk.le, one_pos, .inl ⟨rfl, .inr rfl⟩⟩⟩)
  refine ⟨fun n hn => ?_, fun ⟨f, hf, hall⟩ => h2 f hf hall⟩
  obtain ⟨a1, a2, a3, a4⟩ := h1 n hn
  refine ⟨a1, fun _ => a4, fun _ _ k o ho => Chain.obsOff_prepares _ true k o ((a2 k).subset ho), fun hr => ?_⟩
  have e : (fun k _ => n.seen k : Nat → Nat → List Obs) = fun k _ => (chainOf w c d q).obsAll true false k :=
    funext fun k => funext fun _ => a3 k (hr k)
  show OfflineDone _ _ _ _ (fun k _ => n.seen k)
  rw [e]
  exact (Chain.prepared hv).congr fun k hk => opens_eq w (by have := h.parties.2; change k < c.partyCount.toNat at hk; omega)

/-- **C81.** The same with 2 to 254 servers per party and as many clients, if the program
was built without `DPPIR_SAMPLE` and all clients have the same `--queries`. -/
theorem C81_many_servers (w : World box) (hw : w.Sane) (c : Config) (d : Dist) (h : Usable w c d)
    (hS : 2 ≤ c.serverCount.toNat ∧ c.serverCount.toNat ≤ 254) (hrows : c.serverCount.toNat ≤ c.dbSize.toNat)
    (hshare : (c.serverCount.toNat - 1) * ((c.dbSize.toNat + c.serverCount.toNat - 1) / c.serverCount.toNat) ≤ c.dbSize.toNat)
    (file : String → Option (List Byte)) (path : String) (hpath : path ≠ "")
    (hc : readFile (file path) = .ok c) (N : Nat) (hN : w.SamplesUpTo d N) (hsam : w.sampling = false) (q : Nat)
    (hq : c.serverCount.toNat * q + (c.partyCount.toNat - 1) * (c.dbSize.toNat * N) < 2 ^ 32) :
    PreparesOnly (launchMany w file path "offline" c.partyCount.toNat c.serverCount.toNat (fun _ => q))
      (Linked c.partyCount.toNat c.serverCount.toNat)
      (4 + 124 * c.partyCount.toNat * (c.serverCount.toNat * q + (c.partyCount.toNat - 1) * (c.dbSize.toNat * N)))
      (opens w c) c.partyCount.toNat c.serverCount.toNat (fun k s => (k, s)) q := by
  intro cap hcap
  have hsum : ((List.range c.serverCount.toNat).map (fun _ => q)).sum = c.serverCount.toNat * q := by simp
  have hqs : ∀ s < c.serverCount.toNat, (fun _ => q) s < 2 ^ 32 := fun s hs => by
    have : (fun _ => q) s ≤ ((List.range c.serverCount.toNat).map (fun _ => q)).sum := le_preSum (f := fun _ => q) hs
    dsimp only at this ⊢
    omega
  have hv := grid_valid hw h hN (q := fun _ => q) hS hrows hshare (by rw [hsum]; exact hq)
  rw [launchMany_offline w c d h hN (by omega) file path hpath hc _ hqs]
  obtain ⟨h1, h2⟩ := Grid.every_run_loops hv true false
    (fun _ => Grid.distinct_even hv ⟨q, fun _ _ => rfl⟩ (grid_even hsam _)) cap
  refine ⟨fun n hn => ?_, fun ⟨f, hf, hall⟩ => h2 f hf hall⟩
  obtain ⟨a1, a2, a3, a4⟩ := h1 n hn
  refine ⟨a1, fun hroom => a4 (grid_roomy h.parties.1 (by show 0 < c.serverCount.toNat; omega)
    (grid_total_le hN (by omega) hshare _) (by rw [hsum]; exact hroom)),
    fun s hs k o ho => Grid.obsOff_prepares _ true k s o ((a2 k s hs).subset ho), fun hr => ?_⟩
  refine ((Grid.prepared hv (q := q) fun _ _ => rfl).congr fun k hk => opens_eq w (by have := h.parties.2; change k < c.partyCount.toNat at hk; omega)).same fun k s hs => ?_
  exact a3 k s hs (hr (k, s))

/-- **C81.** One server per party, `--stage=offline`, in any order, on machines to which
the addresses of the configuration lead: the processes connect and prepare. -/
theorem C81_one_server_connecting (w : World box) (hw : w.Sane) (c : Config) (d : Dist) (h : Usable w c d) (hS : c.serverCount.toNat = 1)
    (m : Hosts H) (hr : m.Reaches c) (hn : m.NoClash c)
    (file : String → Option (List Byte)) (path : String) (hpath : path ≠ "")
    (hc : readFile (file path) = .ok c) (N : Nat) (hN : w.SamplesUpTo d N) (q : Nat)
    (hq : q + (c.partyCount.toNat - 1) * (c.dbSize.toNat * N) < 2 ^ 32) :
    ConnectsAndPreparesOnly (fun k => (k, 0)) (setup m c) (launch w file path "offline" c.partyCount.toNat q) 1
      (opens w c) c.partyCount.toNat 1 (fun k _ => k) q := by
  have hk : Consistent c := ⟨h.parties.2, h.servers⟩
  have hP : 0 < c.partyCount.toNat := by have := h.parties.1; omega
  refine connects_and_prepares (pl := planOf m c) (planOf_distinct m c (config_complete hk) hn) (plan_small c m)
    (fun a b e => (Prod.mk.inj e).1)
    (inv_start hP (fun i hi => setup_eq m c (config_complete hk) hP hr i hi) (fun i hi => setup_out m c i hi)) ?_
  have := C81_one_server w hw c d h hS file path hpath hc N hN q hq
  show PreparesOnly _ (fun a b => Linked c.partyCount.toNat c.serverCount.toNat (a, 0) (b, 0)) _ _ _ _ _ _
  rw [hS]
  exact this

/-- **C81.** The same with 2 to 254 servers per party. -/
theorem C81_many_servers_connecting (w : World box) (hw : w.Sane) (c : Config) (d : Dist) (h : Usable w c d)
    (hS : 2 ≤ c.serverCount.toNat ∧ c.serverCount.toNat ≤ 254) (hrows : c.serverCount.toNat ≤ c.dbSize.toNat)
    (hshare : (c.serverCount.toNat - 1) * ((c.dbSize.toNat + c.serverCount.toNat - 1) / c.serverCount.toNat) ≤ c.dbSize.toNat)
    (m : Hosts H) (hr : m.Reaches c) (hn : m.NoClash c)
    (file : String → Option (List Byte)) (path : String) (hpath : path ≠ "")
    (hc : readFile (file path) = .ok c) (N : Nat) (hN : w.SamplesUpTo d N) (hsam : w.sampling = false) (q : Nat)
    (hq : c.serverCount.toNat * q + (c.partyCount.toNat - 1) * (c.dbSize.toNat * N) < 2 ^ 32) :
    ConnectsAndPreparesOnly id (setup m c) (launchMany w file path "offline" c.partyCount.toNat c.serverCount.toNat (fun _ => q))
      (4 + 124 * c.partyCount.toNat * (c.serverCount.toNat * q + (c.partyCount.toNat - 1) * (c.dbSize.toNat * N)))
      (opens w c) c.partyCount.toNat c.serverCount.toNat (fun k s => (k, s)) q := by
  have hk : Consistent c := ⟨h.parties.2, h.servers⟩
  have hP : 0 < c.partyCount.toNat := by have := h.parties.1; omega
  exact connects_and_prepares (pl := planOf m c) (planOf_distinct m c (config_complete hk) hn) (plan_small c m)
    Function.injective_id
    (inv_start hP (fun i hi => setup_eq m c (config_complete hk) hP hr i hi) (fun i hi => setup_out m c i hi))
    (C81_many_servers w hw c d h hS hrows hshare file path hpath hc N hN hsam q hq)

namespace Example

/-- Two servers per party and ten queries at each: some run that sets up the connections
first ends with all prepared, and the first party has
installed ten secrets at server 1. -/
example : ∃ seen : Node → List Obs, ConnectingMoments id (setup oneMachine (privateConfig 2))
      (launchMany (privateWorld false) (fun _ => some (privateFile 2)) "f" "offline"
        (privateConfig 2).partyCount.toNat (privateConfig 2).serverCount.toNat (fun _ => 10)) (fun _ => []) seen ∧
    OfflineDone (opens (privateWorld false) (privateConfig 2)) 3 2 10 (fun k s => seen (k, s)) ∧ (stores (seen (1, 1))).length = 10 := by
  obtain ⟨d, N, hu, hN, hN2, hf, e1, e2, e3, hn⟩ := private_samples 2 (Or.inr rfl)
  have hq : (privateConfig 2).serverCount.toNat * 10 +
      ((privateConfig 2).partyCount.toNat - 1) * ((privateConfig 2).dbSize.toNat * N) < 2 ^ 32 := by
    rw [e1, e2, e3]; omega
  have hs : (privateConfig 2).serverCount.toNat = 2 := e2
  have hshare : ((privateConfig 2).serverCount.toNat - 1) * (((privateConfig 2).dbSize.toNat + (privateConfig 2).serverCount.toNat - 1) /
      (privateConfig 2).serverCount.toNat) ≤ (privateConfig 2).dbSize.toNat := by rw [e2, e3]; norm_num
  obtain ⟨h1, h2⟩ := C81_many_servers_connecting (privateWorld false) (privateWorld_sane false) (privateConfig 2) d hu (by omega) (by omega) hshare
    oneMachine (oneMachine_reaches _) hn (fun _ => some (privateFile 2)) "f" (by decide) hf N hN rfl 10 hq
    (fun _ => _ + 1) (fun _ => Nat.succ_pos _)
  obtain ⟨n, hn1, hstuck⟩ := exists_end h2
  obtain ⟨-, -, h3, -, h4⟩ := h1 n hn1
  have hd := h4 ((h3 (fun _ => Nat.le_succ _)).resolve_left hstuck).1
  rw [e1, e2] at hd
  refine ⟨n.seen, ⟨_, _, n, .refl, hn1, rfl, rfl⟩, hd, ?_⟩
  have := (hd.installed 0 (by omega) 1 (by omega)).length_eq
  rw [hd.ciphers 0 (by omega) 1 (by omega), hd.announced 0 (by omega) 1 (by omega), hd.asked 1 (by omega)] at this
  simpa using this.symm

/-- One server per party: the same for one client. -/
example : ∃ seen : Nat → List Obs, ConnectingMoments (fun k => (k, 0)) (setup oneMachine (privateConfig 1))
      (launch (privateWorld false) (fun _ => some (privateFile 1)) "f" "offline" (privateConfig 1).partyCount.toNat 10) (fun _ => []) seen ∧
    OfflineDone (opens (privateWorld false) (privateConfig 1)) 3 1 10 (fun k _ => seen k) ∧ (stores (seen 1)).length = 10 := by
  obtain ⟨d, N, hu, hN, hN2, hf, e1, e2, e3, hn⟩ := private_samples 1 (Or.inl rfl)
  have hq : 10 + ((privateConfig 1).partyCount.toNat - 1) * ((privateConfig 1).dbSize.toNat * N) < 2 ^ 32 := by
    rw [e1, e3]; omega
  obtain ⟨h1, h2⟩ := C81_one_server_connecting (privateWorld false) (privateWorld_sane false) (privateConfig 1) d hu e2
    oneMachine (oneMachine_reaches _) hn (fun _ => some (privateFile 1)) "f" (by decide) hf N hN 10 hq (fun _ => 1) (fun _ => one_pos)
  obtain ⟨n, hn1, hstuck⟩ := exists_end h2
  obtain ⟨-, -, h3, -, h4⟩ := h1 n hn1
  have hd := h4 ((h3 (fun _ => le_rfl)).resolve_left hstuck).1
  rw [e1] at hd
  refine ⟨n.seen, ⟨_, _, n, .refl, hn1, rfl, rfl⟩, hd, ?_⟩
  have := (hd.installed 0 (by omega) 0 one_pos).length_eq
  rw [hd.ciphers 0 (by omega) 0 one_pos, hd.announced 0 (by omega) 0 one_pos, hd.asked 0 one_pos] at this
  simpa using this.symm

end Example
end DPPIR.Props
