import Verif.Proofs.StartHiding
import Verif.Props.KeyHiding
import Verif.Props.StartPrivate

/-!
# C71: the parties of a started deployment learn nothing about the keys
-/

namespace DPPIR.Props
open DPPIR.Config DPPIR.Connect DPPIR.Noise DPPIR.Protocol DPPIR.Onion DPPIR.Main DPPIR.Joint DPPIR.Spec

variable {box : SealedBox} {H : Type} [DecidableEq H]

/-- **C71.** One server per party, started from the command line for both stages with a
usable configuration file.  Whatever all parties before the backend together may see in a
complete run: the number of outcomes of the client's draws for which they see it is the
same for all keys that the client may ask for. -/
theorem C71_one_server (w : World box) (hw : w.Sane) (c : Config) (d : Dist) (h : Usable w c d) (hS : c.serverCount.toNat = 1)
    (file : String → Option (List Byte)) (path : String) (hpath : path ≠ "") (hc : readFile (file path) = .ok c) (N : Nat)
    (hN : w.SamplesUpTo d N) (q : Nat) (hq : q + (c.partyCount.toNat - 1) * (c.dbSize.toNat * N) < 2 ^ 32)
    (row row' : Nat → Nat) (v : Nat → List Obs) :
    Nat.card {x : Protocol.Draws q c.partyCount.toNat //
        Sees (launch (w.withDraws row x) file path "all" c.partyCount.toNat q) (fun i => 1 ≤ i ∧ i < c.partyCount.toNat) v} =
      Nat.card {x : Protocol.Draws q c.partyCount.toNat //
        Sees (launch (w.withDraws row' x) file path "all" c.partyCount.toNat q) (fun i => 1 ≤ i ∧ i < c.partyCount.toNat) v} := by
  simp only [sees_launch hw h hS hpath hc hN hq]
  exact C59_parties_learn_nothing (chainOf w c d q) (chain_valid hw h hN hq) row row' v

private theorem connects_launch {w : World box} (hw : w.Sane) {c : Config} {d : Dist} (h : Usable w c d) (hS : c.serverCount.toNat = 1)
    {m : Hosts H} (hr : m.Reaches c) (hn : m.NoClash c) {file : String → Option (List Byte)} {path : String} (hpath : path ≠ "")
    (hc : readFile (file path) = .ok c) {N : Nat} (hN : w.SamplesUpTo d N) {q : Nat}
    (hq : q + (c.partyCount.toNat - 1) * (c.dbSize.toNat * N) < 2 ^ 32) (row : Nat → Nat) (x : Protocol.Draws q c.partyCount.toNat)
    (v : Nat → List Obs) :
    ConnectsAndSees (fun k => (k, 0)) (setup m c) (launch (w.withDraws row x) file path "all" c.partyCount.toNat q)
        (fun i => 1 ≤ i ∧ i < c.partyCount.toNat) v ↔
      Sees (launch (w.withDraws row x) file path "all" c.partyCount.toNat q) (fun i => 1 ≤ i ∧ i < c.partyCount.toNat) v := by
  have hk : Consistent c := ⟨h.parties.2, h.servers⟩
  have hP : 0 < c.partyCount.toNat := by have := h.parties.1; omega
  refine connects_and_sees (pl := planOf m c) (planOf_distinct m c (config_complete hk) hn) (plan_small c m) (fun a b e => (Prod.mk.inj e).1)
    (inv_start hP (fun i hi => setup_eq m c (config_complete hk) hP hr i hi) (fun i hi => setup_out m c i hi))
    (by
      have := C61_one_server _ (Sane.withDraws hw row x) c d (h.withDraws row x) hS file path "all" hpath (Or.inr rfl) hc N hN q hq
      show Answers _ (fun a b => Linked c.partyCount.toNat c.serverCount.toNat (a, 0) (b, 0)) _ _ _ _ _ _
      rw [hS]
      exact this)
    (C62_one_server _ (Sane.withDraws hw row x) c d (h.withDraws row x) hS m hr hn file path "all" hpath (Or.inr rfl) hc N hN q hq) _ ?_ v
  intro v v' h1 h2 i hi
  rw [sees_launch hw h hS hpath hc hN hq] at h1 h2
  obtain ⟨v0, -, h3⟩ := C59_one_view (chainOf w c d q) (chain_valid hw h hN hq) row x
  rw [h3 v h1 i hi.1 hi.2, h3 v' h2 i hi.1 hi.2]

/-- **C71.** The same when the processes start in any order and set up their connections
first. -/
theorem C71_one_server_connecting (w : World box) (hw : w.Sane) (c : Config) (d : Dist) (h : Usable w c d) (hS : c.serverCount.toNat = 1)
    (m : Hosts H) (hr : m.Reaches c) (hn : m.NoClash c)
    (file : String → Option (List Byte)) (path : String) (hpath : path ≠ "") (hc : readFile (file path) = .ok c) (N : Nat)
    (hN : w.SamplesUpTo d N) (q : Nat) (hq : q + (c.partyCount.toNat - 1) * (c.dbSize.toNat * N) < 2 ^ 32)
    (row row' : Nat → Nat) (v : Nat → List Obs) :
    Nat.card {x : Protocol.Draws q c.partyCount.toNat // ConnectsAndSees (fun k => (k, 0)) (setup m c)
        (launch (w.withDraws row x) file path "all" c.partyCount.toNat q) (fun i => 1 ≤ i ∧ i < c.partyCount.toNat) v} =
      Nat.card {x : Protocol.Draws q c.partyCount.toNat // ConnectsAndSees (fun k => (k, 0)) (setup m c)
        (launch (w.withDraws row' x) file path "all" c.partyCount.toNat q) (fun i => 1 ≤ i ∧ i < c.partyCount.toNat) v} := by
  simp only [connects_launch hw h hS hr hn hpath hc hN hq]
  exact C71_one_server w hw c d h hS file path hpath hc N hN q hq row row' v

/-- **C71.** For all outcomes of the draws the parties see something, and they see the same
in all complete runs, whatever the schedule, in connecting and afterwards. -/
theorem C71_one_view (w : World box) (hw : w.Sane) (c : Config) (d : Dist) (h : Usable w c d) (hS : c.serverCount.toNat = 1)
    (m : Hosts H) (hr : m.Reaches c) (hn : m.NoClash c)
    (file : String → Option (List Byte)) (path : String) (hpath : path ≠ "") (hc : readFile (file path) = .ok c) (N : Nat)
    (hN : w.SamplesUpTo d N) (q : Nat) (hq : q + (c.partyCount.toNat - 1) * (c.dbSize.toNat * N) < 2 ^ 32)
    (row : Nat → Nat) (x : Protocol.Draws q c.partyCount.toNat) :
    ∃ v : Nat → List Obs, ∀ v', ConnectsAndSees (fun k => (k, 0)) (setup m c)
        (launch (w.withDraws row x) file path "all" c.partyCount.toNat q) (fun i => 1 ≤ i ∧ i < c.partyCount.toNat) v' ↔
      ∀ i, 1 ≤ i → i < c.partyCount.toNat → v' i = v i := by
  have hv := Chain.withDraws_valid (chain_valid hw h hN hq) row x
  refine ⟨fun i => (((chainOf w c d q).withDraws row x).obsAll true true i).map Obs.sealed, fun v' => ?_⟩
  rw [connects_launch hw h hS hr hn hpath hc hN hq, sees_launch hw h hS hpath hc hN hq, Chain.partiesSee_iff _ hv]
  exact ⟨fun e i h1 hi => (e i h1 hi).symm, fun e i h1 hi => (e i h1 hi).symm⟩

/-- **C71.** The same with 2 to 254 servers per party and as many clients, under the
conditions of C61: all servers of all parties before the backend together. -/
theorem C71_many_servers (w : World box) (hw : w.Sane) (c : Config) (d : Dist) (h : Usable w c d)
    (hS : 2 ≤ c.serverCount.toNat ∧ c.serverCount.toNat ≤ 254) (hrows : c.serverCount.toNat ≤ c.dbSize.toNat)
    (hshare : (c.serverCount.toNat - 1) * ((c.dbSize.toNat + c.serverCount.toNat - 1) / c.serverCount.toNat) ≤ c.dbSize.toNat)
    (file : String → Option (List Byte)) (path : String) (hpath : path ≠ "") (hc : readFile (file path) = .ok c) (N : Nat)
    (hN : w.SamplesUpTo d N) (q : Nat → Nat) (hs : w.sampling = false) (hall : ∃ q0, ∀ s < c.serverCount.toNat, q s = q0)
    (hq : ((List.range c.serverCount.toNat).map q).sum + (c.partyCount.toNat - 1) * (c.dbSize.toNat * N) < 2 ^ 32)
    (row row' : Nat → Nat → Nat) (v : Node → List Obs) :
    Nat.card {x : (s : Fin c.serverCount.toNat) → Protocol.Draws (q s) c.partyCount.toNat //
        Sees (launchMany (w.withAllDraws row x) file path "all" c.partyCount.toNat c.serverCount.toNat q)
          (fun i => 1 ≤ i.1 ∧ i.1 < c.partyCount.toNat ∧ i.2 < c.serverCount.toNat) v} =
      Nat.card {x : (s : Fin c.serverCount.toNat) → Protocol.Draws (q s) c.partyCount.toNat //
        Sees (launchMany (w.withAllDraws row' x) file path "all" c.partyCount.toNat c.serverCount.toNat q)
          (fun i => 1 ≤ i.1 ∧ i.1 < c.partyCount.toNat ∧ i.2 < c.serverCount.toNat) v} := by
  simp only [sees_launchMany hw h hS hrows hshare hpath hc hN hs hall hq]
  have hv := grid_valid hw h hN hS hrows hshare hq
  exact C59_parties_learn_nothing_parallel (gridOf w c d q) hv (Grid.distinct_even hv hall (grid_even hs q)) row row' v

private theorem connects_launchMany {w : World box} (hw : w.Sane) {c : Config} {d : Dist} (h : Usable w c d)
    (hS : 2 ≤ c.serverCount.toNat ∧ c.serverCount.toNat ≤ 254) (hrows : c.serverCount.toNat ≤ c.dbSize.toNat)
    (hshare : (c.serverCount.toNat - 1) * ((c.dbSize.toNat + c.serverCount.toNat - 1) / c.serverCount.toNat) ≤ c.dbSize.toNat)
    {m : Hosts H} (hr : m.Reaches c) (hn : m.NoClash c) {file : String → Option (List Byte)} {path : String} (hpath : path ≠ "")
    (hc : readFile (file path) = .ok c) {N : Nat} (hN : w.SamplesUpTo d N) {q : Nat → Nat}
    (hs : w.sampling = false) (hall : ∃ q0, ∀ s < c.serverCount.toNat, q s = q0)
    (hq : ((List.range c.serverCount.toNat).map q).sum + (c.partyCount.toNat - 1) * (c.dbSize.toNat * N) < 2 ^ 32)
    (row : Nat → Nat → Nat) (x : (s : Fin c.serverCount.toNat) → Protocol.Draws (q s) c.partyCount.toNat) (v : Node → List Obs) :
    ConnectsAndSees id (setup m c) (launchMany (w.withAllDraws row x) file path "all" c.partyCount.toNat c.serverCount.toNat q)
        (fun i => 1 ≤ i.1 ∧ i.1 < c.partyCount.toNat ∧ i.2 < c.serverCount.toNat) v ↔
      Sees (launchMany (w.withAllDraws row x) file path "all" c.partyCount.toNat c.serverCount.toNat q)
        (fun i => 1 ≤ i.1 ∧ i.1 < c.partyCount.toNat ∧ i.2 < c.serverCount.toNat) v := by
  have hk : Consistent c := ⟨h.parties.2, h.servers⟩
  have hP : 0 < c.partyCount.toNat := by have := h.parties.1; omega
  have hv := grid_valid hw h hN hS hrows hshare hq
  refine connects_and_sees (pl := planOf m c) (planOf_distinct m c (config_complete hk) hn) (plan_small c m) Function.injective_id
    (inv_start hP (fun i hi => setup_eq m c (config_complete hk) hP hr i hi) (fun i hi => setup_out m c i hi))
    (C61_many_servers _ (Sane.withAllDraws hw row x) c d (h.withAllDraws row x) hS hrows hshare file path "all" hpath (Or.inr rfl) hc N hN q
      (fun _ => ⟨hs, hall⟩) hq)
    (C62_many_servers _ (Sane.withAllDraws hw row x) c d (h.withAllDraws row x) hS hrows hshare m hr hn file path "all" hpath (Or.inr rfl) hc N hN q
      (fun _ => ⟨hs, hall⟩) hq) _ ?_ v
  intro v v' h1 h2 i hi
  rw [sees_launchMany hw h hS hrows hshare hpath hc hN hs hall hq] at h1 h2
  obtain ⟨v0, -, h3⟩ := C59_one_view_parallel (gridOf w c d q) hv (Grid.distinct_even hv hall (grid_even hs q)) row x
  rw [h3 v h1 i.1 i.2 hi.1 hi.2.1 hi.2.2, h3 v' h2 i.1 i.2 hi.1 hi.2.1 hi.2.2]

/-- **C71.** Several servers per party, connecting included. -/
theorem C71_many_servers_connecting (w : World box) (hw : w.Sane) (c : Config) (d : Dist) (h : Usable w c d)
    (hS : 2 ≤ c.serverCount.toNat ∧ c.serverCount.toNat ≤ 254) (hrows : c.serverCount.toNat ≤ c.dbSize.toNat)
    (hshare : (c.serverCount.toNat - 1) * ((c.dbSize.toNat + c.serverCount.toNat - 1) / c.serverCount.toNat) ≤ c.dbSize.toNat)
    (m : Hosts H) (hr : m.Reaches c) (hn : m.NoClash c)
    (file : String → Option (List Byte)) (path : String) (hpath : path ≠ "") (hc : readFile (file path) = .ok c) (N : Nat)
    (hN : w.SamplesUpTo d N) (q : Nat → Nat) (hs : w.sampling = false) (hall : ∃ q0, ∀ s < c.serverCount.toNat, q s = q0)
    (hq : ((List.range c.serverCount.toNat).map q).sum + (c.partyCount.toNat - 1) * (c.dbSize.toNat * N) < 2 ^ 32)
    (row row' : Nat → Nat → Nat) (v : Node → List Obs) :
    Nat.card {x : (s : Fin c.serverCount.toNat) → Protocol.Draws (q s) c.partyCount.toNat // ConnectsAndSees id (setup m c)
        (launchMany (w.withAllDraws row x) file path "all" c.partyCount.toNat c.serverCount.toNat q)
          (fun i => 1 ≤ i.1 ∧ i.1 < c.partyCount.toNat ∧ i.2 < c.serverCount.toNat) v} =
      Nat.card {x : (s : Fin c.serverCount.toNat) → Protocol.Draws (q s) c.partyCount.toNat // ConnectsAndSees id (setup m c)
        (launchMany (w.withAllDraws row' x) file path "all" c.partyCount.toNat c.serverCount.toNat q)
          (fun i => 1 ≤ i.1 ∧ i.1 < c.partyCount.toNat ∧ i.2 < c.serverCount.toNat) v} := by
  simp only [connects_launchMany hw h hS hrows hshare hr hn hpath hc hN hs hall hq]
  exact C71_many_servers w hw c d h hS hrows hshare file path hpath hc N hN q hs hall hq row row' v

/-- **C71.** Several servers per party: they see something, and the same in all complete
runs. -/
theorem C71_one_view_many (w : World box) (hw : w.Sane) (c : Config) (d : Dist) (h : Usable w c d)
    (hS : 2 ≤ c.serverCount.toNat ∧ c.serverCount.toNat ≤ 254) (hrows : c.serverCount.toNat ≤ c.dbSize.toNat)
    (hshare : (c.serverCount.toNat - 1) * ((c.dbSize.toNat + c.serverCount.toNat - 1) / c.serverCount.toNat) ≤ c.dbSize.toNat)
    (m : Hosts H) (hr : m.Reaches c) (hn : m.NoClash c)
    (file : String → Option (List Byte)) (path : String) (hpath : path ≠ "") (hc : readFile (file path) = .ok c) (N : Nat)
    (hN : w.SamplesUpTo d N) (q : Nat → Nat) (hs : w.sampling = false) (hall : ∃ q0, ∀ s < c.serverCount.toNat, q s = q0)
    (hq : ((List.range c.serverCount.toNat).map q).sum + (c.partyCount.toNat - 1) * (c.dbSize.toNat * N) < 2 ^ 32)
    (row : Nat → Nat → Nat) (x : (s : Fin c.serverCount.toNat) → Protocol.Draws (q s) c.partyCount.toNat) :
    ∃ v : Node → List Obs, ∀ v', ConnectsAndSees id (setup m c)
        (launchMany (w.withAllDraws row x) file path "all" c.partyCount.toNat c.serverCount.toNat q)
          (fun i => 1 ≤ i.1 ∧ i.1 < c.partyCount.toNat ∧ i.2 < c.serverCount.toNat) v' ↔
      ∀ i s, 1 ≤ i → i < c.partyCount.toNat → s < c.serverCount.toNat → v' (i, s) = v (i, s) := by
  have hv := grid_valid hw h hN hS hrows hshare hq
  have hd := Grid.distinct_even hv hall (grid_even hs q)
  refine ⟨fun i => (((gridOf w c d q).withDraws row x).obsAll true true i.1 i.2).map Obs.sealed, fun v' => ?_⟩
  rw [connects_launchMany hw h hS hrows hshare hr hn hpath hc hN hs hall hq, sees_launchMany hw h hS hrows hshare hpath hc hN hs hall hq,
    Grid.partiesSee_iff _ (Grid.withDraws_valid (gridOf w c d q) row x hv) (Grid.withDraws_distinct (gridOf w c d q) row x hd)]
  exact ⟨fun e i s h1 hi hs => (e i s h1 hi hs).symm, fun e i s h1 hi hs => (e i s h1 hi hs).symm⟩

/-! ### Examples -/

namespace Example

/-- A bound on the samples of the deployment of C63. -/
theorem private_samples (S : Nat) (hS : S = 1 ∨ S = 2) : ∃ d N, Usable (privateWorld false) (privateConfig S) d ∧
    (privateWorld false).SamplesUpTo d N ∧ N ≤ 2 ∧ readFile (some (privateFile S)) = .ok (privateConfig S) ∧
    (privateConfig S).partyCount.toNat = 3 ∧ (privateConfig S).serverCount.toNat = S ∧ (privateConfig S).dbSize.toNat = 5 ∧
    oneMachine.NoClash (privateConfig S) := by
  obtain ⟨d, y, hu, hy, hy2, hf, e1, e2, e3, b1, b2, hy1, hn⟩ := private_ok false S hS
  have hrep : Representable truncOps d.cutoff := by
    have hd := hu.noise
    unfold World.distribution at hd
    rw [b1, b2] at hd
    obtain ⟨b, c, rfl, -, -, -, -, -, h6, -⟩ := accepted_rounded trunc_dist.1 (by norm_num) two_le (by norm_num) (by norm_num) hd
    exact h6
  obtain ⟨y', hy', hN⟩ := C61_samples (privateWorld false) (sound_of_double trunc_dist.1) (privateConfig S) d hu.noise hrep
  have e : y = y' := Dbl.fin.inj (hy.symm.trans hy')
  subst e
  exact ⟨d, _, hu, hN, hy2, hf, e1, e2, e3, hn⟩

/-- Ten queries for row 1 or for ten different rows: the first two parties together see
the same. -/
example (v : Nat → List Obs) :
    Nat.card {x : Protocol.Draws 10 3 // ConnectsAndSees (fun k => (k, 0)) (setup oneMachine (privateConfig 1))
        (launch ((privateWorld false).withDraws (fun _ => 1) x) (fun _ => some (privateFile 1)) "f" "all" 3 10) (fun i => 1 ≤ i ∧ i < 3) v} =
      Nat.card {x : Protocol.Draws 10 3 // ConnectsAndSees (fun k => (k, 0)) (setup oneMachine (privateConfig 1))
        (launch ((privateWorld false).withDraws id x) (fun _ => some (privateFile 1)) "f" "all" 3 10) (fun i => 1 ≤ i ∧ i < 3) v} := by
  obtain ⟨d, N, hu, hN, hN2, hf, e1, e2, e3, hn⟩ := private_samples 1 (Or.inl rfl)
  have := C71_one_server_connecting (privateWorld false) (privateWorld_sane false) (privateConfig 1) d hu e2 oneMachine (oneMachine_reaches _) hn
    (fun _ => some (privateFile 1)) "f" (by decide) hf N hN 10 (by rw [e1, e3]; omega) (fun _ => 1) id v
  rw [e1] at this
  exact this

/-- Two servers per party and ten queries at each: the four servers before the backend
together see something, and always the same. -/
example (row : Nat → Nat → Nat) (x : (s : Fin (privateConfig 2).serverCount.toNat) → Protocol.Draws 10 (privateConfig 2).partyCount.toNat) :
    ∃ v : Node → List Obs, ∀ v', ConnectsAndSees id (setup oneMachine (privateConfig 2))
        (launchMany ((privateWorld false).withAllDraws (count := fun _ => 10) row x) (fun _ => some (privateFile 2)) "f" "all"
          (privateConfig 2).partyCount.toNat (privateConfig 2).serverCount.toNat (fun _ => 10))
          (fun i => 1 ≤ i.1 ∧ i.1 < (privateConfig 2).partyCount.toNat ∧ i.2 < (privateConfig 2).serverCount.toNat) v' ↔
      ∀ i s, 1 ≤ i → i < 3 → s < 2 → v' (i, s) = v (i, s) := by
  obtain ⟨d, N, hu, hN, hN2, hf, e1, e2, e3, hn⟩ := private_samples 2 (Or.inr rfl)
  obtain ⟨v, hv⟩ := C71_one_view_many (privateWorld false) (privateWorld_sane false) (privateConfig 2) d hu (by omega) (by omega)
    (by rw [e2, e3]; norm_num) oneMachine (oneMachine_reaches _) hn (fun _ => some (privateFile 2)) "f" (by decide) hf N hN (fun _ => 10) rfl
    ⟨10, fun _ _ => rfl⟩ (by rw [e1, e2, e3]; simp [List.range_succ]; omega) row x
  refine ⟨v, fun v' => (hv v').trans ?_⟩
  rw [e1, e2]

end Example

end DPPIR.Props
