import Verif.Proofs.Generator
import Verif.Props.StartPrivate

/-!
# C72: where the noise comes from
-/

namespace DPPIR.Props
open DPPIR.Config DPPIR.Connect DPPIR.Noise DPPIR.Protocol DPPIR.Onion DPPIR.Main DPPIR.Joint

variable {box : SealedBox} {H : Type} [DecidableEq H]

/-- **C72**, what holds: with a generator in every process, a process behaves as if its
noise came from the numbers that `rand()` returns after `srand(1)`, and its shuffles from
those after `srand` with the seeds of the configuration.  Whatever the flags and the file,
if the samples of the noise are numbers. -/
theorem C72_one_process_partial {ι : Type} (w : World box) (node : Nat → Nat → ι) (file : String → Option (List Byte)) (f : Flags) (N : Nat)
    (hN : N < 2 ^ 32) (hs : ∀ c d, readFile (file f.config) = .ok c → w.distribution c = .ok d → w.unseeded.SamplesUpTo d N) :
    w.runG node file f = w.unseeded.run node file f := runG_eq w node file f hN hs

/-- **C72**, what holds: one server per party, with the generator in every process.  The
client gets its rows. -/
theorem C72_one_server_partial (w : World box) (hw : w.Sane) (c : Config) (d : Dist) (h : Usable w c d) (hS : c.serverCount.toNat = 1)
    (file : String → Option (List Byte)) (path stage : String) (hpath : path ≠ "") (hst : stage = "online" ∨ stage = "all")
    (hc : readFile (file path) = .ok c) (N : Nat) (hN : w.unseeded.SamplesUpTo d N) (q : Nat)
    (hq : q + (c.partyCount.toNat - 1) * (c.dbSize.toNat * N) < 2 ^ 32) :
    Answers (launchGen w file path stage c.partyCount.toNat q) (fun a b => Linked c.partyCount.toNat 1 (a, 0) (b, 0)) 1 1 (fun _ => 0) (fun _ => q)
      c.dbSize.toNat (fun _ j => (w.clientRand 0).row j % c.dbSize.toNat) := by
  rw [launchGen_eq h (lt_of_fits h.parties.1 h.rows.1 hq) hN hc]
  exact C61_one_server w.unseeded (unseeded_sane hw) c d (unseeded_usable h) hS file path stage hpath hst hc N hN q hq

/-- **C72**, what holds: the same with 2 to 254 servers per party. -/
theorem C72_many_servers_partial (w : World box) (hw : w.Sane) (c : Config) (d : Dist) (h : Usable w c d)
    (hS : 2 ≤ c.serverCount.toNat ∧ c.serverCount.toNat ≤ 254) (hrows : c.serverCount.toNat ≤ c.dbSize.toNat)
    (hshare : (c.serverCount.toNat - 1) * ((c.dbSize.toNat + c.serverCount.toNat - 1) / c.serverCount.toNat) ≤ c.dbSize.toNat)
    (file : String → Option (List Byte)) (path stage : String) (hpath : path ≠ "") (hst : stage = "online" ∨ stage = "all")
    (hc : readFile (file path) = .ok c) (N : Nat) (hN : w.unseeded.SamplesUpTo d N) (q : Nat → Nat)
    (hall : stage = "all" → w.sampling = false ∧ ∃ q0, ∀ s < c.serverCount.toNat, q s = q0)
    (hq : ((List.range c.serverCount.toNat).map q).sum + (c.partyCount.toNat - 1) * (c.dbSize.toNat * N) < 2 ^ 32) :
    Answers (launchManyGen w file path stage c.partyCount.toNat c.serverCount.toNat q) (Linked c.partyCount.toNat c.serverCount.toNat)
      (4 + 124 * c.partyCount.toNat *
        (((List.range c.serverCount.toNat).map q).sum + (c.partyCount.toNat - 1) * (c.dbSize.toNat * N)))
      c.serverCount.toNat (fun s => (0, s)) q c.dbSize.toNat (fun s j => (w.clientRand s).row j % c.dbSize.toNat) := by
  rw [launchManyGen_eq h (lt_of_fits h.parties.1 h.rows.1 hq) hN hc]
  exact C61_many_servers w.unseeded (unseeded_sane hw) c d (unseeded_usable h) hS hrows hshare file path stage hpath hst hc N hN q hall hq

/-- **C72** is false of the code: no process calls `srand` before it samples its noise, so
all parties sample the same noise, in every run.  With `σ i` the sample that the C library
yields for the `i`-th row after `srand(1)`, in every complete run of every deployment each
row is looked up as often as it was asked for, plus `P - 1` times `σ`. -/
theorem C72_violated_one_server (w : World box) (hw : w.Sane) (hs : w.sampling = true) (c : Config) (d : Dist) (h : Usable w c d)
    (hS : c.serverCount.toNat = 1) (file : String → Option (List Byte)) (path stage : String) (hpath : path ≠ "")
    (hst : stage = "online" ∨ stage = "all") (hc : readFile (file path) = .ok c) (σ : Nat → Nat) (hσ : w.FirstSamples d σ) (N : Nat)
    (hN : ∀ i, σ i ≤ N) (q : Nat) (hq : q + (c.partyCount.toNat - 1) * (c.dbSize.toNat * N) < 2 ^ 32) (x : Fin c.dbSize.toNat → Nat)
    (hx : LooksUp (launchGen w file path stage c.partyCount.toNat q) [c.partyCount.toNat] x) (key : Fin c.dbSize.toNat) :
    x key = ((List.range q).map (fun j => (w.clientRand 0).row j % c.dbSize.toNat)).count key.val + (c.partyCount.toNat - 1) * σ key := by
  have hN32 := lt_of_fits h.parties.1 h.rows.1 hq
  have hsN : w.unseeded.SamplesUpTo d N := fun k s i => ⟨σ i, hN i, samples_of_first hs hσ k s i⟩
  have hv := chain_valid (unseeded_sane hw) (unseeded_usable h) hsN hq
  rw [launchGen_eq h hN32 hsN hc, launch_eq _ c d (unseeded_usable h) hsN hS file path stage hpath hst hc q (by omega)] at hx
  have := congrFun (counts_total _ hv _ x (looksUp_counts hv _ hx)) key
  refine this.trans ?_
  have e1 : ∀ party, (((chainOf w.unseeded c d q).partyRand party).sample key).toNat = σ key := by
    intro party
    show (BitVec.ofNat 32 ((w.unseeded.sample d party 0 key).toOption.getD 0)).toNat = _
    rw [samples_of_first hs hσ]
    simp only [Except.toOption, Option.getD_some, BitVec.toNat_ofNat]
    exact Nat.mod_eq_of_lt (lt_of_le_of_lt (hN _) hN32)
  have e2 : askedFor (chainOf w.unseeded c d q) key = ((List.range q).map (fun j => (w.clientRand 0).row j % c.dbSize.toNat)).count key.val := by
    unfold askedFor
    congr 1
    refine List.map_congr_left fun j _ => ?_
    unfold Chain.wanted
    show (if c.dbSize.toNat < 2 then 0 else (w.clientRand 0).row j % c.dbSize.toNat) = _
    split
    · have := h.rows.1
      rw [show c.dbSize.toNat = 1 by omega, Nat.mod_one]
    · rfl
  rw [e2]
  simp only [e1, List.map_const', List.length_range, List.sum_replicate, smul_eq_mul]
  rfl

/-- **C72** is false of the code with several servers per party as well.  The servers of a
party sample the same noise, too: the noise of a row is that of the row as many rows later
as a server is responsible for. -/
theorem C72_violated_many_servers (w : World box) (hw : w.Sane) (hs : w.sampling = true) (c : Config) (d : Dist) (h : Usable w c d)
    (hS : 2 ≤ c.serverCount.toNat ∧ c.serverCount.toNat ≤ 254) (hrows : c.serverCount.toNat ≤ c.dbSize.toNat)
    (hshare : (c.serverCount.toNat - 1) * ((c.dbSize.toNat + c.serverCount.toNat - 1) / c.serverCount.toNat) ≤ c.dbSize.toNat)
    (file : String → Option (List Byte)) (path : String) (hpath : path ≠ "") (hc : readFile (file path) = .ok c) (σ : Nat → Nat)
    (hσ : w.FirstSamples d σ) (N : Nat) (hN : ∀ i, σ i ≤ N) (q : Nat → Nat)
    (hq : ((List.range c.serverCount.toNat).map q).sum + (c.partyCount.toNat - 1) * (c.dbSize.toNat * N) < 2 ^ 32)
    (x : Fin c.dbSize.toNat → Nat)
    (hx : LooksUp (launchManyGen w file path "online" c.partyCount.toNat c.serverCount.toNat q)
      ((List.range c.serverCount.toNat).map (fun s => (c.partyCount.toNat, s))) x) (key : Fin c.dbSize.toNat) :
    x key = ((List.range c.serverCount.toNat).map
        (fun s => ((List.range (q s)).map (fun j => (w.clientRand s).row j % c.dbSize.toNat)).count key.val)).sum +
      (c.partyCount.toNat - 1) * σ (key % ((c.dbSize.toNat + c.serverCount.toNat - 1) / c.serverCount.toNat)) := by
  have hN32 := lt_of_fits h.parties.1 h.rows.1 hq
  have hsN : w.unseeded.SamplesUpTo d N := fun k s i => ⟨σ i, hN i, samples_of_first hs hσ k s i⟩
  have hv := grid_valid (unseeded_sane hw) (unseeded_usable h) hsN hS hrows hshare hq
  have hqs : ∀ s < c.serverCount.toNat, q s < 2 ^ 32 := fun s hs => by
    have : q s ≤ ((List.range c.serverCount.toNat).map q).sum := le_preSum hs
    omega
  rw [launchManyGen_eq h hN32 hsN hc, launchMany_eq _ c d (unseeded_usable h) hsN (by omega) file path "online" hpath (Or.inl rfl) hc q hqs] at hx
  have hd : ("online" == "all") = true → (gridOf w.unseeded c d q).DistinctTags := fun e => absurd e (by decide)
  have := congrFun (Grid.counts_total _ hv _ hd x (looksUp_counts_many hv _ hd hx)) key
  refine this.trans ?_
  obtain ⟨share, hsh⟩ : ∃ share, (c.dbSize.toNat + c.serverCount.toNat - 1) / c.serverCount.toNat = share := ⟨_, rfl⟩
  have e1 : ∀ party, (gridOf w.unseeded c d q).noiseFor party key = σ (key % share) := by
    intro party
    have e : ∀ s i, (((gridOf w.unseeded c d q).partyRand party s).sample i).toNat = σ i := by
      intro s i
      show (BitVec.ofNat 32 ((w.unseeded.sample d party s i).toOption.getD 0)).toNat = _
      rw [samples_of_first hs hσ]
      simp only [Except.toOption, Option.getD_some, BitVec.toNat_ofNat]
      exact Nat.mod_eq_of_lt (lt_of_le_of_lt (hN _) hN32)
    unfold Grid.noiseFor
    simp only [e]
    have e3 := Grid.rows_of_shares (gridOf w.unseeded c d q) (fun x => List.replicate (σ (x % share)) x) c.serverCount.toNat (Nat.le_refl _)
    have e4 : preSum (gridOf w.unseeded c d q).width c.serverCount.toNat = c.dbSize.toNat := Grid.width_sum hv
    rw [e4] at e3
    have e5 : (List.range c.serverCount.toNat).flatMap (fun s => (List.range ((gridOf w.unseeded c d q).width s)).flatMap
          (fun i => List.replicate (σ i) ((gridOf w.unseeded c d q).first s + i))) =
        (List.range c.serverCount.toNat).flatMap (fun s => (List.range ((gridOf w.unseeded c d q).width s)).flatMap
          (fun i => List.replicate (σ (((gridOf w.unseeded c d q).first s + i) % share)) ((gridOf w.unseeded c d q).first s + i))) := by
      refine List.flatMap_congr fun s hs => List.flatMap_congr fun i hi => ?_
      have hs' := List.mem_range.1 hs
      have hi' := List.mem_range.1 hi
      have hf : (gridOf w.unseeded c d q).first s = s * share := by rw [← hsh]; rfl
      have hlt : i < share := by
        refine lt_of_lt_of_le hi' ?_
        unfold Grid.width
        split
        · rename_i hlast
          have hlast' : s + 1 = c.serverCount.toNat := hlast
          show c.dbSize.toNat - (gridOf w.unseeded c d q).first s ≤ share
          rw [hf]
          have h1 : c.dbSize.toNat ≤ c.serverCount.toNat * share := by
            rw [← hsh]
            have h2 := Nat.div_add_mod (c.dbSize.toNat + c.serverCount.toNat - 1) c.serverCount.toNat
            have h3 := Nat.mod_lt (c.dbSize.toNat + c.serverCount.toNat - 1) (show c.serverCount.toNat > 0 by omega)
            omega
          rw [← hlast', Nat.succ_mul] at h1
          omega
        · exact le_of_eq hsh
      rw [hf, Nat.mul_comm s share, Nat.mul_add_mod, Nat.mod_eq_of_lt hlt]
    refine (congrArg (List.count key.val) (e5.trans e3)).trans ?_
    rw [count_blocks c.dbSize.toNat (fun x => σ (x % share)) key]
  have e2 : (gridOf w.unseeded c d q).askedFor key = ((List.range c.serverCount.toNat).map
      (fun s => ((List.range (q s)).map (fun j => (w.clientRand s).row j % c.dbSize.toNat)).count key.val)).sum := by
    unfold Grid.askedFor
    congr 1
    refine List.map_congr_left fun s _ => ?_
    congr 1
    refine List.map_congr_left fun j _ => ?_
    unfold Grid.wanted
    show (if c.dbSize.toNat < 2 then 0 else (w.clientRand s).row j % c.dbSize.toNat) = _
    split
    · have := h.rows.1
      rw [show c.dbSize.toNat = 1 by omega, Nat.mod_one]
    · rfl
  rw [e2, hsh]
  simp only [e1, List.map_const', List.length_range, List.sum_replicate, smul_eq_mul]
  rfl

/-- **C72** is false of the code, seen by the backend: two runs of two deployments of the
same configuration on the same machines, whatever else differs, have the same numbers of
look-ups if and only if the clients asked for every row equally often. -/
theorem C72_violated_reveals (w w' : World box) (hm : w.SameMachines w') (hw : w.Sane) (hw' : w'.Sane) (hs : w.sampling = true) (c : Config)
    (d : Dist) (h : Usable w c d) (hS : c.serverCount.toNat = 1) (file : String → Option (List Byte)) (path stage : String) (hpath : path ≠ "")
    (hst : stage = "online" ∨ stage = "all") (hc : readFile (file path) = .ok c) (σ : Nat → Nat) (hσ : w.FirstSamples d σ) (N : Nat)
    (hN : ∀ i, σ i ≤ N) (q : Nat) (hq : q + (c.partyCount.toNat - 1) * (c.dbSize.toNat * N) < 2 ^ 32) (x x' : Fin c.dbSize.toNat → Nat)
    (hx : LooksUp (launchGen w file path stage c.partyCount.toNat q) [c.partyCount.toNat] x)
    (hx' : LooksUp (launchGen w' file path stage c.partyCount.toNat q) [c.partyCount.toNat] x') :
    x = x' ↔ ∀ key < c.dbSize.toNat, ((List.range q).map (fun j => (w.clientRand 0).row j % c.dbSize.toNat)).count key =
      ((List.range q).map (fun j => (w'.clientRand 0).row j % c.dbSize.toNat)).count key := by
  have hu : Usable w' c d := by
    refine ⟨h.parties, h.servers, h.rows, fun p hp => ?_, ?_⟩
    · rw [hm.pkey, hm.skey]; exact h.pairs p hp
    · have := h.noise
      unfold World.distribution at this ⊢
      rw [hm.arith]; exact this
  have hσ' : w'.FirstSamples d σ := by
    intro i
    rw [hm.arith, hm.rand]; exact hσ i
  have e := C72_violated_one_server w hw hs c d h hS file path stage hpath hst hc σ hσ N hN q hq x hx
  have e' := C72_violated_one_server w' hw' (hm.sampling.trans hs) c d hu hS file path stage hpath hst hc σ hσ' N hN q hq x' hx'
  constructor
  · intro hxx key hk
    have h1 := e ⟨key, hk⟩
    have h2 := e' ⟨key, hk⟩
    rw [hxx, h2] at h1
    exact (Nat.add_right_cancel h1).symm
  · intro hk
    funext key
    rw [e key, e' key, hk key key.isLt]

/-- **C72** is false of the code, connecting included: one server per party. -/
theorem C72_violated_one_server_connecting (w : World box) (hw : w.Sane) (hs : w.sampling = true) (c : Config) (d : Dist) (h : Usable w c d)
    (hS : c.serverCount.toNat = 1) (m : Hosts H) (hreach : m.Reaches c) (hn : m.NoClash c)
    (file : String → Option (List Byte)) (path stage : String) (hpath : path ≠ "")
    (hst : stage = "online" ∨ stage = "all") (hc : readFile (file path) = .ok c) (σ : Nat → Nat) (hσ : w.FirstSamples d σ) (N : Nat)
    (hN : ∀ i, σ i ≤ N) (q : Nat) (hq : q + (c.partyCount.toNat - 1) * (c.dbSize.toNat * N) < 2 ^ 32) :
    (∃ x : Fin c.dbSize.toNat → Nat, ConnectsAndLooksUp (fun k => (k, 0)) (setup m c)
      (launchGen w file path stage c.partyCount.toNat q) [c.partyCount.toNat] x) ∧
    ∀ x : Fin c.dbSize.toNat → Nat, ConnectsAndLooksUp (fun k => (k, 0)) (setup m c)
        (launchGen w file path stage c.partyCount.toNat q) [c.partyCount.toNat] x →
      x = fun key : Fin c.dbSize.toNat => ((List.range q).map (fun j => (w.clientRand 0).row j % c.dbSize.toNat)).count key.val + (c.partyCount.toNat - 1) * σ key := by
  have hsN : w.unseeded.SamplesUpTo d N := fun k s i => ⟨σ i, hN i, samples_of_first hs hσ k s i⟩
  have key := C63_connecting m c ⟨h.parties.2, h.servers⟩ (by have := h.parties.1; omega) hreach hn (fun k => (k, 0))
    (fun a b e => (Prod.mk.inj e).1) _ _ _ _ _ _ _
    (by rw [hS]; exact C72_one_server_partial w hw c d h hS file path stage hpath hst hc N hsN q hq) [c.partyCount.toNat] c.dbSize.toNat
  exact ⟨key.2, fun x hx => funext fun k =>
    C72_violated_one_server w hw hs c d h hS file path stage hpath hst hc σ hσ N hN q hq x (key.1 x hx) k⟩

/-- The samples of every configuration that the constructor accepts are numbers. -/
theorem first_samples (w : World box) (hs : w.sampling = true) (hA : SoundRounding w.arith) (c : Config) (d : Dist) (hd : w.distribution c = .ok d)
    (hrep : Representable w.arith d.cutoff) : ∃ (x : ℝ) (σ : Nat → Nat), d.cutoff = .fin x ∧ w.FirstSamples d σ ∧ ∀ i, σ i ≤ ⌊2 * x⌋.toNat := by
  obtain ⟨x, h1, h2⟩ := C61_samples w.unseeded hA c d hd hrep
  choose σ h3 h4 using h2 0 0
  refine ⟨x, σ, h1, fun i => ?_, h3⟩
  have := h4 i
  unfold World.sample at this
  rw [if_pos (show w.unseeded.sampling = true from hs)] at this
  exact this

/-! ### Examples -/

namespace Example

/-- Three parties, five rows, ten queries: the look-ups tell which rows were asked for. -/
example : ∃ (d : Dist) (σ : Nat → Nat), (privateWorld true).FirstSamples d σ ∧ (∀ i, σ i ≤ 2) ∧
    (∃ x : Fin (privateConfig 1).dbSize.toNat → Nat, ConnectsAndLooksUp (fun k => (k, 0)) (setup oneMachine (privateConfig 1))
      (launchGen (privateWorld true) (fun _ => some (privateFile 1)) "f" "all" (privateConfig 1).partyCount.toNat 10)
        [(privateConfig 1).partyCount.toNat] x) ∧
    ∀ x : Fin (privateConfig 1).dbSize.toNat → Nat, ConnectsAndLooksUp (fun k => (k, 0)) (setup oneMachine (privateConfig 1))
        (launchGen (privateWorld true) (fun _ => some (privateFile 1)) "f" "all" (privateConfig 1).partyCount.toNat 10)
          [(privateConfig 1).partyCount.toNat] x →
      x = fun key : Fin (privateConfig 1).dbSize.toNat => ((List.range 10).map (fun j => ((privateWorld true).clientRand 0).row j % (privateConfig 1).dbSize.toNat)).count key.val +
        ((privateConfig 1).partyCount.toNat - 1) * σ key := by
  obtain ⟨d, y, hu, hy, hy2, hf, e1, e2, e3, b1, b2, hy1, hn⟩ := private_ok true 1 (Or.inl rfl)
  have hrep : Representable truncOps d.cutoff := by
    have hd := hu.noise
    unfold World.distribution at hd
    rw [b1, b2] at hd
    obtain ⟨b, c, rfl, -, -, -, -, -, h6, -⟩ := accepted_rounded trunc_dist.1 (by norm_num) two_le (by norm_num) (by norm_num) hd
    exact h6
  obtain ⟨y', σ, hy', hσ, hN⟩ := first_samples (privateWorld true) rfl (sound_of_double trunc_dist.1) (privateConfig 1) d hu.noise hrep
  have e : y = y' := Dbl.fin.inj (hy.symm.trans hy')
  have hN' : ∀ i, σ i ≤ 2 := fun i => (hN i).trans (by rw [← e]; exact hy2)
  exact ⟨d, σ, hσ, hN', C72_violated_one_server_connecting (privateWorld true) (privateWorld_sane true) rfl (privateConfig 1) d hu e2 oneMachine
    (oneMachine_reaches _) hn (fun _ => some (privateFile 1)) "f" "all" (by decide) (Or.inr rfl) hf σ hσ 2 hN' 10 (by rw [e1, e3]; omega)⟩

/-- Two servers per party: the fourth row has the noise of the first. -/
example : ∃ (d : Dist) (σ : Nat → Nat), (privateWorld true).FirstSamples d σ ∧
    (∃ x : Fin (privateConfig 2).dbSize.toNat → Nat, LooksUp (launchManyGen (privateWorld true) (fun _ => some (privateFile 2)) "f" "online"
      (privateConfig 2).partyCount.toNat (privateConfig 2).serverCount.toNat (fun _ => 10))
      ((List.range (privateConfig 2).serverCount.toNat).map (fun s => ((privateConfig 2).partyCount.toNat, s))) x) ∧
    ∀ x : Fin (privateConfig 2).dbSize.toNat → Nat, LooksUp (launchManyGen (privateWorld true) (fun _ => some (privateFile 2)) "f" "online"
      (privateConfig 2).partyCount.toNat (privateConfig 2).serverCount.toNat (fun _ => 10))
      ((List.range (privateConfig 2).serverCount.toNat).map (fun s => ((privateConfig 2).partyCount.toNat, s))) x →
      ∀ key, x key = ((List.range 2).map
        (fun s => ((List.range 10).map (fun j => ((privateWorld true).clientRand s).row j % 5)).count key.val)).sum + 2 * σ (key % 3) := by
  obtain ⟨d, y, hu, hy, hy2, hf, e1, e2, e3, b1, b2, hy1, hn⟩ := private_ok true 2 (Or.inr rfl)
  have hrep : Representable truncOps d.cutoff := by
    have hd := hu.noise
    unfold World.distribution at hd
    rw [b1, b2] at hd
    obtain ⟨b, c, rfl, -, -, -, -, -, h6, -⟩ := accepted_rounded trunc_dist.1 (by norm_num) two_le (by norm_num) (by norm_num) hd
    exact h6
  obtain ⟨y', σ, hy', hσ, hN⟩ := first_samples (privateWorld true) rfl (sound_of_double trunc_dist.1) (privateConfig 2) d hu.noise hrep
  have e : y = y' := Dbl.fin.inj (hy.symm.trans hy')
  have hN' : ∀ i, σ i ≤ 2 := fun i => (hN i).trans (by rw [← e]; exact hy2)
  have hq : ((List.range (privateConfig 2).serverCount.toNat).map (fun _ => 10)).sum +
      ((privateConfig 2).partyCount.toNat - 1) * ((privateConfig 2).dbSize.toNat * 2) < 2 ^ 32 := by
    rw [e1, e2, e3]; simp [List.range_succ]
  have hshare : ((privateConfig 2).serverCount.toNat - 1) * (((privateConfig 2).dbSize.toNat + (privateConfig 2).serverCount.toNat - 1) /
      (privateConfig 2).serverCount.toNat) ≤ (privateConfig 2).dbSize.toNat := by rw [e2, e3]; norm_num
  refine ⟨d, σ, hσ, complete_of_answers (C72_many_servers_partial (privateWorld true) (privateWorld_sane true) (privateConfig 2) d hu (by omega)
    (by omega) hshare (fun _ => some (privateFile 2)) "f" "online" (by decide) (Or.inl rfl) hf 2
    (fun k s i => ⟨σ i, hN' i, samples_of_first rfl hσ k s i⟩) (fun _ => 10) (fun e => absurd e (by decide)) hq) _ _, fun x hx key => ?_⟩
  have := C72_violated_many_servers (privateWorld true) (privateWorld_sane true) rfl (privateConfig 2) d hu (by omega) (by omega) hshare
    (fun _ => some (privateFile 2)) "f" (by decide) hf σ hσ 2 hN' (fun _ => 10) hq x hx key
  generalize x key = y at this ⊢
  generalize key.val = v at this ⊢
  rw [e1, e2, e3] at this
  exact this

end Example

end DPPIR.Props
