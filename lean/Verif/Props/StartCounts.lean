import Verif.Proofs.StartCounts
import Verif.Props.StartCausal

/-!
# C39 and C52 for deployments started from the command line
-/

namespace DPPIR.Props
open DPPIR.Config DPPIR.Connect DPPIR.Noise DPPIR.Protocol DPPIR.Onion DPPIR.Main DPPIR.Joint DPPIR.Spec

variable {box : SealedBox} {H : Type} [DecidableEq H]

theorem sample_toNat {w : World box} {d : Dist} {N k s i n : Nat} (hN : w.SamplesUpTo d N) (hlt : N < 2 ^ 32)
    (h : w.sample d k s i = .ok n) : ((w.choices d k s).sample i).toNat = n := by
  obtain ⟨n', h1, h2⟩ := hN k s i
  obtain rfl := Except.ok.inj (h2.symm.trans h)
  simp only [World.choices, h2, Except.toOption, Option.getD_some, BitVec.toNat_ofNat]
  exact Nat.mod_eq_of_lt (by omega)

theorem samples_small {P R N x : Nat} (hP : 2 ≤ P) (hR : 1 ≤ R) (h : x + (P - 1) * (R * N) < 2 ^ 32) : N < 2 ^ 32 := by
  have h1 : 1 * (1 * N) ≤ (P - 1) * (R * N) := Nat.mul_le_mul (by omega) (Nat.mul_le_mul_right _ hR)
  omega

/-- What a server samples for the `i`-th row of its share. -/
theorem shares_sample {w : World box} {c : Config} {d : Dist} (h : Usable w c d) {N : Nat} (hN : w.SamplesUpTo d N) (hN2 : N < 2 ^ 32)
    {q : Nat → Nat} (hS : 2 ≤ c.serverCount.toNat) {share : Nat} (hsh : share = (c.dbSize.toNat + c.serverCount.toNat - 1) / c.serverCount.toNat)
    {noise : Nat → Nat → Nat} (hnoise : ∀ k r, w.sample d k (r / share) (r % share) = .ok (noise k r))
    {k s i : Nat} (hs : s < (gridOf w c d q).servers) (hi : i < (gridOf w c d q).width s) :
    (((gridOf w c d q).partyRand k s).sample i).toNat = noise k ((gridOf w c d q).first s + i) := by
  have hlt : i < share := by
    change s < c.serverCount.toNat at hs
    have hsh' : (gridOf w c d q).share = share := hsh.symm
    unfold Grid.width Grid.first at hi
    rw [hsh'] at hi
    split at hi
    · rename_i e
      change s + 1 = c.serverCount.toNat at e
      change i < c.dbSize.toNat - s * share at hi
      have h2 : c.dbSize.toNat ≤ c.serverCount.toNat * share := by
        have := Nat.lt_div_mul_add (a := c.dbSize.toNat + c.serverCount.toNat - 1) (b := c.serverCount.toNat) (by omega)
        rw [← hsh, Nat.mul_comm] at this
        omega
      rw [← e, Nat.add_mul] at h2
      omega
    · exact hi
  refine sample_toNat hN hN2 ?_
  have := hnoise k (s * share + i)
  rw [Nat.mul_comm s share, Nat.mul_add_div (by omega), Nat.mul_add_mod, Nat.div_eq_of_lt hlt, Nat.mod_eq_of_lt hlt, Nat.add_zero] at this
  rw [this, Nat.mul_comm share s, hsh]
  rfl

/-- **C39.** One server per party, started from the command line with a usable
configuration file, in any order, setting up the connections first or not; `noise k r` is
what party `k` samples for row `r`.  At every moment the backend has looked up only rows of
the database, each at most as often as the client asks for it plus the noise of all parties
for it, and exactly as often once the client has a result. -/
theorem C39_one_server (w : World box) (hw : w.Sane) (c : Config) (d : Dist) (h : Usable w c d) (hS : c.serverCount.toNat = 1)
    (m : Hosts H) (hr : m.Reaches c) (hn : m.NoClash c)
    (file : String → Option (List Byte)) (path stage : String) (hpath : path ≠ "") (hst : stage = "online" ∨ stage = "all")
    (hc : readFile (file path) = .ok c) (N : Nat) (hN : w.SamplesUpTo d N) (q : Nat)
    (hq : q + (c.partyCount.toNat - 1) * (c.dbSize.toNat * N) < 2 ^ 32)
    (noise : Nat → Nat → Nat) (hnoise : ∀ k r, w.sample d k 0 r = .ok (noise k r)) (seen later : Nat → List Obs)
    (hm : Moments (launch w file path stage c.partyCount.toNat q) seen later ∨
      ConnectingMoments (fun k => (k, 0)) (setup m c) (launch w file path stage c.partyCount.toNat q) seen later) :
    ExactNoise c.partyCount.toNat 1 c.dbSize.toNat (fun _ => (List.range q).map fun j => (w.clientRand 0).row j % c.dbSize.toNat) noise
      (fun _ => seen 0) (fun _ => seen c.partyCount.toNat) := by
  obtain ⟨⟨cap, n, h1, rfl⟩, -⟩ := both_one hw h hS hr hn hpath hst hc hN hq hm
  have hv := chain_valid hw h hN hq
  have a3 := ((Chain.every_run_loops hv (stage == "all") true (fun x => cap x + 1) (fun k _ => ⟨Nat.succ_pos _, Nat.succ_pos _⟩)).1 n
    (RNet.reach_mono (fun _ => Nat.le_succ _) h1)).2.1
  obtain ⟨-, -, -, b4⟩ := C77_wait_loops (chainOf w c d q) hv (stage == "all") cap n h1
  have key := Chain.exactNoise hv (stage == "all") a3 (C79_in_order_loops (chainOf w c d q) hv (stage == "all") cap n h1) b4 (noise := noise)
    (fun k r _ => sample_toNat hN (samples_small h.parties.1 h.rows.1 hq) (hnoise k r))
  have e : (List.range q).map (chainOf w c d q).wanted = (List.range q).map fun j => (w.clientRand 0).row j % c.dbSize.toNat :=
    List.map_congr_left fun j _ => chain_wanted h q j
  rw [← e]
  exact key

/-- **C52.** The same with 2 to 254 servers per party and as many clients, under the
conditions of C61.  The servers of a party make noise for equal shares of the rows (rounded
up), in order: `noise k r` is what the server of party `k` for row `r` samples for it. -/
theorem C52_many_servers (w : World box) (hw : w.Sane) (c : Config) (d : Dist) (h : Usable w c d)
    (hS : 2 ≤ c.serverCount.toNat ∧ c.serverCount.toNat ≤ 254) (hrows : c.serverCount.toNat ≤ c.dbSize.toNat)
    (hshare : (c.serverCount.toNat - 1) * ((c.dbSize.toNat + c.serverCount.toNat - 1) / c.serverCount.toNat) ≤ c.dbSize.toNat)
    (m : Hosts H) (hr : m.Reaches c) (hn : m.NoClash c)
    (file : String → Option (List Byte)) (path stage : String) (hpath : path ≠ "") (hst : stage = "online" ∨ stage = "all")
    (hc : readFile (file path) = .ok c) (N : Nat) (hN : w.SamplesUpTo d N) (q : Nat → Nat)
    (hall : stage = "all" → w.sampling = false ∧ ∃ q0, ∀ s < c.serverCount.toNat, q s = q0)
    (hq : ((List.range c.serverCount.toNat).map q).sum + (c.partyCount.toNat - 1) * (c.dbSize.toNat * N) < 2 ^ 32)
    (share : Nat) (hsh : share = (c.dbSize.toNat + c.serverCount.toNat - 1) / c.serverCount.toNat)
    (noise : Nat → Nat → Nat) (hnoise : ∀ k r, w.sample d k (r / share) (r % share) = .ok (noise k r))
    (seen later : Node → List Obs)
    (hm : Moments (launchMany w file path stage c.partyCount.toNat c.serverCount.toNat q) seen later ∨
      ConnectingMoments id (setup m c) (launchMany w file path stage c.partyCount.toNat c.serverCount.toNat q) seen later) :
    ExactNoise c.partyCount.toNat c.serverCount.toNat c.dbSize.toNat
      (fun s => (List.range (q s)).map fun j => (w.clientRand s).row j % c.dbSize.toNat) noise
      (fun s => seen (0, s)) (fun s => seen (c.partyCount.toNat, s)) := by
  obtain ⟨⟨cap, n, h1, rfl⟩, -⟩ := both_many hw h hS hrows hshare hr hn hpath hst hc hN hall hq hm
  have hv := grid_valid hw h hN (q := q) hS hrows hshare hq
  have hd : (stage == "all") = true → (gridOf w c d q).DistinctTags := fun e => by
    obtain ⟨e1, e2⟩ := hall (by simpa using e)
    exact Grid.distinct_even hv e2 (grid_even e1 _)
  have a3 := ((Grid.every_run_loops hv (stage == "all") true hd cap).1 n h1).2.1
  have b := C77_wait_loops_parallel (gridOf w c d q) hv (stage == "all") hd cap n h1
  have key := Grid.exactNoise hv (stage == "all") a3
    (fun s hs => C79_in_order_loops_parallel (gridOf w c d q) hv (stage == "all") hd cap n h1 s hs) (fun s hs => (b s hs).2.2.2)
    (noise := noise) (fun k s i hs hi => shares_sample h hN (samples_small h.parties.1 h.rows.1 hq) hS.1 hsh hnoise hs hi)
  have e : (fun s => (List.range (q s)).map ((gridOf w c d q).wanted s)) =
      fun s => (List.range (q s)).map fun j => (w.clientRand s).row j % c.dbSize.toNat :=
    funext fun s => List.map_congr_left fun j _ => grid_wanted h q s j
  rw [← e]
  exact key

namespace Example

/-- One server per party and ten queries, both stages: the end of some run that sets up the
connections first, when the client has results. -/
example : ∃ seen : Nat → List Obs, ConnectingMoments (fun k => (k, 0)) (setup oneMachine (privateConfig 1))
      (launch (privateWorld false) (fun _ => some (privateFile 1)) "f" "all" (privateConfig 1).partyCount.toNat 10) seen seen ∧
    results (seen 0) ≠ [] ∧
    ∃ (d : Dist) (noise : Nat → Nat → Nat), (∀ k r, (privateWorld false).sample d k 0 r = .ok (noise k r)) ∧
      ExactNoise 3 1 5 (fun _ => (List.range 10).map fun j => ((privateWorld false).clientRand 0).row j % 5) noise
        (fun _ => seen 0) (fun _ => seen 3) := by
  obtain ⟨d, N, hu, hN, hN2, hf, e1, e2, e3, hn⟩ := private_samples 1 (Or.inl rfl)
  have hq : 10 + ((privateConfig 1).partyCount.toNat - 1) * ((privateConfig 1).dbSize.toNat * N) < 2 ^ 32 := by
    rw [e1, e3]; omega
  have ha := C62_one_server (privateWorld false) (privateWorld_sane false) (privateConfig 1) d hu e2
    oneMachine (oneMachine_reaches _) hn (fun _ => some (privateFile 1)) "f" "all" (by decide) (.inr rfl) hf N hN 10 hq
  obtain ⟨h1, h2⟩ := ha (fun _ => _ + 1) (fun _ => Nat.succ_pos _)
  obtain ⟨n, hn1, hstuck⟩ := exists_end h2
  obtain ⟨-, -, h3, h4⟩ := h1 n hn1
  have hret := ((h3 (fun _ => Nat.le_succ _)).resolve_left hstuck).1
  have hm1 : ConnectingMoments (fun k => (k, 0)) (setup oneMachine (privateConfig 1))
      (launch (privateWorld false) (fun _ => some (privateFile 1)) "f" "all" (privateConfig 1).partyCount.toNat 10) n.seen n.seen :=
    ⟨_, n, n, hn1, .refl, rfl, rfl⟩
  obtain ⟨db, hdb⟩ : ∃ db, Database.new (privateConfig 1).dbSize.toNat = .ok db := by rw [e3]; exact ⟨_, rfl⟩
  have hres : (results (n.seen 0)).length = 10 := by
    have := congrArg List.length ((h4 0 (by omega) db hdb).2 (hret _))
    simpa using this
  choose noise hle hnoise using fun k r => hN k 0 r
  have key := C39_one_server (privateWorld false) (privateWorld_sane false) (privateConfig 1) d hu e2
    oneMachine (oneMachine_reaches _) hn (fun _ => some (privateFile 1)) "f" "all" (by decide) (.inr rfl) hf N hN 10 hq noise hnoise _ _ (.inr hm1)
  refine ⟨n.seen, hm1, List.ne_nil_of_length_pos (by omega), d, noise, hnoise, ?_⟩
  rw [e1, e3] at key
  exact key

/-- Two servers per party, which make noise for three and two rows, and ten queries at
each: the same. -/
example : ∃ seen : Node → List Obs, ConnectingMoments id (setup oneMachine (privateConfig 2))
      (launchMany (privateWorld false) (fun _ => some (privateFile 2)) "f" "all"
        (privateConfig 2).partyCount.toNat (privateConfig 2).serverCount.toNat (fun _ => 10)) seen seen ∧
    (∀ s < 2, results (seen (0, s)) ≠ []) ∧
    ∃ (d : Dist) (noise : Nat → Nat → Nat), (∀ k r, (privateWorld false).sample d k (r / 3) (r % 3) = .ok (noise k r)) ∧
      ExactNoise 3 2 5 (fun s => (List.range 10).map fun j => ((privateWorld false).clientRand s).row j % 5) noise
        (fun s => seen (0, s)) (fun s => seen (3, s)) := by
  obtain ⟨d, N, hu, hN, hN2, hf, e1, e2, e3, hn⟩ := private_samples 2 (Or.inr rfl)
  have hq : (privateConfig 2).serverCount.toNat * 10 + ((privateConfig 2).partyCount.toNat - 1) * ((privateConfig 2).dbSize.toNat * N) < 2 ^ 32 := by
    rw [e1, e2, e3]; omega
  have hshare : ((privateConfig 2).serverCount.toNat - 1) * (((privateConfig 2).dbSize.toNat + (privateConfig 2).serverCount.toNat - 1) /
      (privateConfig 2).serverCount.toNat) ≤ (privateConfig 2).dbSize.toNat := by rw [e2, e3]; norm_num
  have ha := C62_many_servers (privateWorld false) (privateWorld_sane false) (privateConfig 2) d hu (by omega) (by omega) hshare
    oneMachine (oneMachine_reaches _) hn (fun _ => some (privateFile 2)) "f" "all" (by decide) (.inr rfl) hf N hN (fun _ => 10)
    (fun _ => ⟨rfl, 10, fun _ _ => rfl⟩) (by rw [e1, e2, e3]; simp [List.range_succ]; omega)
  obtain ⟨h1, h2⟩ := ha (fun _ => _ + 1) (fun _ => Nat.succ_pos _)
  obtain ⟨n, hn1, hstuck⟩ := exists_end h2
  obtain ⟨-, -, h3, h4⟩ := h1 n hn1
  have hret := ((h3 (fun _ => Nat.le_succ _)).resolve_left hstuck).1
  have hm1 : ConnectingMoments id (setup oneMachine (privateConfig 2))
      (launchMany (privateWorld false) (fun _ => some (privateFile 2)) "f" "all"
        (privateConfig 2).partyCount.toNat (privateConfig 2).serverCount.toNat (fun _ => 10)) n.seen n.seen :=
    ⟨_, n, n, hn1, .refl, rfl, rfl⟩
  obtain ⟨db, hdb⟩ : ∃ db, Database.new (privateConfig 2).dbSize.toNat = .ok db := by rw [e3]; exact ⟨_, rfl⟩
  have hres : ∀ s < 2, (results (n.seen (0, s))).length = 10 := fun s hs => by
    have := congrArg List.length ((h4 s (by omega) db hdb).2 (hret _))
    simpa using this
  choose noise hle hnoise using fun k r => hN k (r / 3) (r % 3)
  have key := C52_many_servers (privateWorld false) (privateWorld_sane false) (privateConfig 2) d hu (by omega) (by omega) hshare
    oneMachine (oneMachine_reaches _) hn (fun _ => some (privateFile 2)) "f" "all" (by decide) (.inr rfl) hf N hN (fun _ => 10)
    (fun _ => ⟨rfl, 10, fun _ _ => rfl⟩) (by rw [e1, e2, e3]; simp [List.range_succ]; omega) 3 (by rw [e2, e3]) noise hnoise _ _ (.inr hm1)
  refine ⟨n.seen, hm1, fun s hs => List.ne_nil_of_length_pos (by have := hres s hs; omega), d, noise, hnoise, ?_⟩
  rw [e1, e2, e3] at key
  exact key

end Example
end DPPIR.Props
