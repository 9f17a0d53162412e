import Verif.Proofs.StartCoalition
import Verif.Props.StartHiding
import Verif.Props.Coalition

/-!
# C78: the other clients of a started deployment
-/

namespace DPPIR.Props
open DPPIR.Config DPPIR.Connect DPPIR.Noise DPPIR.Protocol DPPIR.Onion DPPIR.Main DPPIR.Joint DPPIR.Spec

variable {box : SealedBox} {H : Type} [DecidableEq H]

/-- **C78.** Several servers per party, started from the command line for both stages with
a usable configuration file: whatever everybody but client `t` and the backend together
may see in a complete run, the number of outcomes of this client's draws for which they
see it is the same for all keys of this client. -/
theorem C78_started (w : World box) (hw : w.Sane) (c : Config) (d : Dist) (h : Usable w c d)
    (hS : 2 ≤ c.serverCount.toNat ∧ c.serverCount.toNat ≤ 254) (hrows : c.serverCount.toNat ≤ c.dbSize.toNat)
    (hshare : (c.serverCount.toNat - 1) * ((c.dbSize.toNat + c.serverCount.toNat - 1) / c.serverCount.toNat) ≤ c.dbSize.toNat)
    (file : String → Option (List Byte)) (path : String) (hpath : path ≠ "") (hc : readFile (file path) = .ok c) (N : Nat)
    (hN : w.SamplesUpTo d N) (q : Nat → Nat) (hs : w.sampling = false) (hall : ∃ q0, ∀ s < c.serverCount.toNat, q s = q0)
    (hq : ((List.range c.serverCount.toNat).map q).sum + (c.partyCount.toNat - 1) * (c.dbSize.toNat * N) < 2 ^ 32)
    (t : Nat) (row row' : Nat → Nat) (v : Node → List Obs) :
    Nat.card {x : Protocol.Draws (q t) c.partyCount.toNat //
        Sees (launchMany (w.withDrawsOf t row x) file path "all" c.partyCount.toNat c.serverCount.toNat q)
          (Others c.partyCount.toNat c.serverCount.toNat t) v} =
      Nat.card {x : Protocol.Draws (q t) c.partyCount.toNat //
        Sees (launchMany (w.withDrawsOf t row' x) file path "all" c.partyCount.toNat c.serverCount.toNat q)
          (Others c.partyCount.toNat c.serverCount.toNat t) v} := by
  simp only [sees_others hw h hS hrows hshare hpath hc hN hs hall hq]
  have hv := grid_valid hw h hN hS hrows hshare hq
  refine Nat.card_congr ((Grid.shiftOf hv t row row').subtypeEquiv fun x => ?_)
  exact ⟨fun e i hi => (Grid.others_of hv t row row' x i hi).symm.trans (e i hi), fun e i hi => (Grid.others_of hv t row row' x i hi).trans (e i hi)⟩

private theorem connects_others {w : World box} (hw : w.Sane) {c : Config} {d : Dist} (h : Usable w c d)
    (hS : 2 ≤ c.serverCount.toNat ∧ c.serverCount.toNat ≤ 254) (hrows : c.serverCount.toNat ≤ c.dbSize.toNat)
    (hshare : (c.serverCount.toNat - 1) * ((c.dbSize.toNat + c.serverCount.toNat - 1) / c.serverCount.toNat) ≤ c.dbSize.toNat)
    {m : Hosts H} (hr : m.Reaches c) (hn : m.NoClash c) {file : String → Option (List Byte)} {path : String} (hpath : path ≠ "")
    (hc : readFile (file path) = .ok c) {N : Nat} (hN : w.SamplesUpTo d N) {q : Nat → Nat}
    (hs : w.sampling = false) (hall : ∃ q0, ∀ s < c.serverCount.toNat, q s = q0)
    (hq : ((List.range c.serverCount.toNat).map q).sum + (c.partyCount.toNat - 1) * (c.dbSize.toNat * N) < 2 ^ 32)
    (t : Nat) (row : Nat → Nat) (x : Protocol.Draws (q t) c.partyCount.toNat) (v : Node → List Obs) :
    ConnectsAndSees id (setup m c) (launchMany (w.withDrawsOf t row x) file path "all" c.partyCount.toNat c.serverCount.toNat q)
        (Others c.partyCount.toNat c.serverCount.toNat t) v ↔
      Sees (launchMany (w.withDrawsOf t row x) file path "all" c.partyCount.toNat c.serverCount.toNat q)
        (Others c.partyCount.toNat c.serverCount.toNat t) v := by
  have hk : Consistent c := ⟨h.parties.2, h.servers⟩
  have hP : 0 < c.partyCount.toNat := by have := h.parties.1; omega
  refine connects_and_sees (pl := planOf m c) (planOf_distinct m c (config_complete hk) hn) (plan_small c m) Function.injective_id
    (inv_start hP (fun i hi => setup_eq m c (config_complete hk) hP hr i hi) (fun i hi => setup_out m c i hi))
    (C61_many_servers _ (Sane.withDrawsOf hw t row x) c d (h.withDrawsOf t row x) hS hrows hshare file path "all" hpath (Or.inr rfl) hc N hN q
      (fun _ => ⟨hs, hall⟩) hq)
    (C62_many_servers _ (Sane.withDrawsOf hw t row x) c d (h.withDrawsOf t row x) hS hrows hshare m hr hn file path "all" hpath (Or.inr rfl) hc N hN q
      (fun _ => ⟨hs, hall⟩) hq) _ ?_ v
  intro v v' h1 h2 i hi
  rw [sees_others hw h hS hrows hshare hpath hc hN hs hall hq] at h1 h2
  rw [← h1 i hi, h2 i hi]

/-- **C78.** The same when the processes start in any order and set up their connections
first. -/
theorem C78_started_connecting (w : World box) (hw : w.Sane) (c : Config) (d : Dist) (h : Usable w c d)
    (hS : 2 ≤ c.serverCount.toNat ∧ c.serverCount.toNat ≤ 254) (hrows : c.serverCount.toNat ≤ c.dbSize.toNat)
    (hshare : (c.serverCount.toNat - 1) * ((c.dbSize.toNat + c.serverCount.toNat - 1) / c.serverCount.toNat) ≤ c.dbSize.toNat)
    (m : Hosts H) (hr : m.Reaches c) (hn : m.NoClash c)
    (file : String → Option (List Byte)) (path : String) (hpath : path ≠ "") (hc : readFile (file path) = .ok c) (N : Nat)
    (hN : w.SamplesUpTo d N) (q : Nat → Nat) (hs : w.sampling = false) (hall : ∃ q0, ∀ s < c.serverCount.toNat, q s = q0)
    (hq : ((List.range c.serverCount.toNat).map q).sum + (c.partyCount.toNat - 1) * (c.dbSize.toNat * N) < 2 ^ 32)
    (t : Nat) (row row' : Nat → Nat) (v : Node → List Obs) :
    Nat.card {x : Protocol.Draws (q t) c.partyCount.toNat // ConnectsAndSees id (setup m c)
        (launchMany (w.withDrawsOf t row x) file path "all" c.partyCount.toNat c.serverCount.toNat q)
          (Others c.partyCount.toNat c.serverCount.toNat t) v} =
      Nat.card {x : Protocol.Draws (q t) c.partyCount.toNat // ConnectsAndSees id (setup m c)
        (launchMany (w.withDrawsOf t row' x) file path "all" c.partyCount.toNat c.serverCount.toNat q)
          (Others c.partyCount.toNat c.serverCount.toNat t) v} := by
  simp only [connects_others hw h hS hrows hshare hr hn hpath hc hN hs hall hq]
  exact C78_started w hw c d h hS hrows hshare file path hpath hc N hN q hs hall hq t row row' v

/-- **C78.** For all outcomes of the draws the others see something, and the same in all
complete runs. -/
theorem C78_started_one_view (w : World box) (hw : w.Sane) (c : Config) (d : Dist) (h : Usable w c d)
    (hS : 2 ≤ c.serverCount.toNat ∧ c.serverCount.toNat ≤ 254) (hrows : c.serverCount.toNat ≤ c.dbSize.toNat)
    (hshare : (c.serverCount.toNat - 1) * ((c.dbSize.toNat + c.serverCount.toNat - 1) / c.serverCount.toNat) ≤ c.dbSize.toNat)
    (m : Hosts H) (hr : m.Reaches c) (hn : m.NoClash c)
    (file : String → Option (List Byte)) (path : String) (hpath : path ≠ "") (hc : readFile (file path) = .ok c) (N : Nat)
    (hN : w.SamplesUpTo d N) (q : Nat → Nat) (hs : w.sampling = false) (hall : ∃ q0, ∀ s < c.serverCount.toNat, q s = q0)
    (hq : ((List.range c.serverCount.toNat).map q).sum + (c.partyCount.toNat - 1) * (c.dbSize.toNat * N) < 2 ^ 32)
    (t : Nat) (row : Nat → Nat) (x : Protocol.Draws (q t) c.partyCount.toNat) :
    ∃ v : Node → List Obs, ∀ v', ConnectsAndSees id (setup m c)
        (launchMany (w.withDrawsOf t row x) file path "all" c.partyCount.toNat c.serverCount.toNat q)
          (Others c.partyCount.toNat c.serverCount.toNat t) v' ↔
      ∀ i, Others c.partyCount.toNat c.serverCount.toNat t i → v' i = v i := by
  refine ⟨fun i => (((gridOf w c d q).withDrawsOf t row x).obsAll true true i.1 i.2).map Obs.sealed, fun v' => ?_⟩
  rw [connects_others hw h hS hrows hshare hr hn hpath hc hN hs hall hq, sees_others hw h hS hrows hshare hpath hc hN hs hall hq]
  exact ⟨fun e i hi => (e i hi).symm, fun e i hi => (e i hi).symm⟩

namespace Example

/-- Two servers per party and ten queries at each: client 1 asks ten times for row 1 or
for ten different rows; client 0 and the first two parties together see the same. -/
example (v : Node → List Obs) :
    Nat.card {x : Protocol.Draws 10 (privateConfig 2).partyCount.toNat // ConnectsAndSees id (setup oneMachine (privateConfig 2))
        (launchMany ((privateWorld false).withDrawsOf 1 (fun _ => 1) x) (fun _ => some (privateFile 2)) "f" "all"
          (privateConfig 2).partyCount.toNat (privateConfig 2).serverCount.toNat (fun _ => 10))
        (Others (privateConfig 2).partyCount.toNat (privateConfig 2).serverCount.toNat 1) v} =
      Nat.card {x : Protocol.Draws 10 (privateConfig 2).partyCount.toNat // ConnectsAndSees id (setup oneMachine (privateConfig 2))
        (launchMany ((privateWorld false).withDrawsOf 1 id x) (fun _ => some (privateFile 2)) "f" "all"
          (privateConfig 2).partyCount.toNat (privateConfig 2).serverCount.toNat (fun _ => 10))
        (Others (privateConfig 2).partyCount.toNat (privateConfig 2).serverCount.toNat 1) v} ∧
    (privateConfig 2).partyCount.toNat = 3 ∧ (privateConfig 2).serverCount.toNat = 2 := by
  obtain ⟨d, N, hu, hN, hN2, hf, e1, e2, e3, hn⟩ := private_samples 2 (Or.inr rfl)
  exact ⟨C78_started_connecting (privateWorld false) (privateWorld_sane false) (privateConfig 2) d hu (by omega) (by omega)
    (by rw [e2, e3]; norm_num) oneMachine (oneMachine_reaches _) hn (fun _ => some (privateFile 2)) "f" (by decide) hf N hN (fun _ => 10) rfl
    ⟨10, fun _ _ => rfl⟩ (by rw [e1, e2, e3]; simp [List.range_succ]; omega) 1 (fun _ => 1) id v, e1, e2⟩

end Example
end DPPIR.Props
