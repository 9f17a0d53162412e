import Verif.Proofs.StartHiding
import Verif.Proofs.Coalition

/-!
# What the others see of a client in a started deployment
-/

namespace DPPIR.Main
open DPPIR.Config DPPIR.Noise DPPIR.Protocol DPPIR.Onion DPPIR.Props

variable {box : SealedBox} {w : World box} {c : Config} {d : Dist}

theorem sees_script {g : Grid box} (hv : g.Valid) (hd : g.DistinctTags) (hex : ∃ x : Fin 0 → Nat, LooksUp (g.progLoops true true) [] x)
    {who : Node → Prop} (hw : ∀ i, who i → i.2 < g.servers) (v : Node → List Obs) :
    Sees (g.progLoops true true) who v ↔ ∀ i, who i → (g.obsAll true true i.1 i.2).map Obs.sealed = v i := by
  obtain ⟨cap0, hc⟩ := g.exists_roomy
  obtain ⟨m, hm, hr⟩ := Grid.complete_run hv true true (fun _ => hd) hc
  have same : ∀ cap n, PNet.Reach cap (PNet.start (g.progLoops true true)) n → (∀ i, n.Returned i ()) → ∀ i : Node, i.2 < g.servers →
      n.seen i = g.obsAll true true i.1 i.2 := by
    rintro cap n hn hf ⟨i, s⟩ hs
    rw [C60_loops_same_calls_parallel g hv true true (fun _ => hd) cap cap0 n hn m hm i s hs (hf _) (hr _)]
    exact ((Grid.every_run hv true true (fun _ => hd) cap0).1 m hm).2.2.1 i s hs (hr _)
  constructor
  · rintro ⟨cap, n, hn, hf, hs⟩ i hi
    rw [← hs i hi, same cap n hn hf i (hw i hi)]
  · intro hs
    obtain ⟨-, cap, n, hn, hf, -⟩ := hex
    refine ⟨cap, n, hn, hf, fun i hi => ?_⟩
    rw [← hs i hi, same cap n hn hf i (hw i hi)]

theorem Sane.withDrawsOf (hw : w.Sane) (t : Nat) {q P : Nat} (row : Nat → Nat) (x : Protocol.Draws q P) : (w.withDrawsOf t row x).Sane :=
  ⟨hw.division, hw.order, hw.backendOrder⟩

theorem Usable.withDrawsOf (h : Usable w c d) (t : Nat) {q P : Nat} (row : Nat → Nat) (x : Protocol.Draws q P) :
    Usable (w.withDrawsOf t row x) c d :=
  ⟨h.parties, h.servers, h.rows, h.pairs, h.noise⟩

theorem sees_others (hw : w.Sane) (h : Usable w c d) (hS : 2 ≤ c.serverCount.toNat ∧ c.serverCount.toNat ≤ 254)
    (hrows : c.serverCount.toNat ≤ c.dbSize.toNat)
    (hshare : (c.serverCount.toNat - 1) * ((c.dbSize.toNat + c.serverCount.toNat - 1) / c.serverCount.toNat) ≤ c.dbSize.toNat)
    {file : String → Option (List Byte)} {path : String}
    (hpath : path ≠ "") (hc : readFile (file path) = .ok c) {N : Nat} (hN : w.SamplesUpTo d N) {q : Nat → Nat}
    (hs : w.sampling = false) (hall : ∃ q0, ∀ s < c.serverCount.toNat, q s = q0)
    (hq : ((List.range c.serverCount.toNat).map q).sum + (c.partyCount.toNat - 1) * (c.dbSize.toNat * N) < 2 ^ 32)
    (t : Nat) (row : Nat → Nat) (x : Protocol.Draws (q t) c.partyCount.toNat) (v : Node → List Obs) :
    Sees (launchMany (w.withDrawsOf t row x) file path "all" c.partyCount.toNat c.serverCount.toNat q)
        (Others c.partyCount.toNat c.serverCount.toNat t) v ↔
      ∀ i, Others c.partyCount.toNat c.serverCount.toNat t i →
        (((gridOf w c d q).withDrawsOf t row x).obsAll true true i.1 i.2).map Obs.sealed = v i := by
  have hN' : (w.withDrawsOf t row x).SamplesUpTo d N := hN
  have hqs : ∀ s < c.serverCount.toNat, q s < 2 ^ 32 := fun s hs => by
    have : q s ≤ ((List.range c.serverCount.toNat).map q).sum := le_preSum hs
    omega
  have e := launchMany_eq (w.withDrawsOf t row x) c d (h.withDrawsOf t row x) hN' (by omega) file path "all" hpath (Or.inr rfl) hc q hqs
  have ha := complete_of_answers (C61_many_servers _ (Sane.withDrawsOf hw t row x) c d (h.withDrawsOf t row x) hS hrows hshare file path "all"
    hpath (Or.inr rfl) hc N hN' q (fun _ => ⟨hs, hall⟩) hq) [] 0
  have hv := grid_valid (Sane.withDrawsOf hw t row x) (h.withDrawsOf t row x) hN' hS hrows hshare hq
  have hd := Grid.distinct_even hv hall (grid_even (w := w.withDrawsOf t row x) hs q)
  rw [e] at ha ⊢
  exact sees_script hv hd ha (fun i hi => hi.2.1) v

end DPPIR.Main

namespace DPPIR.Protocol.Grid
variable {box : Onion.SealedBox} {g : Grid box}

/-- Everybody but client `t` and the backend sees the same for the other keys. -/
theorem others_of (h : g.Valid) (t : Nat) (row row' : Nat → Nat) (d : Draws (g.count t) g.parties) (i : Node)
    (hi : Main.Others g.parties g.servers t i) :
    ((g.withDrawsOf t row d).obsAll true true i.1 i.2).map Obs.sealed =
      ((g.withDrawsOf t row' (shiftOf h t row row' d)).obsAll true true i.1 i.2).map Obs.sealed := by
  obtain ⟨k, s⟩ := i
  obtain ⟨h1, h2, h3⟩ := hi
  cases k with
  | zero =>
    have hst : s ≠ t := fun e => h3 (by rw [e])
    rw [(same_of t row d s hst).obsAll, (same_of t row' _ s hst).obsAll]
  | succ k => exact sealed_of h t row row' d (k + 1) s (by omega) h1 h2

end DPPIR.Protocol.Grid
