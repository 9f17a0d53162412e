import Verif.Proofs.StartPrivate
import Verif.Proofs.Hiding
import Verif.Proofs.HidingGrid
import Verif.Spec.StartHiding

/-!
# What the parties of a started deployment see
-/

namespace DPPIR.Main
open DPPIR.Config DPPIR.Noise DPPIR.Protocol DPPIR.Onion DPPIR.Props

variable {box : SealedBox} {w : World box} {c : Config} {d : Dist}

/-- Loops or not, the parties see the same. -/
theorem sees_chain {ch : Chain box} (hv : ch.Valid) (hex : ∃ x : Fin 0 → Nat, LooksUp (ch.progLoops true true) [] x) (v : Nat → List Obs) :
    Sees (ch.progLoops true true) (fun i => 1 ≤ i ∧ i < ch.parties) v ↔ ch.PartiesSee v := by
  obtain ⟨s, m, h1, h2, -⟩ := Chain.complete_run hv true true (fun _ => 1) (fun _ => Nat.one_pos)
  have same : ∀ cap n, PNet.Reach cap (PNet.start (ch.progLoops true true)) n → (∀ i, n.Returned i ()) → ∀ i, n.seen i = m.seen i :=
    fun cap n hn hf i => (C60_loops_same_calls ch hv true true (fun x => cap x + 1) (fun _ => 1) (fun _ => Nat.succ_pos _)
      (fun _ => Nat.one_pos) n (hn.mono (fun _ => Nat.le_succ _)) s m h1 i (hf _) (h2 _))
  constructor
  · rintro ⟨cap, n, hn, hf, hs⟩
    exact ⟨fun _ => 1, s, m, fun _ => Nat.one_pos, h1, h2, fun i a b => by rw [← same cap n hn hf]; exact hs i ⟨a, b⟩⟩
  · rintro ⟨cap', s', m', h0, h1', h2', hs⟩
    obtain ⟨-, cap, n, hn, hf, -⟩ := hex
    refine ⟨cap, n, hn, hf, fun i ⟨a, b⟩ => ?_⟩
    rw [← hs i a b, same cap n hn hf, Chain.finished_seen hv true true _ (fun _ => Nat.one_pos) h1 (h2 i),
      Chain.finished_seen hv true true cap' h0 h1' (h2' i)]

theorem sees_grid {g : Grid box} (hv : g.Valid) (hd : g.DistinctTags) (hex : ∃ x : Fin 0 → Nat, LooksUp (g.progLoops true true) [] x)
    (v : Node → List Obs) :
    Sees (g.progLoops true true) (fun i => 1 ≤ i.1 ∧ i.1 < g.parties ∧ i.2 < g.servers) v ↔ g.PartiesSee v := by
  obtain ⟨cap0, hc⟩ := g.exists_roomy
  obtain ⟨m, hm, hr⟩ := Grid.complete_run hv true true (fun _ => hd) hc
  have same : ∀ cap n, PNet.Reach cap (PNet.start (g.progLoops true true)) n → (∀ i, n.Returned i ()) → ∀ i s, s < g.servers →
      n.seen (i, s) = m.seen (i, s) :=
    fun cap n hn hf i s hs => (C60_loops_same_calls_parallel g hv true true (fun _ => hd) cap cap0 n hn m hm i s hs (hf _) (hr _))
  constructor
  · rintro ⟨cap, n, hn, hf, hs⟩
    exact ⟨cap0, m, hm, hr, fun i s a b e => by rw [← same cap n hn hf i s e]; exact hs (i, s) ⟨a, b, e⟩⟩
  · rintro ⟨cap', m', hm', hr', hs⟩
    obtain ⟨-, cap, n, hn, hf, -⟩ := hex
    refine ⟨cap, n, hn, hf, fun ⟨i, s⟩ ⟨a, b, e⟩ => ?_⟩
    rw [← hs i s a b e, same cap n hn hf i s e]
    rw [((Grid.every_run hv true true (fun _ => hd) cap0).1 m hm).2.2.1 i s e (hr _),
      ((Grid.every_run hv true true (fun _ => hd) cap').1 m' hm').2.2.1 i s e (hr' _)]

end DPPIR.Main

namespace DPPIR.Joint
open DPPIR.Connect DPPIR.Main
open DPPIR.Protocol (Node Obs PProg)

variable {ι A : Type} [DecidableEq ι] [DecidableEq A] {pl : Plan A} {pos : ι → Node} {prog : ι → PProg ι Unit}

/-- What is seen in a run that sets up the connections first is seen in one in which they
exist; and the other way round if nothing else is seen. -/
theorem connects_and_sees (hd : pl.Distinct) (hS : pl.S ≤ 256) (hpos : Function.Injective pos)
    {setup : Node → CProc Node A (Wiring Node)} {st : Node → St} (h0 : Inv pl (CNet.start setup) st)
    {capacity S : Nat} {client : Nat → ι} {count : Nat → Nat} {rows : Nat} {row : Nat → Nat → Nat}
    (ha : Answers prog (fun a b => Linked pl.P pl.S (pos a) (pos b)) capacity S client count rows row)
    (hca : ConnectsAndAnswers pos setup prog capacity S client count rows row) (who : ι → Prop)
    (unique : ∀ v v', Sees prog who v → Sees prog who v' → ∀ i, who i → v i = v' i) (v : ι → List Obs) :
    ConnectsAndSees pos setup prog who v ↔ Sees prog who v := by
  have fwd : ∀ v, ConnectsAndSees pos setup prog who v → Sees prog who v := by
    rintro v ⟨cap, n, hn, hf, hv⟩
    have ht : Turns pl pos cap prog := turns ha
    obtain ⟨C, P, h⟩ : ∃ C P, Rel pl pos cap prog n C P := by
      clear hf
      clear hv
      induction hn with
      | refl => exact ⟨_, _, .start h0⟩
      | step _ s ih =>
        obtain ⟨C, P, h⟩ := ih
        obtain ⟨C', P', h', -⟩ := h.step hd hS hpos ht s
        exact ⟨C', P', h'⟩
    refine ⟨_, P, h.reach, fun i => ?_, by rw [← h.seen]; exact hv⟩
    have := (hf i).2
    rw [h.run] at this
    exact this
  refine ⟨fwd v, fun hv => ?_⟩
  obtain ⟨-, cap, n, hn, hf, -⟩ := complete_of_connects hca [] 0
  have h1 : ConnectsAndSees pos setup prog who (fun i => (n.seen i).map Obs.sealed) := ⟨cap, n, hn, hf, fun _ _ => rfl⟩
  exact ⟨cap, n, hn, hf, fun i hi => unique _ _ (fwd _ h1) hv i hi⟩

end DPPIR.Joint

namespace DPPIR.Main
open DPPIR.Config DPPIR.Noise DPPIR.Protocol DPPIR.Onion DPPIR.Props

variable {box : SealedBox} {w : World box} {c : Config} {d : Dist}

theorem Sane.withDraws (hw : w.Sane) {q P : Nat} (row : Nat → Nat) (x : Protocol.Draws q P) : (w.withDraws row x).Sane :=
  ⟨hw.division, hw.order, hw.backendOrder⟩

theorem Usable.withDraws (h : Usable w c d) {q P : Nat} (row : Nat → Nat) (x : Protocol.Draws q P) : Usable (w.withDraws row x) c d :=
  ⟨h.parties, h.servers, h.rows, h.pairs, h.noise⟩

theorem Sane.withAllDraws (hw : w.Sane) {S P : Nat} {q : Nat → Nat} (row : Nat → Nat → Nat) (x : (s : Fin S) → Protocol.Draws (q s) P) :
    (w.withAllDraws row x).Sane :=
  ⟨hw.division, hw.order, hw.backendOrder⟩

theorem Usable.withAllDraws (h : Usable w c d) {S P : Nat} {q : Nat → Nat} (row : Nat → Nat → Nat)
    (x : (s : Fin S) → Protocol.Draws (q s) P) : Usable (w.withAllDraws row x) c d :=
  ⟨h.parties, h.servers, h.rows, h.pairs, h.noise⟩

theorem chainOf_withDraws (q : Nat) (row : Nat → Nat) (x : Protocol.Draws q c.partyCount.toNat) :
    chainOf (w.withDraws row x) c d q = (chainOf w c d q).withDraws row x := by
  unfold chainOf Chain.withDraws World.withDraws
  simp only [Function.update_self]
  rfl

/-- What the parties of a started deployment see. -/
theorem sees_launch (hw : w.Sane) (h : Usable w c d) (hS : c.serverCount.toNat = 1) {file : String → Option (List Byte)} {path : String}
    (hpath : path ≠ "") (hc : readFile (file path) = .ok c) {N : Nat} (hN : w.SamplesUpTo d N) {q : Nat}
    (hq : q + (c.partyCount.toNat - 1) * (c.dbSize.toNat * N) < 2 ^ 32) (row : Nat → Nat) (x : Protocol.Draws q c.partyCount.toNat)
    (v : Nat → List Obs) :
    Sees (launch (w.withDraws row x) file path "all" c.partyCount.toNat q) (fun i => 1 ≤ i ∧ i < c.partyCount.toNat) v ↔
      ((chainOf w c d q).withDraws row x).PartiesSee v := by
  have hN' : (w.withDraws row x).SamplesUpTo d N := hN
  have e := launch_eq (w.withDraws row x) c d (h.withDraws row x) hN' hS file path "all" hpath (Or.inr rfl) hc q (by omega)
  have ha := complete_of_answers (C61_one_server _ (Sane.withDraws hw row x) c d (h.withDraws row x) hS file path "all" hpath (Or.inr rfl) hc N hN' q hq) [] 0
  have hv := chain_valid (Sane.withDraws hw row x) (h.withDraws row x) hN' hq
  rw [e] at ha ⊢
  rw [chainOf_withDraws] at ha hv ⊢
  exact sees_chain hv ha v

theorem sees_launchMany (hw : w.Sane) (h : Usable w c d) (hS : 2 ≤ c.serverCount.toNat ∧ c.serverCount.toNat ≤ 254)
    (hrows : c.serverCount.toNat ≤ c.dbSize.toNat)
    (hshare : (c.serverCount.toNat - 1) * ((c.dbSize.toNat + c.serverCount.toNat - 1) / c.serverCount.toNat) ≤ c.dbSize.toNat)
    {file : String → Option (List Byte)} {path : String}
    (hpath : path ≠ "") (hc : readFile (file path) = .ok c) {N : Nat} (hN : w.SamplesUpTo d N) {q : Nat → Nat}
    (hs : w.sampling = false) (hall : ∃ q0, ∀ s < c.serverCount.toNat, q s = q0)
    (hq : ((List.range c.serverCount.toNat).map q).sum + (c.partyCount.toNat - 1) * (c.dbSize.toNat * N) < 2 ^ 32) (row : Nat → Nat → Nat)
    (x : (s : Fin c.serverCount.toNat) → Protocol.Draws (q s) c.partyCount.toNat) (v : Node → List Obs) :
    Sees (launchMany (w.withAllDraws row x) file path "all" c.partyCount.toNat c.serverCount.toNat q)
      (fun i => 1 ≤ i.1 ∧ i.1 < c.partyCount.toNat ∧ i.2 < c.serverCount.toNat) v ↔
      ((gridOf w c d q).withDraws row x).PartiesSee v := by
  have hN' : (w.withAllDraws row x).SamplesUpTo d N := hN
  have hqs : ∀ s < c.serverCount.toNat, q s < 2 ^ 32 := fun s hs => by
    have : q s ≤ ((List.range c.serverCount.toNat).map q).sum := le_preSum hs
    omega
  have e := launchMany_eq (w.withAllDraws row x) c d (h.withAllDraws row x) hN' (by omega) file path "all" hpath (Or.inr rfl) hc q hqs
  have ha := complete_of_answers (C61_many_servers _ (Sane.withAllDraws hw row x) c d (h.withAllDraws row x) hS hrows hshare file path "all"
    hpath (Or.inr rfl) hc N hN' q (fun _ => ⟨hs, hall⟩) hq) [] 0
  have hv := grid_valid (Sane.withAllDraws hw row x) (h.withAllDraws row x) hN' hS hrows hshare hq
  have hd := Grid.distinct_even hv hall (grid_even (w := w.withAllDraws row x) hs q)
  rw [e] at ha ⊢
  exact sees_grid hv hd ha v

end DPPIR.Main
