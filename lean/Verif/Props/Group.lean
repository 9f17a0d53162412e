import Verif.Proofs.Group
import Verif.Props.StartPrivate

/-!
# C75: the privacy of several queries together
-/

open MeasureTheory

namespace DPPIR.Props
open DPPIR.Config DPPIR.Connect DPPIR.Noise DPPIR.Protocol DPPIR.Onion DPPIR.Main DPPIR.Joint DPPIR.Spec

variable {box : SealedBox} {H : Type} [DecidableEq H]

/-- The failure probability for one change is not negative. -/
private theorem delta_nonneg {w : World box} (hA : IsDouble w.arith) {c : Config} {d : Dist} (hd : w.distribution c = .ok d) {epsilon delta : ℝ}
    (hce : Dbl.ofBits c.epsilon = .fin epsilon) (hcd : Dbl.ofBits c.delta = .fin delta) (he : 0 < epsilon) (he1 : epsilon ≤ 2 ^ 1000)
    (hd0 : 0 < delta) (hd1 : delta ≤ 1) {cutoff : ℝ} (hcut : d.cutoff = .fin cutoff) :
    0 ≤ roundedDelta (epsilon * (1 + (1 / 2) ^ 50)) delta cutoff := by
  unfold World.distribution at hd
  rw [hce, hcd] at hd
  obtain ⟨b, c'', rfl, -, -, -, -, h0, -⟩ := accepted_rounded hA he he1 hd0 hd1 hd
  injection hcut with e
  subst e
  unfold roundedDelta
  positivity

/-- **C75.** One server per party: the client's queries change in the places `J`.  What the
backend sees is as private as for one query (`C63_one_server`), with `epsilon` multiplied
by the number of changed queries. -/
theorem C75_one_server (w : World box) (hw : w.Sane) (hA : IsDouble w.arith) (hs : w.sampling = true) (c : Config) (d : Dist)
    (h : Usable w c d) (hS : c.serverCount.toNat = 1)
    (epsilon delta : ℝ) (hce : Dbl.ofBits c.epsilon = .fin epsilon)
    (hcd : Dbl.ofBits c.delta = .fin delta) (he : 0 < epsilon) (he1 : epsilon ≤ 2 ^ 1000) (hd0 : 0 < delta) (hd1 : delta ≤ 1)
    (cutoff : ℝ) (hcut : d.cutoff = .fin cutoff)
    (file : String → Option (List Byte)) (path stage : String) (hpath : path ≠ "") (hst : stage = "online" ∨ stage = "all")
    (hc : readFile (file path) = .ok c) (q : Nat) (hq : q + (c.partyCount.toNat - 1) * (c.dbSize.toNat * ⌊2 * cutoff⌋.toNat) < 2 ^ 32)
    (k : Nat) (hk : k + 1 < c.partyCount.toNat) (row row' : Nat → Nat) (J : Finset Nat) (hJ : J.Nonempty) (hr : ∀ i, i ∉ J → row i = row' i) :
    NoBetterThan (rows := c.dbSize.toNat) (J.card * (epsilon * (1 + (1 / 2) ^ 50)))
      (groupDelta (epsilon * (1 + (1 / 2) ^ 50)) (roundedDelta (epsilon * (1 + (1 / 2) ^ 50)) delta cutoff) J.card)
      (fun r => LooksUp (launch ((w.asking 0 row).drawing k 1 r) file path stage c.partyCount.toNat q) [c.partyCount.toNat])
      (fun r => LooksUp (launch ((w.asking 0 row').drawing k 1 r) file path stage c.partyCount.toNat q) [c.partyCount.toNat]) := by
  exact NoBetterThan.group (P := fun _ => True) (S := fun row r => LooksUp (launch ((w.asking 0 row).drawing k 1 r) file path stage c.partyCount.toNat q) [c.partyCount.toNat])
    (delta_nonneg hA h.noise hce hcd he he1 hd0 hd1 hcut)
    (fun f f' e _ hf => C63_one_server w hw hA hs c d h hS epsilon delta hce hcd he he1 hd0 hd1 cutoff hcut file path stage hpath hst hc q hq k hk f f' e hf)
    J hJ (fun _ _ => trivial) row row' hr

/-- **C75.** Several servers per party: queries of any clients change, those in `J`, whose
elements are pairs of a client and the index of a query. -/
theorem C75_many_servers (w : World box) (hw : w.Sane) (hA : IsDouble w.arith) (hs : w.sampling = true) (c : Config) (d : Dist)
    (h : Usable w c d) (hS : 2 ≤ c.serverCount.toNat ∧ c.serverCount.toNat ≤ 254) (hrows : c.serverCount.toNat ≤ c.dbSize.toNat)
    (hshare : (c.serverCount.toNat - 1) * ((c.dbSize.toNat + c.serverCount.toNat - 1) / c.serverCount.toNat) ≤ c.dbSize.toNat)
    (epsilon delta : ℝ) (hce : Dbl.ofBits c.epsilon = .fin epsilon)
    (hcd : Dbl.ofBits c.delta = .fin delta) (he : 0 < epsilon) (he1 : epsilon ≤ 2 ^ 1000) (hd0 : 0 < delta) (hd1 : delta ≤ 1)
    (cutoff : ℝ) (hcut : d.cutoff = .fin cutoff)
    (file : String → Option (List Byte)) (path : String) (hpath : path ≠ "")
    (hc : readFile (file path) = .ok c) (q : Nat → Nat)
    (hq : ((List.range c.serverCount.toNat).map q).sum + (c.partyCount.toNat - 1) * (c.dbSize.toNat * ⌊2 * cutoff⌋.toNat) < 2 ^ 32)
    (k : Nat) (hk : k + 1 < c.partyCount.toNat) (row row' : Nat → Nat → Nat) (J : Finset (Nat × Nat)) (hJ : J.Nonempty)
    (hJS : ∀ e ∈ J, e.1 < c.serverCount.toNat) (hr : ∀ s i, (s, i) ∉ J → row s i = row' s i) :
    NoBetterThan (rows := c.dbSize.toNat) (J.card * (epsilon * (1 + (1 / 2) ^ 50)))
      (groupDelta (epsilon * (1 + (1 / 2) ^ 50)) (roundedDelta (epsilon * (1 + (1 / 2) ^ 50)) delta cutoff) J.card)
      (fun r => LooksUp (launchMany ((w.askingAll row).drawing k c.serverCount.toNat r) file path "online"
        c.partyCount.toNat c.serverCount.toNat q) ((List.range c.serverCount.toNat).map (fun s => (c.partyCount.toNat, s))))
      (fun r => LooksUp (launchMany ((w.askingAll row').drawing k c.serverCount.toNat r) file path "online"
        c.partyCount.toNat c.serverCount.toNat q) ((List.range c.serverCount.toNat).map (fun s => (c.partyCount.toNat, s)))) := by
  refine NoBetterThan.group (I := Nat × Nat) (P := fun e => e.1 < c.serverCount.toNat) (S := fun f r => LooksUp (launchMany ((w.askingAll (fun s i => f (s, i))).drawing k c.serverCount.toNat r) file path "online"
        c.partyCount.toNat c.serverCount.toNat q) ((List.range c.serverCount.toNat).map (fun s => (c.partyCount.toNat, s))))
    (delta_nonneg hA h.noise hce hcd he he1 hd0 hd1 hcut) ?_ J hJ hJS (fun e => row e.1 e.2) (fun e => row' e.1 e.2) (fun e he => hr e.1 e.2 he)
  intro f f' e hP hf
  have e1 : w.askingAll (fun s i => f (s, i)) = (w.askingAll (fun s i => f (s, i))).asking e.1 (fun i => f (e.1, i)) :=
    (World.askingAll_self w (fun s i => f (s, i)) e.1).symm
  have e2 : w.askingAll (fun s i => f' (s, i)) = (w.askingAll (fun s i => f (s, i))).asking e.1 (fun i => f' (e.1, i)) := by
    rw [World.askingAll_asking]
    congr 1
    funext s i
    by_cases hse : s = e.1
    · subst hse
      rw [Function.update_self]
    · rw [Function.update_of_ne hse]
      exact (hf (s, i) fun h => hse (congrArg Prod.fst h)).symm
  have := C63_many_servers (w.askingAll (fun s i => f (s, i))) ⟨hw.division, hw.order, hw.backendOrder⟩ hA hs c d
    ⟨h.parties, h.servers, h.rows, h.pairs, h.noise⟩ hS hrows hshare epsilon delta hce hcd he he1 hd0 hd1 cutoff hcut file path hpath hc q hq k hk
    e.1 hP (fun i => f (e.1, i)) (fun i => f' (e.1, i)) e.2 (fun i hi => hf (e.1, i) fun h => hi (congrArg Prod.snd h))
  rw [← e1, ← e2] at this
  exact this

/-- **C75.** One server per party, connecting included. -/
theorem C75_one_server_connecting (w : World box) (hw : w.Sane) (hA : IsDouble w.arith) (hs : w.sampling = true) (c : Config) (d : Dist)
    (h : Usable w c d) (hS : c.serverCount.toNat = 1)
    (m : Hosts H) (hreach : m.Reaches c) (hn : m.NoClash c)
    (epsilon delta : ℝ) (hce : Dbl.ofBits c.epsilon = .fin epsilon)
    (hcd : Dbl.ofBits c.delta = .fin delta) (he : 0 < epsilon) (he1 : epsilon ≤ 2 ^ 1000) (hd0 : 0 < delta) (hd1 : delta ≤ 1)
    (cutoff : ℝ) (hcut : d.cutoff = .fin cutoff)
    (file : String → Option (List Byte)) (path stage : String) (hpath : path ≠ "") (hst : stage = "online" ∨ stage = "all")
    (hc : readFile (file path) = .ok c) (q : Nat) (hq : q + (c.partyCount.toNat - 1) * (c.dbSize.toNat * ⌊2 * cutoff⌋.toNat) < 2 ^ 32)
    (k : Nat) (hk : k + 1 < c.partyCount.toNat) (row row' : Nat → Nat) (J : Finset Nat) (hJ : J.Nonempty) (hr : ∀ i, i ∉ J → row i = row' i) :
    NoBetterThan (rows := c.dbSize.toNat) (J.card * (epsilon * (1 + (1 / 2) ^ 50)))
      (groupDelta (epsilon * (1 + (1 / 2) ^ 50)) (roundedDelta (epsilon * (1 + (1 / 2) ^ 50)) delta cutoff) J.card)
      (fun r => ConnectsAndLooksUp (fun k => (k, 0)) (setup m c)
        (launch ((w.asking 0 row).drawing k 1 r) file path stage c.partyCount.toNat q) [c.partyCount.toNat])
      (fun r => ConnectsAndLooksUp (fun k => (k, 0)) (setup m c)
        (launch ((w.asking 0 row').drawing k 1 r) file path stage c.partyCount.toNat q) [c.partyCount.toNat]) := by
  exact NoBetterThan.group (P := fun _ => True) (S := fun row r => ConnectsAndLooksUp (fun k => (k, 0)) (setup m c)
        (launch ((w.asking 0 row).drawing k 1 r) file path stage c.partyCount.toNat q) [c.partyCount.toNat])
    (delta_nonneg hA h.noise hce hcd he he1 hd0 hd1 hcut)
    (fun f f' e _ hf => C63_one_server_connecting w hw hA hs c d h hS m hreach hn epsilon delta hce hcd he he1 hd0 hd1 cutoff hcut file path stage hpath hst hc q hq k hk f f' e hf)
    J hJ (fun _ _ => trivial) row row' hr

/-- **C75.** Several servers per party, connecting included. -/
theorem C75_many_servers_connecting (w : World box) (hw : w.Sane) (hA : IsDouble w.arith) (hs : w.sampling = true) (c : Config) (d : Dist)
    (h : Usable w c d) (hS : 2 ≤ c.serverCount.toNat ∧ c.serverCount.toNat ≤ 254) (hrows : c.serverCount.toNat ≤ c.dbSize.toNat)
    (hshare : (c.serverCount.toNat - 1) * ((c.dbSize.toNat + c.serverCount.toNat - 1) / c.serverCount.toNat) ≤ c.dbSize.toNat)
    (m : Hosts H) (hreach : m.Reaches c) (hn : m.NoClash c)
    (epsilon delta : ℝ) (hce : Dbl.ofBits c.epsilon = .fin epsilon)
    (hcd : Dbl.ofBits c.delta = .fin delta) (he : 0 < epsilon) (he1 : epsilon ≤ 2 ^ 1000) (hd0 : 0 < delta) (hd1 : delta ≤ 1)
    (cutoff : ℝ) (hcut : d.cutoff = .fin cutoff)
    (file : String → Option (List Byte)) (path : String) (hpath : path ≠ "")
    (hc : readFile (file path) = .ok c) (q : Nat → Nat)
    (hq : ((List.range c.serverCount.toNat).map q).sum + (c.partyCount.toNat - 1) * (c.dbSize.toNat * ⌊2 * cutoff⌋.toNat) < 2 ^ 32)
    (k : Nat) (hk : k + 1 < c.partyCount.toNat) (row row' : Nat → Nat → Nat) (J : Finset (Nat × Nat)) (hJ : J.Nonempty)
    (hJS : ∀ e ∈ J, e.1 < c.serverCount.toNat) (hr : ∀ s i, (s, i) ∉ J → row s i = row' s i) :
    NoBetterThan (rows := c.dbSize.toNat) (J.card * (epsilon * (1 + (1 / 2) ^ 50)))
      (groupDelta (epsilon * (1 + (1 / 2) ^ 50)) (roundedDelta (epsilon * (1 + (1 / 2) ^ 50)) delta cutoff) J.card)
      (fun r => ConnectsAndLooksUp id (setup m c)
        (launchMany ((w.askingAll row).drawing k c.serverCount.toNat r) file path "online"
        c.partyCount.toNat c.serverCount.toNat q) ((List.range c.serverCount.toNat).map (fun s => (c.partyCount.toNat, s))))
      (fun r => ConnectsAndLooksUp id (setup m c)
        (launchMany ((w.askingAll row').drawing k c.serverCount.toNat r) file path "online"
        c.partyCount.toNat c.serverCount.toNat q) ((List.range c.serverCount.toNat).map (fun s => (c.partyCount.toNat, s)))) := by
  refine NoBetterThan.group (I := Nat × Nat) (P := fun e => e.1 < c.serverCount.toNat) (S := fun f r => ConnectsAndLooksUp id (setup m c)
        (launchMany ((w.askingAll (fun s i => f (s, i))).drawing k c.serverCount.toNat r) file path "online"
        c.partyCount.toNat c.serverCount.toNat q) ((List.range c.serverCount.toNat).map (fun s => (c.partyCount.toNat, s))))
    (delta_nonneg hA h.noise hce hcd he he1 hd0 hd1 hcut) ?_ J hJ hJS (fun e => row e.1 e.2) (fun e => row' e.1 e.2) (fun e he => hr e.1 e.2 he)
  intro f f' e hP hf
  have e1 : w.askingAll (fun s i => f (s, i)) = (w.askingAll (fun s i => f (s, i))).asking e.1 (fun i => f (e.1, i)) :=
    (World.askingAll_self w (fun s i => f (s, i)) e.1).symm
  have e2 : w.askingAll (fun s i => f' (s, i)) = (w.askingAll (fun s i => f (s, i))).asking e.1 (fun i => f' (e.1, i)) := by
    rw [World.askingAll_asking]
    congr 1
    funext s i
    by_cases hse : s = e.1
    · subst hse
      rw [Function.update_self]
    · rw [Function.update_of_ne hse]
      exact (hf (s, i) fun h => hse (congrArg Prod.fst h)).symm
  have := C63_many_servers_connecting (w.askingAll (fun s i => f (s, i))) ⟨hw.division, hw.order, hw.backendOrder⟩ hA hs c d
    ⟨h.parties, h.servers, h.rows, h.pairs, h.noise⟩ hS hrows hshare m hreach hn epsilon delta hce hcd he he1 hd0 hd1 cutoff hcut file path hpath hc q hq k hk
    e.1 hP (fun i => f (e.1, i)) (fun i => f' (e.1, i)) e.2 (fun i hi => hf (e.1, i) fun h => hi (congrArg Prod.snd h))
  rw [← e1, ← e2] at this
  exact this

/-! ### Examples -/

namespace Example

/-- One server per party: what the backend learns about the first three of ten queries. -/
example (row row' : Nat → Nat) (hr : ∀ i, 3 ≤ i → row i = row' i) : ∃ x : ℝ, 1 / 2 ≤ x ∧ ⌊2 * x⌋.toNat ≤ 2 ∧
    NoBetterThan (rows := 5) (3 * (2 * (1 + (1 / 2) ^ 50))) (groupDelta (2 * (1 + (1 / 2) ^ 50)) (roundedDelta (2 * (1 + (1 / 2) ^ 50)) (1 / 2) x) 3)
      (fun r => ConnectsAndLooksUp (fun k => (k, 0)) (setup oneMachine (privateConfig 1))
        (launch (((privateWorld true).asking 0 row).drawing 1 1 r) (fun _ => some (privateFile 1)) "f" "all" 3 10) [3])
      (fun r => ConnectsAndLooksUp (fun k => (k, 0)) (setup oneMachine (privateConfig 1))
        (launch (((privateWorld true).asking 0 row').drawing 1 1 r) (fun _ => some (privateFile 1)) "f" "all" 3 10) [3]) := by
  obtain ⟨d, x, hu, hx, hx2, hf, e1, e2, e3, b1, b2, hx1, hn⟩ := private_ok true 1 (Or.inl rfl)
  refine ⟨x, hx1, hx2, ?_⟩
  have := C75_one_server_connecting (privateWorld true) (privateWorld_sane true) trunc_dist.1 rfl (privateConfig 1) d hu e2 oneMachine
    (oneMachine_reaches _) hn 2 (1 / 2) b1 b2 (by norm_num) two_le
    (by norm_num) (by norm_num) x hx (fun _ => some (privateFile 1)) "f" "all" (by decide) (Or.inr rfl) hf 10 (by rw [e1, e3]; omega) 1
    (by rw [e1]; omega) row row' (Finset.range 3) (by simp) (fun i hi => hr i (by simpa using hi))
  rw [e1, e3, Finset.card_range] at this
  exact_mod_cast this

/-- Two servers per party: the first query of each client. -/
example (row row' : Nat → Nat → Nat) (hr : ∀ s i, i ≠ 0 ∨ 2 ≤ s → row s i = row' s i) : ∃ x : ℝ, 1 / 2 ≤ x ∧ ⌊2 * x⌋.toNat ≤ 2 ∧
    NoBetterThan (rows := 5) (2 * (2 * (1 + (1 / 2) ^ 50))) (groupDelta (2 * (1 + (1 / 2) ^ 50)) (roundedDelta (2 * (1 + (1 / 2) ^ 50)) (1 / 2) x) 2)
      (fun r => LooksUp (launchMany (((privateWorld true).askingAll row).drawing 0 2 r) (fun _ => some (privateFile 2)) "f" "online" 3 2
        (fun s => 10 + s)) [(3, 0), (3, 1)])
      (fun r => LooksUp (launchMany (((privateWorld true).askingAll row').drawing 0 2 r) (fun _ => some (privateFile 2)) "f" "online" 3 2
        (fun s => 10 + s)) [(3, 0), (3, 1)]) := by
  obtain ⟨d, x, hu, hx, hx2, hf, e1, e2, e3, b1, b2, hx1, hn⟩ := private_ok true 2 (Or.inr rfl)
  refine ⟨x, hx1, hx2, ?_⟩
  have := C75_many_servers (privateWorld true) (privateWorld_sane true) trunc_dist.1 rfl (privateConfig 2) d hu (by omega) (by omega)
    (by rw [e2, e3]; norm_num) 2 (1 / 2) b1 b2 (by norm_num) two_le
    (by norm_num) (by norm_num) x hx (fun _ => some (privateFile 2)) "f" (by decide) hf (fun s => 10 + s)
    (by rw [e1, e2, e3]; simp [List.range_succ]; omega) 0 (by rw [e1]; omega) row row' {(0, 0), (1, 0)} (by simp)
    (fun e he => by
      rw [e2]
      simp only [Finset.mem_insert, Finset.mem_singleton] at he
      rcases he with rfl | rfl <;> decide)
    (fun s i hi => hr s i (by simp only [Finset.mem_insert, Finset.mem_singleton, Prod.mk.injEq, not_or] at hi; omega))
  rw [e1, e2, e3] at this
  exact_mod_cast this

end Example

end DPPIR.Props
