import Verif.Proofs.ConnectClash
import Verif.Props.Config

/-!
# C54: the processes of a deployment find each other
-/

namespace DPPIR.Props
open DPPIR.Config DPPIR.Connect
open DPPIR.Protocol (Node)

variable {H : Type} [DecidableEq H]

theorem config_complete {c : Config} (hc : Consistent c) : Complete c := by
  intro k s hk hs
  have h1 : k < c.parties.length := by rw [hc.1]; exact hk
  have h2 : s < c.parties[k].servers.length := by rw [hc.2 _ (List.getElem_mem h1)]; exact hs
  exact ⟨_, _, List.getElem?_eq_getElem h1, List.getElem?_eq_getElem h2⟩

private theorem inside {c : Config} (hc : Consistent c) {k s : Nat} {v : ServerConfig} (h : At c k s v) :
    k < c.partyCount.toNat ∧ s < c.serverCount.toNat := by
  obtain ⟨p, h1, h2⟩ := h
  obtain ⟨h3, rfl⟩ := List.getElem?_eq_some_iff.mp h1
  obtain ⟨h4, -⟩ := List.getElem?_eq_some_iff.mp h2
  rw [hc.2 _ (List.getElem_mem h3)] at h4
  rw [hc.1] at h3
  exact ⟨h3, h4⟩

omit [DecidableEq H] in
theorem plan_small (c : Config) (h : Hosts H) : (planOf h c).S ≤ 256 := by
  show c.serverCount.toNat ≤ 256
  have := c.serverCount.isLt
  omega

omit [DecidableEq H] in
private theorem lk_of_peers {h : Hosts H} {c : Config} {j i : Node} (hp : Peers c j i) : (planOf h c).Lk j i := by
  obtain ⟨h1, h2, h3, h4, h5⟩ := hp
  refine ⟨⟨?_, h1⟩, ⟨h4, h2⟩, h3, h5⟩
  show j.1 ≤ c.partyCount.toNat
  omega

/-- **C54**. If the configured addresses lead to the machines the servers run on, and no
two sockets are configured to listen at the same port of a machine, then the processes
connect, in whatever order they start and proceed: every one ends up with the right
connection for each of its peers. -/
theorem C54_connects (h : Hosts H) (c : Config) (hc : Consistent c) (hP : 0 < c.partyCount.toNat) (hr : h.Reaches c)
    (hn : h.NoClash c) : Connects h c := by
  have hd := planOf_distinct h c (config_complete hc) hn
  have hS := plan_small c h
  have h0 : Inv (planOf h c) (CNet.start (setup h c)) initial :=
    inv_start hP (fun i hi => setup_eq h c (config_complete hc) hP hr i hi) (fun i hi => setup_out h c i hi)
  refine ⟨(planOf h c).link, fun j i j' i' h1 h2 e => Plan.link_inj (lk_of_peers h1) (lk_of_peers h2) e, ?_, ?_⟩
  · intro n hrn
    obtain ⟨st, hi⟩ := h0.reach hd hS hrn
    have hprog : ∀ i, (planOf h c).In i → ∀ e, (planOf h c).progAt i (st i) ≠ .fault e := by
      intro i hin e
      have hok := hi.ok i hin
      revert hok
      exact progAt_not_fault i hin (st i) e
    refine ⟨?_, ?_, ?_⟩
    · rintro i ⟨e, he⟩
      by_cases hin : (planOf h c).In i
      · exact hprog i hin e ((hi.proc i hin).symm.trans he)
      · rw [hi.out i hin] at he; cases he
    · intro hstuck
      have hfin : ∀ i, (planOf h c).In i → st i = .fin := fun i hin => stuck_fin hi hstuck i.2 i hin rfl
      have hpend : ∀ i k, (planOf h c).End i k → n.pending ((planOf h c).ad i k) = [] := by
        intro i k he
        rw [List.eq_nil_iff_forall_not_mem]
        intro x hx
        obtain ⟨j, hl, -, -, -, h5⟩ := (hi.net.pend i k he x).mp hx
        apply h5
        simp only [know, hfin i hl.2.1]
        rcases hl.2.2.2 with h6 | h6
        · simp [h6.1]
        · simp [h6.1]
      refine ⟨fun i => ?_, fun x => ?_, ?_⟩
      · by_cases hin : (planOf h c).In i
        · exact ⟨_, (hi.proc i hin).trans (by rw [hfin i hin]; rfl)⟩
        · exact ⟨_, hi.out i hin⟩
      · by_contra hx
        obtain ⟨j, i, hl, rfl⟩ := hi.net.other x hx
        rw [hi.net.chan j i hl] at hx
        apply hx
        rw [if_neg]
        rintro ⟨hg, hrd⟩
        apply hrd
        simp only [know, hfin i hl.2.1]
        exact ⟨hg.1, by simp⟩
      · intro k s v hv
        have hin : (planOf h c).In (k + 1, s) := ⟨(inside hc hv).1, (inside hc hv).2⟩
        have e1 := hpend (k + 1, s) false ⟨hin, Nat.succ_pos _, fun h => by cases h⟩
        refine ⟨by simpa [planOf, hv.conf] using e1, fun h0 => ?_⟩
        have e2 := hpend (k + 1, s) true ⟨hin, Nat.succ_pos _, fun _ => h0⟩
        simpa [planOf, hv.conf] using e2
    · intro i w h1 h2 hw
      have hin : (planOf h c).In i := ⟨h1, h2⟩
      have : st i = .fin ∧ w = (planOf h c).wiring i := by
        have e := (hi.proc i hin).symm.trans hw
        exact progAt_done i hin (hi.ok i hin) e
      rw [this.2]
      exact wired h c i h2
  · intro f hf hrun
    exact Inv.finite (by rw [hf]; exact h0) hd hS hrun

/-- **C54**. When two processes of a connected deployment have returned, they hold the two
ends of one connection: a server and the same server of the next party (or the client and
its server of the first one), and any two servers of a party. -/
theorem C54_peers (h : Hosts H) (c : Config) (hc : Consistent c) (hP : 0 < c.partyCount.toNat) (hr : h.Reaches c)
    (hn : h.NoClash c) (n : CNet Node (Addr H) (Wiring Node)) (hrn : CNet.Reach (CNet.start (setup h c)) n) :
    (∀ k s v w, k < c.partyCount.toNat → s < c.serverCount.toNat → n.Returned (k, s) v → n.Returned (k + 1, s) w →
      ∃ x, v.next = some ⟨x, false⟩ ∧ w.back = some ⟨x, true⟩) ∧
    (∀ k s t v w, k < c.partyCount.toNat → s < t → t < c.serverCount.toNat → n.Returned (k + 1, s) v → n.Returned (k + 1, t) w →
      ∃ x, v.sib t = some ⟨x, false⟩ ∧ w.sib s = some ⟨x, true⟩) := by
  obtain ⟨link, -, h2, -⟩ := C54_connects h c hc hP hr hn
  obtain ⟨-, -, h3⟩ := h2 n hrn
  refine ⟨fun k s v w hk hs hv hw => ?_, fun k s t v w hk hst ht hv hw => ?_⟩
  · refine ⟨link (k, s) (k + 1, s), ?_, ?_⟩
    · rw [(h3 _ v (by simp only; omega) hs hv).next, if_pos hk]
    · rw [(h3 _ w (by simp only; omega) hs hw).back, if_pos (Nat.succ_pos _)]
      simp only [Nat.add_sub_cancel]
  · refine ⟨link (k + 1, s) (k + 1, t), ?_, ?_⟩
    · rw [(h3 _ v (by simp only; omega) (by simp only; omega) hv).sib, if_pos ⟨Nat.succ_pos _, ht, by simp only; omega⟩,
        if_neg (by simp only; omega)]
    · rw [(h3 _ w (by simp only; omega) ht hw).sib, if_pos ⟨Nat.succ_pos _, by omega, by simp only; omega⟩,
        if_pos hst]

/-- **C54**. The condition on the ports is exact: all processes can come up if and only if
no two sockets are configured to listen at the same port of a machine. -/
theorem C54_exactly (h : Hosts H) (c : Config) (hc : Consistent c) (hP : 0 < c.partyCount.toNat) (hr : h.Reaches c) :
    (∃ n, CNet.Reach (CNet.start (setup h c)) n ∧ ∀ i, ∃ w, n.Returned i w) ↔ h.NoClash c := by
  constructor
  · rintro ⟨n, hrn, hall⟩
    exact noClash_of_returned h c (fun k s v hv => inside hc hv) hrn hall
  · intro hn
    have hd := planOf_distinct h c (config_complete hc) hn
    have h0 : Inv (planOf h c) (CNet.start (setup h c)) initial :=
      inv_start hP (fun i hi => setup_eq h c (config_complete hc) hP hr i hi) (fun i hi => setup_out h c i hi)
    obtain ⟨n, hrn, hstuck⟩ := Inv.completes hd (plan_small c h) _ _ _ h0 (le_refl _)
    obtain ⟨_, _, h2, _⟩ := C54_connects h c hc hP hr hn
    exact ⟨n, hrn, ((h2 n hrn).2.1 hstuck).1⟩

private theorem port16_eq {x y : BitVec 32} (hx : x.toNat < 65536) (hy : y.toNat < 65536) (h : port16 x = port16 y) : x = y := by
  have := congrArg BitVec.toNat h
  simp only [port16, BitVec.toNat_setWidth] at this
  exact BitVec.eq_of_toNat_eq (by omega)

omit [DecidableEq H] in
/-- The ports of a generated configuration with at most 1000 servers. -/
theorem generated_noClash (keys : Nat → (Fin keySize → Byte) × (Fin keySize → Byte)) (db : Int)
    (e d : BitVec 64) (P S : Nat) (hP : P < 256) (hS : S < 256) (hPS : P * S ≤ 1000) (ips : List (List Byte))
    (hips : ips.length = P * S ∨ ips = []) (hnul : ∀ ip ∈ ips, (0 : Byte) ∉ ip) (c : Config)
    (hc : fromArgs keys db e d P S ips = .ok c) (h : Hosts H) : h.NoClash c := by
  obtain ⟨c', hc', h1, -, h3, -, -, -, h5, h6⟩ := C34_from_args keys db e d P S hP hS ips hips hnul
  have ec : c' = c := Except.ok.inj (hc'.symm.trans hc)
  subst ec
  intro k s v k' s' v' hv hv' _
  have a := h6 hPS _ _ _ _ _ _ hv hv'
  have b := h6 hPS _ _ _ _ _ _ hv' hv
  refine ⟨fun hne ep => ?_, fun hne _ _ ep => ?_, fun _ ep => ?_⟩
  · exact (h5 _ _ _ _ _ _ hv hv' hne).1 (port16_eq a.2.1 b.2.1 ep)
  · exact (h5 _ _ _ _ _ _ hv hv' hne).2.1 (port16_eq a.2.2 b.2.2 ep)
  · exact a.1 (port16_eq a.2.1 b.2.2 ep)

/-- **C54**. A generated configuration with at most 1000 servers connects, wherever the
servers run, also all on one machine. -/
theorem C54_generated (keys : Nat → (Fin keySize → Byte) × (Fin keySize → Byte)) (db : Int)
    (e d : BitVec 64) (P S : Nat) (hP : P < 256) (hS : S < 256) (hP0 : 0 < P) (hPS : P * S ≤ 1000) (ips : List (List Byte))
    (hips : ips.length = P * S ∨ ips = []) (hnul : ∀ ip ∈ ips, (0 : Byte) ∉ ip) :
    ∃ c, fromArgs keys db e d P S ips = .ok c ∧ ∀ h : Hosts H, h.Reaches c → Connects h c := by
  obtain ⟨c, hc, h1, -, h3, -⟩ := C34_from_args keys db e d P S hP hS ips hips hnul
  exact ⟨c, hc, fun h hr => C54_connects h c h3 (by omega) hr (generated_noClash keys db e d P S hP hS hPS ips hips hnul c hc h)⟩

/-- **C54** fails for large generated configurations. With more than 1001 servers on one
machine, the port of one is the port another one uses for its siblings; the processes
never come up all. -/
theorem C54_violated_generated (keys : Nat → (Fin keySize → Byte) × (Fin keySize → Byte)) (db : Int)
    (e d : BitVec 64) (P S : Nat) (hP : P < 256) (hS : S < 256) (hPS : 1001 < P * S) (ips : List (List Byte))
    (hips : ips.length = P * S ∨ ips = []) (hnul : ∀ ip ∈ ips, (0 : Byte) ∉ ip) :
    ∃ c, fromArgs keys db e d P S ips = .ok c ∧ ∀ h : Hosts H, (∀ i j, h.home i = h.home j) →
      ∀ n, CNet.Reach (CNet.start (setup h c)) n → ¬ ∀ i, ∃ w, n.Returned i w := by
  obtain ⟨c, hc, -, -, h3, -, h4, -⟩ := C34_from_args keys db e d P S hP hS ips hips hnul
  refine ⟨c, hc, fun h hh n hrn hall => ?_⟩
  have hn := noClash_of_returned h c (fun k s v hv => inside h3 hv) hrn hall
  have hS2 : 2 ≤ S := by
    by_contra h
    have : P * S ≤ 255 * 1 := Nat.mul_le_mul (by omega) (by omega)
    omega
  have hP0 : 0 < P := by
    rcases Nat.eq_zero_or_pos P with h | h
    · subst h; simp at hPS
    · exact h
  have hi : 1001 / S < P := by
    rw [Nat.div_lt_iff_lt_mul (by omega)]; exact hPS
  obtain ⟨v, hv⟩ := h4 (1001 / S) (1001 % S) hi (Nat.mod_lt _ (by omega))
  obtain ⟨v', hv'⟩ := h4 0 1 hP0 (by omega)
  obtain ⟨-, -, p1, -⟩ := C34_ports keys db e d P S hP hS ips hips c hc _ _ v hv
  obtain ⟨-, -, -, p2⟩ := C34_ports keys db e d P S hP hS ips hips c hc _ _ v' hv'
  have hdm := Nat.div_add_mod 1001 S
  rw [Nat.mul_comm] at hdm
  refine (hn _ _ _ _ _ _ hv hv' (hh _ _)).2.2 (by omega) ?_
  congr 1
  exact BitVec.eq_of_toNat_eq (by omega)

/-- All processes on one machine, the hypotheses of the theorems above. -/
example : ∃ c, fromArgs (fun _ => (fun _ => 0, fun _ => 0)) 100 0 0 2 3 [] = .ok c ∧
    Connects (⟨fun _ => (), fun _ _ => ()⟩ : Hosts Unit) c := by
  obtain ⟨c, hc, h⟩ := C54_generated (H := Unit) (fun _ => (fun _ => 0, fun _ => 0)) 100 0 0 2 3 (by omega) (by omega)
    (by omega) (by omega) [] (Or.inr rfl) (by simp)
  exact ⟨c, hc, h _ (fun _ _ _ _ => ⟨rfl, fun _ _ => rfl⟩)⟩

/-- Two servers per party, each server on its own machine, all with the same port. -/
private def four : Config :=
  let p : PartyConfig := ⟨0, [⟨0, 7000, 7001, [1]⟩, ⟨0, 7000, 7001, [2]⟩], fun _ => 0, fun _ => 0⟩
  let q : PartyConfig := ⟨0, [⟨0, 7000, 7001, [3]⟩, ⟨0, 7000, 7001, [4]⟩], fun _ => 0, fun _ => 0⟩
  { dbSize := 0, epsilon := 0, delta := 0, partyCount := 2, serverCount := 2, parties := [p, q] }

example : Connects (⟨fun i => 2 * i.1 + i.2 - 1, fun _ ip => ip.head!.toNat⟩ : Hosts Nat) four := by
  have hat : ∀ k s v, At four k s v → k < 2 ∧ s < 2 ∧ v = ⟨0, 7000, 7001, [BitVec.ofNat 8 (2 * k + s + 1)]⟩ := by
    rintro k s v ⟨p, h1, h2⟩
    match k, h1 with
    | 0, h1 =>
      cases h1
      match s, h2 with
      | 0, h2 => cases h2; decide
      | 1, h2 => cases h2; decide
      | s + 2, h2 => cases h2
    | 1, h1 =>
      cases h1
      match s, h2 with
      | 0, h2 => cases h2; decide
      | 1, h2 => cases h2; decide
      | s + 2, h2 => cases h2
    | k + 2, h1 => cases h1
  refine C54_connects _ four ⟨rfl, by decide⟩ (by decide) ?_ ?_
  · intro k s v hv
    obtain ⟨h1, h2, rfl⟩ := hat k s v hv
    have : (BitVec.ofNat 8 (2 * k + s + 1)).toNat = 2 * (k + 1) + s - 1 := by
      rw [BitVec.toNat_ofNat]; omega
    exact ⟨this, fun _ _ => this⟩
  · intro k s v k' s' v' hv hv' hm
    obtain ⟨h1, h2, rfl⟩ := hat k s v hv
    obtain ⟨h1', h2', rfl⟩ := hat k' s' v' hv'
    simp only at hm
    have : (k, s) = (k', s') := by simp only [Prod.mk.injEq]; omega
    exact ⟨fun h => absurd this h, fun h => absurd this h, fun _ => show port16 7000 ≠ port16 7001 by decide⟩

end DPPIR.Props
