import Verif.Proofs.HidingGrid
import Verif.Spec.Coalition

/-!
# What the others see of a client
-/

namespace DPPIR.Protocol
open DPPIR Proc Onion Incremental Additive Spec Props Shuffle PNet

variable {box : SealedBox}

namespace Grid

/-- All calls of a client depend on this client only. -/
theorem SameClient.obsAll {g g' : Grid box} {s : Nat} (h : g.SameClient g' s) (offline online : Bool) :
    g'.obsAll offline online 0 s = g.obsAll offline online 0 s := by
  have hc : g'.clientTag s = g.clientTag s := by
    funext i
    unfold clientTag
    rw [h.count]
  have ht : g'.tickets 0 s = g.tickets 0 s := by
    rw [tickets, tickets, h.count, h.rand, h.parties, hc]
  have hq : g'.clientQs offline s = g.clientQs offline s := by
    have h1 : g'.tag offline s = g.tag offline s := by funext j; unfold tag; rw [hc]
    have h2 : g'.shares offline s = g.shares offline s := by funext j; unfold shares; rw [h.rand, h.parties]
    have h3 : g'.pres offline s = g.pres offline s := by funext j; unfold pres; rw [h.rand, h.parties]
    funext j
    unfold clientQs
    rw [h1, h2, h3, h.rows, h.rand]
  have hqs : g'.qs offline 0 s = g.qs offline 0 s := by
    rw [qs, qs, h.count, hq]
  rw [client_obs, client_obs, ht, hqs, h.pkeys]
  have : g'.load 0 s = g.load 0 s := h.count
  rw [this]

/-! ### Other random choices of the clients -/

/-- A deployment with other choices of the clients. -/
def withRand (g : Grid box) (R : Nat → ClientRand box) : Grid box := { g with clientRand := R }

section
variable (g : Grid box) (R : Nat → ClientRand box)

theorem withRand_total (k : Nat) : (g.withRand R).total k = g.total k := by
  induction k with
  | zero => rfl
  | succ k ih => rw [total, total, ih]; rfl

theorem withRand_load (k s : Nat) : (g.withRand R).load k s = g.load k s := by
  cases k with
  | zero => rfl
  | succ k => rw [load, load, withRand_total]; rfl

theorem withRand_noiseTag (k s i : Nat) : (g.withRand R).noiseTag k s i = g.noiseTag k s i := by
  unfold noiseTag
  rw [withRand_total]
  rfl

theorem withRand_slot (k s : Nat) : (g.withRand R).slot k s = g.slot k s := by
  unfold slot
  have : (g.withRand R).load k = g.load k := funext (withRand_load g R k)
  rw [this]
  rfl

theorem withRand_dests (k : Nat) : (g.withRand R).dests k = g.dests k := by
  unfold dests
  rw [withRand_slot]

theorem withRand_valid (h : g.Valid) : (g.withRand R).Valid :=
  ⟨h.parties, h.servers, h.rows, h.ranges, h.keys, h.pairs, h.division, h.order, h.backendOrder, by
    have := h.fits
    rw [withRand_total]
    exact this⟩

theorem withRand_distinct (h : g.DistinctTags) : (g.withRand R).DistinctTags := by
  unfold DistinctTags allTags at *
  have : (g.withRand R).noiseTag = g.noiseTag := by
    funext k s i
    exact withRand_noiseTag g R k s i
  rw [this]
  exact h

end

section
variable {g : Grid box} (h : g.Valid) {R R' : Nat → ClientRand box}

theorem tickets_like (h0 : ∀ n s, n + 1 = g.parties → s < g.servers →
      List.Forall₂ (Ticket.Sim n) ((g.withRand R).tickets 0 s) ((g.withRand R').tickets 0 s))
    (k n s : Nat) (hk : k + n + 1 = g.parties) (hs : s < g.servers) :
    List.Forall₂ (Ticket.Sim n) ((g.withRand R).tickets k s) ((g.withRand R').tickets k s) := by
  induction k generalizing n s with
  | zero => exact h0 n s (by omega) hs
  | succ k ih =>
    rw [tickets, tickets, withRand_slot, withRand_slot, withRand_dests, withRand_dests]
    refine forall₂_shuffled (fun s' hs' => ?_) _ _ _
    have := ih (n + 1) s' (by omega) hs'
    unfold Slot.mixed
    have e : ∀ R, (g.withRand R).noiseTs k s' = g.noiseTs k s' := by
      intro R
      unfold noiseTs
      have : (g.withRand R).noiseTag k s' = g.noiseTag k s' := funext (withRand_noiseTag g R k s')
      rw [this]
      rfl
    rw [e, e]
    refine forall₂_append (forall₂_self ?_) (forall₂_map this (fun a b hab => hab.next))
    intro t ht
    refine Ticket.Sim.refl ?_
    simp only [noiseTs, List.mem_map] at ht
    obtain ⟨i, -, rfl⟩ := ht
    rw [show g.parties - k - 1 = n + 1 by omega]
    exact SecretRand.ticket_good _ _ _

include h in
theorem qs_like (h0 : ∀ n s, n + 1 = g.parties → s < g.servers →
      List.Forall₂ (QTicket.Sim n) ((g.withRand R).qs true 0 s) ((g.withRand R').qs true 0 s))
    (k n s : Nat) (hk : k + n + 1 = g.parties) (hs : s < g.servers) :
    List.Forall₂ (QTicket.Sim n) ((g.withRand R).qs true k s) ((g.withRand R').qs true k s) := by
  induction k generalizing n s with
  | zero => exact h0 n s (by omega) hs
  | succ k ih =>
    rw [qs, qs, withRand_slot, withRand_slot, withRand_dests, withRand_dests]
    refine forall₂_shuffled (fun s' hs' => ?_) _ _ _
    have := ih (n + 1) s' (by omega) hs'
    have e : ∀ R, (g.withRand R).noiseQs true k s' = g.noiseQs true k s' := by
      intro R
      unfold noiseQs
      have : (g.withRand R).noiseTag k s' = g.noiseTag k s' := funext (withRand_noiseTag g R k s')
      rw [this, withRand_slot]
      rfl
    unfold rawQ
    rw [e, e]
    refine forall₂_append (forall₂_self ?_) (forall₂_map this (fun a b hab => hab.next))
    intro q hq
    have := noiseQs_good h true (show k + 1 < g.parties by omega) hs' q hq
    rw [show g.parties - (k + 1) = n + 1 by omega] at this
    exact QTicket.Sim.refl this

end

section
variable {g : Grid box} (h : g.Valid) (t : Nat) (row row' : Nat → Nat) (d : Draws (g.count t) g.parties)

/-- Other draws of one client for other keys. -/
def shiftOf : Draws (g.count t) g.parties ≃ Draws (g.count t) g.parties :=
  shiftEquiv (key h (fun _ => row) t) (key h (fun _ => row') t)

theorem withDrawsOf_rand : g.withDrawsOf t row d = g.withRand (Function.update g.clientRand t ((g.clientRand t).withDraws row d)) := rfl

theorem tickets_of (n s : Nat) (hn : n + 1 = g.parties) (hs : s < g.servers) :
    List.Forall₂ (Ticket.Sim n) ((g.withDrawsOf t row d).tickets 0 s) ((g.withDrawsOf t row' (shiftOf h t row row' d)).tickets 0 s) := by
  rw [tickets, tickets]
  refine forall₂_map (R := fun a b => a = b ∧ a < g.count s) (forall₂_self (fun a ha => ⟨rfl, List.mem_range.1 ha⟩)) ?_
  rintro a _ ⟨rfl, ha⟩
  by_cases hst : s = t
  · subst hst
    have e1 : (g.withDrawsOf s row d).clientRand s = (g.clientRand s).withDraws row d := Function.update_self ..
    have e2 : (g.withDrawsOf s row' (shiftOf h s row row' d)).clientRand s =
      (g.clientRand s).withDraws row' (shiftDraws (key h (fun _ => row) s) (key h (fun _ => row') s) d) := Function.update_self ..
    rw [e1, e2]
    show Ticket.Sim n (SecretRand.ticket _ g.parties (g.clientTag s a)) (SecretRand.ticket _ g.parties (g.clientTag s a))
    exact ticket_sim' _ row row' (key h (fun _ => row) s) (key h (fun _ => row') s) (by omega) d ha _
  · have e1 : (g.withDrawsOf t row d).clientRand s = g.clientRand s := Function.update_of_ne hst ..
    have e2 : (g.withDrawsOf t row' (shiftOf h t row row' d)).clientRand s = g.clientRand s := Function.update_of_ne hst ..
    rw [e1, e2]
    show Ticket.Sim n (SecretRand.ticket _ g.parties (g.clientTag s a)) (SecretRand.ticket _ g.parties (g.clientTag s a))
    rw [← hn]
    exact Ticket.Sim.refl (SecretRand.ticket_good _ _ _)

theorem qs_of (n s : Nat) (hn : n + 1 = g.parties) (hs : s < g.servers) :
    List.Forall₂ (QTicket.Sim n) ((g.withDrawsOf t row d).qs true 0 s) ((g.withDrawsOf t row' (shiftOf h t row row' d)).qs true 0 s) := by
  by_cases hst : s = t
  · subst hst
    rw [qs, qs]
    refine forall₂_map (R := fun a b => a = b ∧ a < g.count s) (forall₂_self (fun a ha => ⟨rfl, List.mem_range.1 ha⟩)) ?_
    rintro a _ ⟨rfl, ha⟩
    have e1 : (g.withDrawsOf s row d).clientRand s = (g.clientRand s).withDraws row d := Function.update_self ..
    have e2 : (g.withDrawsOf s row' (shiftOf h s row row' d)).clientRand s =
      (g.clientRand s).withDraws row' (shiftDraws (key h (fun _ => row) s) (key h (fun _ => row') s) d) := Function.update_self ..
    unfold clientQs clientQ tag shares pres
    simp only [if_true]
    rw [e1, e2]
    show QTicket.Sim n (QTicket.fresh (g.clientTag s a) (key h (fun _ => row) s a).val (preIncrementalSecretShares _ g.parties) (List.map _ (List.range g.parties)))
      (QTicket.fresh (g.clientTag s a) (key h (fun _ => row') s a).val (preIncrementalSecretShares _ g.parties) (List.map _ (List.range g.parties)))
    exact fresh_sim' _ row row' (key h (fun _ => row) s) (key h (fun _ => row') s) (by omega) d ha _
  · have e1 : (g.withDrawsOf t row d).clientRand s = g.clientRand s := Function.update_of_ne hst ..
    have e2 : (g.withDrawsOf t row' (shiftOf h t row row' d)).clientRand s = g.clientRand s := Function.update_of_ne hst ..
    have e : (g.withDrawsOf t row' (shiftOf h t row row' d)).qs true 0 s = (g.withDrawsOf t row d).qs true 0 s := by
      rw [qs, qs]
      unfold clientQs tag shares pres
      rw [e1, e2]
      rfl
    rw [e]
    refine forall₂_self fun q hq => ?_
    rw [withDrawsOf_rand] at hq
    have := (qs_spec (withRand_valid g (Function.update g.clientRand t ((g.clientRand t).withDraws row d)) h) true 0
      (show 0 < g.parties by omega) s hs).2.1 q hq
    rw [Nat.sub_zero, show (g.withRand (Function.update g.clientRand t ((g.clientRand t).withDraws row d))).parties = n + 1
      from hn.symm] at this
    exact QTicket.Sim.refl this

theorem sealed_of (i s : Nat) (h1 : 1 ≤ i) (hi : i < g.parties) (hs : s < g.servers) :
    ((g.withDrawsOf t row d).obsAll true true i s).map Obs.sealed =
      ((g.withDrawsOf t row' (shiftOf h t row row' d)).obsAll true true i s).map Obs.sealed := by
  obtain ⟨k, rfl⟩ : ∃ k, i = k + 1 := ⟨i - 1, by omega⟩
  obtain ⟨n, hn⟩ : ∃ n, k + (n + 1) + 1 = g.parties := ⟨g.parties - k - 2, by omega⟩
  have hl := h.keysLength
  have hp := h.parties
  have ht := fun k n s => tickets_like (R := Function.update g.clientRand t ((g.clientRand t).withDraws row d))
    (R' := Function.update g.clientRand t ((g.clientRand t).withDraws row' (shiftOf h t row row' d))) (tickets_of h t row row' d) k n s
  have hq := fun k n s => qs_like h (R := Function.update g.clientRand t ((g.clientRand t).withDraws row d))
    (R' := Function.update g.clientRand t ((g.clientRand t).withDraws row' (shiftOf h t row row' d))) (qs_of h t row row' d) k n s
  rw [withDrawsOf_rand, withDrawsOf_rand,
    party_obs (g.withRand (Function.update g.clientRand t ((g.clientRand t).withDraws row d))) _ _ _ k hi,
    party_obs (g.withRand (Function.update g.clientRand t ((g.clientRand t).withDraws row' (shiftOf h t row row' d)))) _ _ _ k hi]
  rw [withRand_load, withRand_load, withRand_load, withRand_load]
  exact sealed_record h.good (by omega) (by omega) _ _ (ht k (n + 1) s hn hs) (ht (k + 1) n s (by omega) hs) (hq k (n + 1) s hn hs)
    (hq (k + 1) n s (by omega) hs)

theorem same_of (s : Nat) (hst : s ≠ t) : g.SameClient (g.withDrawsOf t row d) s :=
  ⟨rfl, rfl, rfl, rfl, Function.update_of_ne hst ..⟩

theorem othersSee_iff (v : Node → List Obs) (h : g.Valid) (hd : g.DistinctTags) : g.OthersSee t v ↔
    (∀ i s, 1 ≤ i → i < g.parties → s < g.servers → (g.obsAll true true i s).map Obs.sealed = v (i, s)) ∧
    ∀ s, s < g.servers → s ≠ t → g.obsAll true true 0 s = v (0, s) := by
  constructor
  · rintro ⟨cap, n, hn, hf, hv, hc⟩
    have a := ((every_run h true true (fun _ => hd) cap).1 n hn).2.2.1
    refine ⟨fun i s h1 hi hs => ?_, fun s hs hst => ?_⟩
    · rw [← hv i s h1 hi hs, a i s hs (hf (i, s))]
      rfl
    · rw [← hc s hs hst, a 0 s hs (hf (0, s))]
      rfl
  · rintro ⟨hv, hc⟩
    obtain ⟨cap, hcap⟩ := exists_roomy g
    obtain ⟨n, hn, hf⟩ := complete_run h true true (fun _ => hd) hcap
    have a := ((every_run h true true (fun _ => hd) cap).1 n hn).2.2.1
    refine ⟨cap, n, hn, hf, fun i s h1 hi hs => ?_, fun s hs hst => ?_⟩
    · rw [← hv i s h1 hi hs, a i s hs (hf (i, s))]
      rfl
    · rw [← hc s hs hst, a 0 s hs (hf (0, s))]
      rfl

theorem othersSee_shift (hd : g.DistinctTags) (v : Node → List Obs) : (g.withDrawsOf t row d).OthersSee t v ↔
    (g.withDrawsOf t row' (shiftOf h t row row' d)).OthersSee t v := by
  rw [withDrawsOf_rand, withDrawsOf_rand, othersSee_iff t v (withRand_valid g _ h) (withRand_distinct g _ hd),
    othersSee_iff t v (withRand_valid g _ h) (withRand_distinct g _ hd)]
  refine and_congr ⟨fun hv i s h1 hi hs => ?_, fun hv i s h1 hi hs => ?_⟩ ⟨fun hv s hs hst => ?_, fun hv s hs hst => ?_⟩
  · exact (sealed_of h t row row' d i s h1 hi hs).symm.trans (hv i s h1 hi hs)
  · exact (sealed_of h t row row' d i s h1 hi hs).trans (hv i s h1 hi hs)
  · exact ((same_of t row' _ s hst).obsAll true true).trans (((same_of t row d s hst).obsAll true true).symm.trans (hv s hs hst))
  · exact ((same_of t row d s hst).obsAll true true).trans (((same_of t row' _ s hst).obsAll true true).symm.trans (hv s hs hst))

end
end Grid
end DPPIR.Protocol
