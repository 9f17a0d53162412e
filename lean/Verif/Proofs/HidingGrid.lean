import Verif.Proofs.Hiding
import Verif.Proofs.GridTags

/-!
# The servers before the backend see the same for other keys and other draws
-/

namespace DPPIR.Protocol
open DPPIR Proc Onion Incremental Additive Spec Props Shuffle PNet

variable {box : SealedBox}

theorem forall₂_selTo {α β : Type} {R : α → β → Prop} {l : List α} {l' : List β} (h : List.Forall₂ R l l') (ds : List Nat) (t : Nat) :
    List.Forall₂ R (selTo ds l t) (selTo ds l' t) := by
  induction h generalizing ds with
  | nil => simp
  | cons h _ ih =>
    cases ds with
    | nil => simp
    | cons a ds =>
      have := ih ds
      simp only [selTo]
      split
      · exact .cons h this
      · exact this

theorem forall₂_shuffled {α β : Type} {R : α → β → Prop} {S : Nat} {b : Nat → List α} {b' : Nat → List β}
    (h : ∀ s < S, List.Forall₂ R (b s) (b' s)) (dests : Nat → List Nat) (B : List Nat) (t : Nat) :
    List.Forall₂ R (shuffled S dests b B t) (shuffled S dests b' B t) := by
  refine forall₂_pick ?_ B
  have key : ∀ l : List Nat, (∀ s ∈ l, s < S) → List.Forall₂ R (l.flatMap (fun s => selTo (dests s) (b s) t))
      (l.flatMap (fun s => selTo (dests s) (b' s) t)) := by
    intro l
    induction l with
    | nil => intro _; exact .nil
    | cons s l ih =>
      intro hl
      rw [List.flatMap_cons, List.flatMap_cons]
      exact forall₂_append (forall₂_selTo (h s (hl s (List.mem_cons_self ..))) _ _) (ih (fun x hx => hl x (List.mem_cons_of_mem _ hx)))
  exact key _ (fun s hs => List.mem_range.1 hs)

namespace Grid

section
variable (g : Grid box) (row : Nat → Nat → Nat) (d : (s : Fin g.servers) → Draws (g.count s) g.parties)

theorem withDraws_total (k : Nat) : (g.withDraws row d).total k = g.total k := by
  induction k with
  | zero => rfl
  | succ k ih => rw [total, total, ih]; rfl

theorem withDraws_load (k s : Nat) : (g.withDraws row d).load k s = g.load k s := by
  cases k with
  | zero => rfl
  | succ k => rw [load, load, withDraws_total]; rfl

theorem withDraws_noiseTag (k s i : Nat) : (g.withDraws row d).noiseTag k s i = g.noiseTag k s i := by
  unfold noiseTag
  rw [withDraws_total]
  rfl

theorem withDraws_slot (k s : Nat) : (g.withDraws row d).slot k s = g.slot k s := by
  unfold slot
  have : (g.withDraws row d).load k = g.load k := funext (withDraws_load g row d k)
  rw [this]
  rfl

theorem withDraws_dests (k : Nat) : (g.withDraws row d).dests k = g.dests k := by
  unfold dests
  rw [withDraws_slot]

theorem withDraws_valid (h : g.Valid) : (g.withDraws row d).Valid :=
  ⟨h.parties, h.servers, h.rows, h.ranges, h.keys, h.pairs, h.division, h.order, h.backendOrder, by
    have := h.fits
    rw [withDraws_total]
    exact this⟩

theorem withDraws_distinct (h : g.DistinctTags) : (g.withDraws row d).DistinctTags := by
  unfold DistinctTags allTags at *
  have : (g.withDraws row d).noiseTag = g.noiseTag := by
    funext k s i
    exact withDraws_noiseTag g row d k s i
  rw [this]
  exact h

end

/-- The key of a query, as a number below the prime. -/
def key {g : Grid box} (h : g.Valid) (row : Nat → Nat → Nat) (s j : Nat) : Fin p :=
  ⟨({ size := g.rows, rows := [] } : Database).randomRow (row s j), by
    have := h.rowsp
    unfold Database.randomRow
    simp only
    split
    · omega
    · exact Nat.lt_of_lt_of_le (Nat.mod_lt _ (by omega)) (by omega)⟩

/-- Other draws for other keys. -/
def shift {g : Grid box} (h : g.Valid) (row row' : Nat → Nat → Nat) :
    ((s : Fin g.servers) → Draws (g.count s) g.parties) ≃ ((s : Fin g.servers) → Draws (g.count s) g.parties) :=
  Equiv.piCongrRight (fun s => shiftEquiv (key h row s) (key h row' s))

section
variable {g : Grid box} (h : g.Valid) (row row' : Nat → Nat → Nat) (d : (s : Fin g.servers) → Draws (g.count s) g.parties)

theorem tickets_sim (k n s : Nat) (hk : k + n + 1 = g.parties) (hs : s < g.servers) :
    List.Forall₂ (Ticket.Sim n) ((g.withDraws row d).tickets k s) ((g.withDraws row' (shift h row row' d)).tickets k s) := by
  induction k generalizing n s with
  | zero =>
    rw [tickets, tickets]
    refine forall₂_map (R := fun a b => a = b ∧ a < g.count s) (forall₂_self (fun a ha => ⟨rfl, List.mem_range.1 ha⟩)) ?_
    rintro a _ ⟨rfl, ha⟩
    have e1 : (g.withDraws row d).clientRand s = (g.clientRand s).withDraws (row s) (d ⟨s, hs⟩) := dif_pos hs
    have e2 : (g.withDraws row' (shift h row row' d)).clientRand s =
      (g.clientRand s).withDraws (row' s) (shiftDraws (key h row s) (key h row' s) (d ⟨s, hs⟩)) := dif_pos hs
    rw [e1, e2]
    show Ticket.Sim n (SecretRand.ticket _ g.parties (g.clientTag s a)) (SecretRand.ticket _ g.parties (g.clientTag s a))
    exact ticket_sim' _ (row s) (row' s) (key h row s) (key h row' s) (by omega) (d ⟨s, hs⟩) ha _
  | succ k ih =>
    rw [tickets, tickets, withDraws_slot, withDraws_slot, withDraws_dests, withDraws_dests]
    refine forall₂_shuffled (fun s' hs' => ?_) _ _ _
    have := ih (n + 1) s' (by omega) hs'
    unfold Slot.mixed
    have e : ∀ row d, (g.withDraws row d).noiseTs k s' = g.noiseTs k s' := by
      intro row d
      unfold noiseTs
      have : (g.withDraws row d).noiseTag k s' = g.noiseTag k s' := funext (withDraws_noiseTag g row d k s')
      rw [this]
      rfl
    rw [e, e]
    refine forall₂_append (forall₂_self ?_) (forall₂_map this (fun a b hab => hab.next))
    intro t ht
    refine Ticket.Sim.refl ?_
    simp only [noiseTs, List.mem_map] at ht
    obtain ⟨i, -, rfl⟩ := ht
    rw [show g.parties - k - 1 = n + 1 by omega]
    exact SecretRand.ticket_good _ _ _

theorem qs_sim (k n s : Nat) (hk : k + n + 1 = g.parties) (hs : s < g.servers) :
    List.Forall₂ (QTicket.Sim n) ((g.withDraws row d).qs true k s) ((g.withDraws row' (shift h row row' d)).qs true k s) := by
  induction k generalizing n s with
  | zero =>
    rw [qs, qs]
    refine forall₂_map (R := fun a b => a = b ∧ a < g.count s) (forall₂_self (fun a ha => ⟨rfl, List.mem_range.1 ha⟩)) ?_
    rintro a _ ⟨rfl, ha⟩
    have e1 : (g.withDraws row d).clientRand s = (g.clientRand s).withDraws (row s) (d ⟨s, hs⟩) := dif_pos hs
    have e2 : (g.withDraws row' (shift h row row' d)).clientRand s =
      (g.clientRand s).withDraws (row' s) (shiftDraws (key h row s) (key h row' s) (d ⟨s, hs⟩)) := dif_pos hs
    unfold clientQs clientQ tag shares pres
    simp only [if_true]
    rw [e1, e2]
    show QTicket.Sim n (QTicket.fresh (g.clientTag s a) (key h row s a).val (preIncrementalSecretShares _ g.parties) (List.map _ (List.range g.parties)))
      (QTicket.fresh (g.clientTag s a) (key h row' s a).val (preIncrementalSecretShares _ g.parties) (List.map _ (List.range g.parties)))
    exact fresh_sim' _ (row s) (row' s) (key h row s) (key h row' s) (by omega) (d ⟨s, hs⟩) ha _
  | succ k ih =>
    rw [qs, qs, withDraws_slot, withDraws_slot, withDraws_dests, withDraws_dests]
    refine forall₂_shuffled (fun s' hs' => ?_) _ _ _
    have := ih (n + 1) s' (by omega) hs'
    have e : ∀ row d, (g.withDraws row d).noiseQs true k s' = g.noiseQs true k s' := by
      intro row d
      unfold noiseQs
      have : (g.withDraws row d).noiseTag k s' = g.noiseTag k s' := funext (withDraws_noiseTag g row d k s')
      rw [this, withDraws_slot]
      rfl
    unfold rawQ
    rw [e, e]
    refine forall₂_append (forall₂_self ?_) (forall₂_map this (fun a b hab => hab.next))
    intro q hq
    have := noiseQs_good h true (show k + 1 < g.parties by omega) hs' q hq
    rw [show g.parties - (k + 1) = n + 1 by omega] at this
    exact QTicket.Sim.refl this

theorem sealed_eq (i s : Nat) (h1 : 1 ≤ i) (hi : i < g.parties) (hs : s < g.servers) :
    ((g.withDraws row d).obsAll true true i s).map Obs.sealed =
      ((g.withDraws row' (shift h row row' d)).obsAll true true i s).map Obs.sealed := by
  obtain ⟨k, rfl⟩ : ∃ k, i = k + 1 := ⟨i - 1, by omega⟩
  obtain ⟨n, hn⟩ : ∃ n, k + (n + 1) + 1 = g.parties := ⟨g.parties - k - 2, by omega⟩
  rw [party_obs (g.withDraws row d) _ _ _ k hi, party_obs (g.withDraws row' _) _ _ _ k hi]
  rw [withDraws_load, withDraws_load, withDraws_load, withDraws_load]
  have hl := h.keysLength
  have hp := h.parties
  exact sealed_record h.good (by omega) (by omega) _ _ (tickets_sim h row row' d k (n + 1) s hn hs)
    (tickets_sim h row row' d (k + 1) n s (by omega) hs) (qs_sim h row row' d k (n + 1) s hn hs)
    (qs_sim h row row' d (k + 1) n s (by omega) hs)

theorem partiesSee_iff (v : Node → List Obs) (h : g.Valid) (hd : g.DistinctTags) : g.PartiesSee v ↔
    ∀ i s, 1 ≤ i → i < g.parties → s < g.servers → (g.obsAll true true i s).map Obs.sealed = v (i, s) := by
  constructor
  · rintro ⟨cap, n, hn, hf, hv⟩ i s h1 hi hs
    have := ((every_run h true true (fun _ => hd) cap).1 n hn).2.2.1 i s hs (hf (i, s))
    rw [← hv i s h1 hi hs, this]
    rfl
  · intro hv
    obtain ⟨cap, hc⟩ := exists_roomy g
    obtain ⟨n, hn, hf⟩ := complete_run h true true (fun _ => hd) hc
    refine ⟨cap, n, hn, hf, fun i s h1 hi hs => ?_⟩
    have := ((every_run h true true (fun _ => hd) cap).1 n hn).2.2.1 i s hs (hf (i, s))
    rw [← hv i s h1 hi hs, this]
    rfl

theorem partiesSee_shift (hd : g.DistinctTags) (v : Node → List Obs) : (g.withDraws row d).PartiesSee v ↔
    (g.withDraws row' (shift h row row' d)).PartiesSee v := by
  rw [partiesSee_iff v (withDraws_valid g row d h) (withDraws_distinct g row d hd),
    partiesSee_iff v (withDraws_valid g row' _ h) (withDraws_distinct g row' _ hd)]
  constructor
  · intro hv i s h1 hi hs
    rw [← sealed_eq h row row' d i s h1 hi hs]
    exact hv i s h1 hi hs
  · intro hv i s h1 hi hs
    rw [sealed_eq h row row' d i s h1 hi hs]
    exact hv i s h1 hi hs

end

end Grid

end DPPIR.Protocol
