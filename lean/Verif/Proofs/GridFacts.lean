import Verif.Proofs.GridRun
import Verif.Proofs.ChainFacts

/-!
# Consequences for every run of a deployment with several servers per party
-/

namespace DPPIR.Protocol
open DPPIR Proc PNet Onion Incremental Additive Spec Props Shuffle

variable {box : SealedBox}

namespace Grid

/-! ### Capacities -/

/-- A round fits the connections of a level. -/
def RoundOk (S l : Nat) (cap : Node × Node → Nat) (o : Nat → List (Nat × Byte)) : Prop :=
  OutsOk S o ∧ ∀ s t, s < S → t < S → s ≠ t → (toOne t (o s)).length ≤ cap ((l, s), (l, t))

theorem castOut_round {S l : Nat} {cap : Node × Node → Nat} (m : Nat → Nat → List Byte) (hm : ∀ s t, (m s t).length ≤ 4)
    (hc : ∀ s t, s < S → t < S → s ≠ t → 4 ≤ cap ((l, s), (l, t))) : RoundOk S l cap (castOut S m) := by
  refine ⟨castOut_ok _ _, fun s t hs ht hne => ?_⟩
  rw [toOne_cast]
  have := hc s t hs ht hne
  have := hm s t
  split
  · omega
  · simp

theorem countMsg_le (c : Nat → Nat → Nat) (s t : Nat) : (countMsg c s t).length ≤ 4 := by
  unfold countMsg
  rw [natLE_length]

section
variable {g : Grid box} (h : g.Valid) {cap : Node × Node → Nat} (hc : g.Roomy cap)
include h hc

omit h in
theorem wait_ok {k : Nat} (hk : k < g.parties) : RoundOk g.servers (k + 1) cap g.wait := castOut_round _ (fun _ _ => by unfold readyMsg; simp) (fun s t => hc.count k s t hk)
omit h in
theorem counts_ok {k : Nat} (hk : k < g.parties) (own) : RoundOk g.servers (k + 1) cap (countsRound g.servers own) := castOut_round _ (countMsg_le _) (fun s t => hc.count k s t hk)
omit h in
theorem noiseR_ok {k : Nat} (hk : k < g.parties) (j : Nat) : RoundOk g.servers (k + 1) cap (g.noiseR j) := castOut_round _ (countMsg_le _) (fun s t => hc.count k s t hk)
omit h in
theorem bcastCounts_ok {k : Nat} (hk : k < g.parties) (I) : RoundOk g.servers (k + 1) cap (bcastCounts g.servers I) := castOut_round _ (countMsg_le _) (fun s t => hc.count k s t hk)

omit h hc in
theorem bcast_ok (l : Nat) (I : Nat → List OfflineSecret)
    (hI : ∀ s t, s < g.servers → t < g.servers → s ≠ t → (I s).length * secretSize ≤ cap ((l, s), (l, t))) :
    RoundOk g.servers l cap (bcastRound g.servers I) := by
  refine ⟨bcastRound_ok _ _, fun s t hs ht hne => ?_⟩
  by_cases hst : t = s
  · subst hst
    rw [toOne_self (bcastRound_ok _ _) hs]
    simp
  · rw [bcastRound_to _ _ _ _ ht hst, flatten_length secretSize _ (by
      intro c hc
      obtain ⟨x, -, rfl⟩ := List.mem_map.1 hc
      exact x.encode_length), List.length_map]
    exact hI s t hs ht hne

theorem items_ok {k : Nat} (hk : k < g.parties) : RoundOk g.servers (k + 1) cap (bcastRound g.servers (g.items k)) := by
  refine bcast_ok _ _ (fun s t hs ht hne => ?_)
  rw [(items_perm h k s).length_eq, List.length_map, ((tickets_spec h k hk).1 s hs).1]
  exact hc.secrets k s t hk hs ht hne

theorem itemsB_ok : RoundOk g.servers g.parties cap (bcastRound g.servers g.itemsB) := by
  refine bcast_ok _ _ (fun s t hs ht hne => ?_)
  have hP := h.parties
  have e := (itemsB_perm h s).length_eq
  rw [List.length_map, List.length_map] at e
  rw [e, ((tickets_spec h (g.parties - 1) (by omega)).1 s hs).1]
  have := hc.secrets (g.parties - 1) s t (by omega) hs ht hne
  rwa [show g.parties - 1 + 1 = g.parties by omega] at this

theorem cipherR_ok {k : Nat} (hk : k + 1 < g.parties) : RoundOk g.servers (k + 1) cap (g.cipherR k) := by
  have hP := h.parties
  refine ⟨routed_outsOk _ _ _ _ _ (routing h hk), fun s t hs ht hne => ?_⟩
  refine le_trans ?_ (hc.ciphers k s t (by omega) hs ht hne)
  rw [← dests_length h hk hs]
  refine routed_toOne_le _ _ _ _ _ ht _ ((routing h hk).lt s hs) _ ?_ ?_
  · unfold Slot.batch
    rw [List.length_map, mixed_length g _ s ((tickets_spec h k (by omega)).1 s hs).1, dests_length h hk hs]
  · intro c hcc
    unfold Slot.batch at hcc
    obtain ⟨x, hx, rfl⟩ := List.mem_map.1 hcc
    have hx' : x.Good (g.parties - k - 1) := by
      unfold Slot.mixed at hx
      rw [List.mem_append, List.mem_map] at hx
      rcases hx with hx | ⟨x', hx', rfl⟩
      · simp only [noiseTs, List.mem_map] at hx
        obtain ⟨i, -, rfl⟩ := hx
        exact SecretRand.ticket_good _ _ _
      · have := ((tickets_spec h k (by omega)).1 s hs).2 x' hx'
        rw [show g.parties - k = g.parties - k - 1 + 1 by omega] at this
        exact this.next
    show (x.cipher g.pkeys (k + 1)).length = _
    exact Ticket.cipher_length h.good (by rw [h.keysLength]; omega) hx' (by rw [h.keysLength]; omega)

theorem queryR_ok (offline : Bool) {k : Nat} (hk : k + 1 < g.parties) : RoundOk g.servers (k + 1) cap (g.queryR offline k) := by
  refine ⟨routed_outsOk _ _ _ _ _ (routing h hk), fun s t hs ht hne => ?_⟩
  refine le_trans ?_ (hc.queries k s t (by omega) hs ht hne)
  rw [← dests_length h hk hs]
  refine routed_toOne_le _ _ _ _ _ ht _ ((routing h hk).lt s hs) _ ?_ (fun x _ => Query.encode_length x)
  rw [List.length_map, rawQ_length g offline _ s (qs_spec h offline k (by omega) s hs).1, dests_length h hk hs]

theorem backR_ok (offline : Bool) {k : Nat} (hk : k + 1 < g.parties) : RoundOk g.servers (k + 1) cap (g.backR offline k) := by
  refine ⟨backRound_ok _ _ _ _, fun s t hs ht hne => ?_⟩
  refine le_trans ?_ (hc.responses k s t (by omega) hs ht hne)
  refine le_trans (routed_toOne_le _ _ _ _ _ ht _ (srcList_lt _ _) _ ?_ (fun x _ => Response.encode_length x)) (Nat.mul_le_mul_right _ ?_)
  · unfold answersOf
    rw [srcList_length, concat_length]
  · rw [srcList_length, ← sliceOf_eq h hk hs]
    unfold sliceOf preSum
    refine List.sum_le_sum ?_
    intro u hu
    have hu := List.mem_range.1 hu
    have hr := count_real (g.dests k) (fun s => (g.noiseQs offline k s).length) (fun s => ((g.qs offline k s).map QTicket.next).map QTicket.resp) s u (by
      unfold realDest
      rw [List.length_map, List.length_map, List.length_drop, dests_length h hk hu, (qs_spec h offline k (by omega) u hu).1]
      show _ = _ - (g.noiseQs offline k u).length
      rw [noiseQs_length]
      omega)
    omega

end

theorem atParty_ok {g : Grid box} {cap : Node × Node → Nat} (os : Nat → List (Nat → List (Nat × Byte)))
    (h : ∀ k, k + 1 < g.parties → ∀ o ∈ os k, RoundOk g.servers (k + 1) cap o) (l : Nat) :
    ∀ o ∈ g.atParty os l, RoundOk g.servers l cap o := by
  intro o ho
  unfold atParty at ho
  split at ho
  · rename_i hl
    obtain ⟨k, rfl⟩ : ∃ k, l = k + 1 := ⟨l - 1, by omega⟩
    exact h k hl.2 o ho
  · cases ho

theorem rounds_ok' {S l : Nat} {cap : Node × Node → Nat} {os} (h : ∀ o ∈ os, RoundOk S l cap o) : ∀ x ∈ rounds S l os, GSeg.Ok cap x :=
  by
  refine rounds_ok (fun o ho => (h o ho).1) (fun o ho s t hs ht => ?_)
  by_cases e : s = t
  · subst e
    rw [toOne_self (h o ho).1 hs]
    simp
  · exact (h o ho).2 s t hs ht e

theorem script_ok {g : Grid box} (h : g.Valid) {cap : Node × Node → Nat} (hc : g.Roomy cap) (offline online : Bool) :
    ∀ x ∈ g.script offline online, GSeg.Ok cap x := by
  have a1 : ∀ l, ∀ x ∈ rounds g.servers l (g.countRs l), GSeg.Ok cap x := fun l => rounds_ok' (atParty_ok _ (by
    intro k hk o ho
    rw [List.mem_singleton.1 ho]
    exact counts_ok hc (by omega) _) l)
  have a2 : ∀ l, ∀ x ∈ rounds g.servers l (g.simRs offline l), GSeg.Ok cap x := fun l => rounds_ok' (atParty_ok _ (by
    intro k hk o ho
    split at ho
    · cases ho
    · rw [List.mem_singleton.1 ho]
      exact noiseR_ok hc (by omega) _) l)
  have a3 : ∀ l, ∀ x ∈ rounds g.servers l (g.waitRs l), GSeg.Ok cap x := fun l => rounds_ok' (atParty_ok _ (by
    intro k hk o ho
    rw [List.mem_singleton.1 ho]
    exact wait_ok hc (by omega)) l)
  have a4 : ∀ l, ∀ x ∈ rounds g.servers l (g.cipherRs l), GSeg.Ok cap x := fun l => rounds_ok' (atParty_ok _ (by
    intro k hk o ho
    simp only [List.mem_cons, List.not_mem_nil, or_false] at ho
    rcases ho with rfl | rfl | rfl | rfl
    · exact wait_ok hc (by omega)
    · exact noiseR_ok hc (by omega) _
    · exact cipherR_ok h hc hk
    · exact wait_ok hc (by omega)) l)
  have a5 : ∀ l, ∀ x ∈ rounds g.servers l (g.castRs l), GSeg.Ok cap x := fun l => rounds_ok' (by
    unfold castRs
    split
    · rename_i hl
      subst hl
      have hP := h.parties
      intro o ho
      simp only [List.mem_cons, List.not_mem_nil, or_false] at ho
      rcases ho with rfl | rfl | rfl
      · have := bcastCounts_ok hc (k := g.parties - 1) (by omega) g.itemsB
        rwa [show g.parties - 1 + 1 = g.parties by omega] at this
      · exact itemsB_ok h hc
      · have := wait_ok hc (k := g.parties - 1) (by omega)
        rwa [show g.parties - 1 + 1 = g.parties by omega] at this
    · refine atParty_ok _ ?_ l
      intro k hk o ho
      simp only [List.mem_cons, List.not_mem_nil, or_false] at ho
      rcases ho with rfl | rfl | rfl
      · exact bcastCounts_ok hc (by omega) _
      · exact items_ok h hc (by omega)
      · exact noiseR_ok hc (by omega) _)
  have a6 : ∀ l, ∀ x ∈ rounds g.servers l (g.queryRs offline l), GSeg.Ok cap x := fun l => rounds_ok' (atParty_ok _ (by
    intro k hk o ho
    simp only [List.mem_cons, List.not_mem_nil, or_false] at ho
    rcases ho with rfl | rfl | rfl
    · exact wait_ok hc (by omega)
    · exact queryR_ok h hc offline hk
    · exact wait_ok hc (by omega)) l)
  have a7 : ∀ l, ∀ x ∈ rounds g.servers l (g.backRs offline l), GSeg.Ok cap x := fun l => rounds_ok' (atParty_ok _ (by
    intro k hk o ho
    simp only [List.mem_cons, List.not_mem_nil, or_false] at ho
    rcases ho with rfl | rfl | rfl
    · exact backR_ok h hc offline hk
    · exact wait_ok hc (by omega)
    · exact wait_ok hc (by omega)) l)
  intro x hx
  unfold script at hx
  simp only [List.mem_append] at hx
  rcases hx with (hx | hx | hx | hx) | hx
  · exact (waves_ok hc.link a1).1 x hx
  · exact (waves_ok (f := readyB) hc.link a2).2.2 x hx
  · exact (waves_ok hc.link a3).2.1 x hx
  · split at hx
    · simp only [List.mem_append] at hx
      rcases hx with hx | hx | hx
      · exact (waves_ok hc.link a4).1 x hx
      · exact (waves_ok (f := readyB) hc.link a5).2.2 x hx
      · exact (waves_ok hc.link a3).2.1 x hx
    · cases hx
  · split at hx
    · simp only [List.mem_append] at hx
      rcases hx with hx | hx
      · exact (waves_ok hc.link a6).1 x hx
      · exact (waves_ok hc.link a7).2.1 x hx
    · cases hx

/-- Some connections are large enough. -/
theorem exists_roomy (g : Grid box) : ∃ cap, g.Roomy cap := by
  obtain ⟨c, hc⟩ : ∃ c : Node → Nat, ∀ k s, c (k + 1, s) = 4 + g.load k s * secretSize +
      (g.noise k s + g.load k s) * cipherSize (g.parties - k - 1) +
      (g.noise k s + g.load k s) * querySize + g.load (k + 1) s * responseSize :=
    ⟨fun x => 4 + g.load (x.1 - 1) x.2 * secretSize +
      (g.noise (x.1 - 1) x.2 + g.load (x.1 - 1) x.2) * cipherSize (g.parties - (x.1 - 1) - 1) +
      (g.noise (x.1 - 1) x.2 + g.load (x.1 - 1) x.2) * querySize + g.load (x.1 - 1 + 1) x.2 * responseSize, fun k s => rfl⟩
  refine ⟨fun x => 4 + c x.1, ⟨fun k s _ _ => ?_, fun k s t _ _ _ _ => ?_, fun k s t _ _ _ _ => ?_, fun k s t _ _ _ _ => ?_, fun k s t _ _ _ _ => ?_,
    fun k s t _ _ _ _ => ?_⟩⟩
  · show 0 < 4 + c _ ∧ 0 < 4 + c _
    omega
  · show 4 ≤ 4 + c _
    omega
  all_goals
    show _ ≤ 4 + c (k + 1, s)
    rw [hc]
    generalize g.load k s * secretSize = a1
    generalize (g.noise k s + g.load k s) * cipherSize (g.parties - k - 1) = a2
    generalize (g.noise k s + g.load k s) * querySize = a3
    generalize g.load (k + 1) s * responseSize = a4
    omega

/-! ### Every run -/

theorem prog_out {g : Grid box} (h : g.Valid) (offline online : Bool) (i : Node)
    (hi : i ∉ (Finset.range (g.parties + 1)) ×ˢ (Finset.range g.servers)) : g.prog offline online i = .done () := by
  obtain ⟨i, s⟩ := i
  unfold prog
  simp only [Finset.mem_product, Finset.mem_range, not_and_or] at hi
  by_cases hs : s < g.servers
  · have hi : ¬ i < g.parties + 1 := hi.resolve_right (by simpa using hs)
    have := h.parties
    rw [if_pos hs, if_neg (show ¬ i = 0 by omega), if_neg (show ¬ i < g.parties by omega), if_neg (show ¬ i = g.parties by omega)]
  · rw [if_neg hs]

theorem every_run {g : Grid box} (h : g.Valid) (offline online : Bool) (hd : offline = true → g.DistinctTags)
    (cap : Node × Node → Nat) :
    (∀ n, Reach cap (g.net offline online) n →
      (∀ i, ¬ n.Faulted i) ∧
      (∀ i s, s < g.servers → n.seen (i, s) <+: g.obsOff offline i s ++ if online then g.obsOn offline i s else []) ∧
      (∀ i s, s < g.servers → n.Returned (i, s) () → n.seen (i, s) = g.obsOff offline i s ++ if online then g.obsOn offline i s else []) ∧
      (g.Roomy cap → n.CanStep cap ∨ (∀ i, n.Returned i ()) ∧ ∀ c, n.chan c = [])) ∧
    (∀ f : Nat → PNet Node Obs Unit, f 0 = g.net offline online → ¬ ∀ k, ∃ i, Step cap i (f k) (f (k + 1))) := by
  obtain ⟨L, h1, h2, h3⟩ := all_do h offline online hd
  obtain ⟨cap', hc'⟩ := exists_roomy g
  refine ⟨fun n hn => ?_, fun f hf => ?_⟩
  · obtain ⟨a1, a2, a3⟩ := script_safe (script_ok h hc' offline online) h1 h2 hn
    refine ⟨a1, fun i s hs => ?_, fun i s hs hr => ?_, fun hc => ?_⟩
    · rw [← h3 i s hs]
      exact a2 (i, s)
    · rw [← h3 i s hs]
      exact (a3 (i, s) () hr).2
    · obtain ⟨-, -, b3⟩ := script_net (script_ok h hc offline online) h1 h2 hn
      refine b3.imp id (fun b => ⟨fun i => ?_, b.2⟩)
      obtain ⟨⟨a, ha, -⟩, -⟩ := b.1 i
      exact ha
  · exact no_infinite_run ((Finset.range (g.parties + 1)) ×ˢ (Finset.range g.servers)) f
      (fun i hi => ⟨(), by rw [hf]; exact prog_out h offline online i hi⟩)

/-- There is a run in which all return. -/
theorem complete_run {g : Grid box} (h : g.Valid) (offline online : Bool) (hd : offline = true → g.DistinctTags)
    {cap : Node × Node → Nat} (hc : g.Roomy cap) :
    ∃ n, Reach cap (g.net offline online) n ∧ ∀ i, n.Returned i () := by
  obtain ⟨L, h1, h2, h3⟩ := all_do h offline online hd
  obtain ⟨n, hn, hno⟩ := script_complete (script_ok h hc offline online) h1 h2 ((Finset.range (g.parties + 1)) ×ˢ (Finset.range g.servers))
    (fun i hi => ⟨(), prog_out h offline online i hi⟩)
  obtain ⟨-, -, -, h4⟩ := (every_run h offline online hd cap).1 n hn
  exact ⟨n, hn, ((h4 hc).resolve_left hno).1⟩

end Grid

end DPPIR.Protocol
