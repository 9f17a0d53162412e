import Verif.Proofs.GridFacts
import Verif.Spec.TrafficGrid
import Verif.Proofs.HostileStages

/-!
# How much the servers of a deployment hear from each other
-/

namespace DPPIR.PNet
open DPPIR Proc

variable {ι O α : Type} [DecidableEq ι]

/-- What a process has heard and what it still is to hear, together, are what its
script says. -/
theorem Hears.inv {cap : ι × ι → Nat} {Q : ι → α → Prop} {G : List (GSeg ι)} {os : ι → List O} {n m : PNet ι O α}
    {L : ι → List (Seg ι O)} {i : ι} {H : ι → List Byte} (h : Inv Q G os n L) (hh : Hears cap i n m H) :
    ∃ L', Inv Q G os m L' ∧ ∀ s, s ≠ i → H s ++ segRcvd s (L' i) = segRcvd s (L i) := by
  induction hh with
  | refl => exact ⟨L, h, fun s _ => rfl⟩
  | @other m m' H j _ st hj ih =>
    obtain ⟨L', h1, h2⟩ := ih
    obtain ⟨l, h3, -⟩ := h1.step_own st
    exact ⟨_, h3, fun s hs => by rw [Function.update_of_ne (Ne.symm hj)]; exact h2 s hs⟩
  | @quiet m m' H _ st hq ih =>
    obtain ⟨L', h1, h2⟩ := ih
    obtain ⟨l, h3, -⟩ := h1.step_own st
    refine ⟨_, h3, fun s hs => ?_⟩
    have e1 := h1.chan s i
    have e2 := h3.chan s i
    rw [Function.update_of_ne hs] at e2
    have e3 : m'.chan (s, i) = m.chan (s, i) := by
      cases st with
      | send hp room => exact Function.update_of_ne (by simp [hs]) _ _
      | recv hp data => exact absurd hp (hq.1 _ _)
      | obs hp => rfl
      | poll ready hp sound some => rfl
      | read hp some fits data => exact absurd hp (hq.2 _ _ _)
    rw [← e2, e3, e1]
    exact h2 s hs
  | @recv m H src k b rest _ hp data ih =>
    obtain ⟨L', h1, h2⟩ := ih
    obtain ⟨l, h3, -⟩ := h1.step_own (Step.recv (cap := cap) hp data)
    refine ⟨_, h3, fun s hs => ?_⟩
    have e1 := h1.chan s i
    have e2 := h3.chan s i
    rw [Function.update_of_ne hs] at e2
    have h2 := h2 s hs
    simp only at e2
    rw [← e2]
    by_cases e : s = src
    · subst e
      rw [Function.update_self, Function.update_self, ← h2, ← e1, data]
      simp
    · rw [Function.update_of_ne e, Function.update_of_ne (by simp [e]), ← h2, e1]
  | @read m H src l' k c rest _ hp some fits data ih =>
    obtain ⟨L', h1, h2⟩ := ih
    obtain ⟨l, h3, -⟩ := h1.step_own (Step.read (cap := cap) hp some fits data)
    refine ⟨_, h3, fun s hs => ?_⟩
    have e1 := h1.chan s i
    have e2 := h3.chan s i
    rw [Function.update_of_ne hs] at e2
    have h2 := h2 s hs
    simp only at e2
    rw [← e2]
    by_cases e : s = src
    · subst e
      rw [Function.update_self, Function.update_self, ← h2, ← e1, data]
      simp
    · rw [Function.update_of_ne e, Function.update_of_ne (by simp [e]), ← h2, e1]

theorem script_hears {cap cap' : ι × ι → Nat} {G : List (GSeg ι)} (hG : ∀ g ∈ G, GSeg.Ok cap' g) {proc : ι → PProc ι O α}
    {L : ι → List (Seg ι O)} {Q : ι → α → Prop} (hd : ∀ i, PProc.Does (Q i) (proc i) (L i)) (hL : ∀ i, segComm (L i) = proj i G)
    {n : PNet ι O α} {i : ι} {H : ι → List Byte} (hh : Hears cap i (PNet.start proc) n H) (s : ι) (hs : s ≠ i) :
    H s <+: segRcvd s (proj i G : List (Seg ι O)) ∧ ∀ a, n.Returned i a → H s = segRcvd s (proj i G : List (Seg ι O)) := by
  obtain ⟨L', h1, h2⟩ := hh.inv (Inv.start hG hd hL)
  have h2 := h2 s hs
  rw [← segRcvd_comm s (L i), hL] at h2
  rw [← h2]
  refine ⟨List.prefix_append _ _, fun a ha => ?_⟩
  obtain ⟨l', -, h4, -, -, -, -, h5⟩ := live_of_does (h1.does i) (h1.rem i) (h1.av i)
  have ha : n.proc i = .done a := ha
  rw [ha] at h4
  rw [← h5 s, h4.1]
  simp

end DPPIR.PNet

namespace DPPIR.Protocol
open DPPIR Proc PNet Onion Incremental Additive Spec Props Shuffle

variable {box : SealedBox}

namespace Grid

theorem segRcvd_recvs (j s : Node) (l : List Byte) : segRcvd j (recvs s l) = if s = j then l else [] := by
  induction l with
  | nil => simp [recvs]
  | cons b l ih =>
    show segRcvd j (.act (.recv s b) :: recvs s l) = _
    rw [segRcvd_cons, ih]
    by_cases h : s = j <;> simp [Seg.rcvd, h]

theorem segRcvd_sends (j s : Node) (l : List Byte) : segRcvd j (sends s l) = [] := by
  induction l with
  | nil => rfl
  | cons b l ih =>
    show segRcvd j (.act (.send s b) :: sends s l) = _
    rw [segRcvd_cons, ih]
    rfl

/-- How much server `s` hears from server `u` in some rounds. -/
def roundsLen (os : List (Nat → List (Nat × Byte))) (u s : Nat) : Nat := (os.map (fun o => (toOne s (o u)).length)).sum

theorem segRcvd_rsegs (S l s : Nat) (os : List (Nat → List (Nat × Byte))) (j : Node) :
    (segRcvd j (rsegs S l s os)).length = if j.1 = l ∧ j.2 < S then roundsLen os j.2 s else 0 := by
  induction os with
  | nil => simp [rsegs, roundsLen]
  | cons o os ih =>
    show (segRcvd j (rseg (lvl S l) (sibs l) o s :: rsegs S l s os)).length = _
    rw [segRcvd_cons, List.length_append, ih]
    show (roundIns (lvl S l) o s j).length + _ = _
    unfold roundIns lvl roundsLen
    split_ifs <;> simp

/-- How much server `s` of level `i` hears from `j` in a wave towards the backend. -/
def downLen (S P i s : Nat) (f : Nat → Nat → Nat) (B : Nat → List (Nat → List (Nat × Byte))) (j : Node) : Nat :=
  if 1 ≤ i ∧ i ≤ P then (if j = (i - 1, s) then f (i - 1) s else 0) + if j.1 = i ∧ j.2 < S then roundsLen (B i) j.2 s else 0 else 0

/-- How much server `s` of level `i` hears from `j` in a wave towards the clients. -/
def upLen (S P i s : Nat) (f : Nat → Nat → Nat) (B : Nat → List (Nat → List (Nat × Byte))) (j : Node) : Nat :=
  if i < P then (if j = (i + 1, s) then f i s else 0) + if j.1 = i ∧ j.2 < S then roundsLen (B i) j.2 s else 0 else 0

/-- How much server `s` of level `i` hears from `j` in rounds of its party. -/
def inLen (S P i s : Nat) (B : Nat → List (Nat → List (Nat × Byte))) (j : Node) : Nat :=
  if i ≤ P then if j.1 = i ∧ j.2 < S then roundsLen (B i) j.2 s else 0 else 0

theorem rcvd_down (S P i s : Nat) (f : Nat → Nat → List Byte) (B) (j : Node) :
    (segRcvd j (downSeg S P i s f B)).length = downLen S P i s (fun k t => (f k t).length) B j := by
  unfold downSeg downLen
  rw [segRcvd_append, List.length_append]
  have e : (segRcvd j (if i < P then sends (i + 1, s) (f i s) else [])).length = 0 := by
    split <;> simp [segRcvd_sends]
  rw [e, Nat.add_zero]
  split
  · rw [segRcvd_append, List.length_append, segRcvd_rsegs, segRcvd_recvs]
    congr 1
    by_cases h : j = (i - 1, s)
    · rw [if_pos h, if_pos h.symm]
    · rw [if_neg h, if_neg (Ne.symm h)]; rfl
  · rfl

theorem rcvd_up (S P i s : Nat) (f : Nat → Nat → List Byte) (B) (j : Node) :
    (segRcvd j (upSeg S P i s f B)).length = upLen S P i s (fun k t => (f k t).length) B j := by
  unfold upSeg upLen
  rw [segRcvd_append, List.length_append]
  have e : (segRcvd j (if 1 ≤ i ∧ i ≤ P then sends (i - 1, s) (f (i - 1) s) else [])).length = 0 := by
    split <;> simp [segRcvd_sends]
  rw [e, Nat.add_zero]
  split
  · rw [segRcvd_append, List.length_append, segRcvd_rsegs, segRcvd_recvs]
    congr 1
    by_cases h : j = (i + 1, s)
    · rw [if_pos h, if_pos h.symm]
    · rw [if_neg h, if_neg (Ne.symm h)]; rfl
  · rfl

theorem rcvd_in (S P i s : Nat) (B) (j : Node) : (segRcvd j (inSeg S P i s B)).length = inLen S P i s B j := by
  unfold inSeg inLen
  split
  · rw [segRcvd_rsegs]
  · rfl

/-- How much server `s` of level `i` hears from `j`, all in all. -/
def heardLen (g : Grid box) (offline online : Bool) (i s : Nat) (j : Node) : Nat :=
  downLen g.servers g.parties i s (fun k t => (g.countB k t).length) g.countRs j +
  (inLen g.servers g.parties i s (g.simRs offline) j +
  (upLen g.servers g.parties i s (fun k t => (readyB k t).length) g.waitRs j +
  if offline then downLen g.servers g.parties i s (fun k t => (g.cipherB k t).length) g.cipherRs j +
    (inLen g.servers g.parties i s g.castRs j +
      upLen g.servers g.parties i s (fun k t => (readyB k t).length) g.waitRs j) else 0)) +
  if online then downLen g.servers g.parties i s (fun k t => (g.queryB offline k t).length) (g.queryRs offline) j +
    upLen g.servers g.parties i s (fun k t => (g.respB offline k t).length) (g.backRs offline) j else 0

theorem hears_len {g : Grid box} (h : g.Valid) (offline online : Bool) (hd : offline = true → g.DistinctTags)
    (cap : Node × Node → Nat) (i s : Nat) (hs : s < g.servers) (n : PNet Node Obs Unit) (H : Node → List Byte)
    (hh : Hears cap (i, s) (g.net offline online) n H) (j : Node) (hj : j ≠ (i, s)) :
    (H j).length ≤ g.heardLen offline online i s j ∧
      (n.Returned (i, s) () → (H j).length = g.heardLen offline online i s j) := by
  obtain ⟨L, h1, h2, -⟩ := all_do h offline online hd
  obtain ⟨cap', hc'⟩ := exists_roomy g
  obtain ⟨a1, a2⟩ := script_hears (script_ok h hc' offline online) h1 h2 hh j hj
  have e : (segRcvd j (proj (i, s) (g.script offline online) : List (Seg Node Obs))).length = g.heardLen offline online i s j := by
    rw [proj_script g offline online i s hs]
    unfold commOff commOn heardLen
    cases offline <;> cases online <;>
      simp only [segRcvd_append, List.length_append, rcvd_down, rcvd_up, rcvd_in, if_true, Bool.false_eq_true, if_false,
        segRcvd_nil, List.length_nil]
  rw [← e]
  exact ⟨a1.length_le, fun hr => by rw [a2 () hr]⟩

/-! ### Lengths -/

theorem len_cast {S : Nat} {m : Nat → Nat → List Byte} {n : Nat} (hm : ∀ s t, (m s t).length = n) {u s : Nat} (hs : s < S)
    (hne : s ≠ u) : (toOne s (castOut S m u)).length = n := by
  rw [toOne_cast, if_pos ⟨hs, hne⟩, hm]

theorem countMsg_len (c : Nat → Nat → Nat) (s t : Nat) : (countMsg c s t).length = 4 := natLE_length _ _

theorem len_bcast {S : Nat} (I : Nat → List OfflineSecret) {u s : Nat} (hs : s < S) (hne : s ≠ u) :
    (toOne s (bcastRound S I u)).length = (I u).length * 76 := by
  rw [bcastRound_to _ _ _ _ hs hne, flatten_length secretSize _ (by
    intro c hc
    obtain ⟨x, -, rfl⟩ := List.mem_map.1 hc
    exact x.encode_length), List.length_map]

theorem len_routed {τ : Type} (encode : τ → List Byte) (unit S u s : Nat) (hs : s < S) (hne : s ≠ u) (ds : List Nat) (l : List τ)
    (hl : l.length = ds.length) (hu : ∀ x ∈ l, (encode x).length = unit) :
    (toOne s (routedBytes encode unit S u ds l)).length = ds.count s * unit := by
  rw [routedBytes_to encode unit S u ds l s hs hne, flatten_length unit _ (by
    intro c hc
    obtain ⟨x, hx, rfl⟩ := List.mem_map.1 hc
    exact hu x (mem_selTo hx)), List.length_map, selTo_length _ _ _ hl.symm]

section
variable {g : Grid box} (h : g.Valid) {k u s : Nat} (hu : u < g.servers) (hs : s < g.servers) (hne : s ≠ u)
include h hu hs hne

theorem len_cipherR (hk : k + 1 < g.parties) :
    (toOne s (g.cipherR k u)).length = (g.dests k u).count s * (124 * (g.parties - k - 1)) := by
  refine len_routed _ _ _ _ _ hs hne _ _ ?_ ?_
  · unfold Slot.batch
    rw [List.length_map, mixed_length g _ u ((tickets_spec h k (by omega)).1 u hu).1, dests_length h hk hu]
  · intro c hcc
    unfold Slot.batch at hcc
    obtain ⟨x, hx, rfl⟩ := List.mem_map.1 hcc
    have hx' : x.Good (g.parties - k - 1) := by
      unfold Slot.mixed at hx
      rw [List.mem_append, List.mem_map] at hx
      rcases hx with hx | ⟨x', hx', rfl⟩
      · simp only [noiseTs, List.mem_map] at hx
        obtain ⟨i, -, rfl⟩ := hx
        exact SecretRand.ticket_good _ _ _
      · have := ((tickets_spec h k (by omega)).1 u hu).2 x' hx'
        rw [show g.parties - k = g.parties - k - 1 + 1 by omega] at this
        exact this.next
    have hP := h.parties
    show (x.cipher g.pkeys (k + 1)).length = _
    exact Ticket.cipher_length h.good (by rw [h.keysLength]; omega) hx' (by rw [h.keysLength]; omega)

theorem len_queryR (offline : Bool) (hk : k + 1 < g.parties) :
    (toOne s (g.queryR offline k u)).length = (g.dests k u).count s * 12 := by
  refine len_routed _ _ _ _ _ hs hne _ _ ?_ (fun x _ => Query.encode_length x)
  rw [List.length_map, rawQ_length g offline _ u (qs_spec h offline k (by omega) u hu).1, dests_length h hk hu]

theorem len_backR (offline : Bool) (hk : k + 1 < g.parties) :
    (toOne s (g.backR offline k u)).length = ((g.dests k s).count u - noiseTo (g.dests k) (g.noise k) u s) * 52 := by
  have e := len_routed Response.encode responseSize g.servers u s hs hne
    (backSrcs g.servers (rowsOf (g.dests k) (fun s => (g.noiseQs offline k s).length)
      (fun s => ((g.qs offline k s).map QTicket.next).map QTicket.resp) u))
    (answersOf g.servers (g.dests k) (fun s => (g.noiseQs offline k s).length)
      (fun s => ((g.qs offline k s).map QTicket.next).map QTicket.resp) u)
    (by unfold answersOf; rw [srcList_length, concat_length]) (fun x _ => Response.encode_length x)
  rw [srcList_count _ _ hs] at e
  refine Eq.trans e ?_
  have hr := count_real (g.dests k) (fun s => (g.noiseQs offline k s).length) (fun s => ((g.qs offline k s).map QTicket.next).map QTicket.resp) u s (by
    unfold realDest
    rw [List.length_map, List.length_map, List.length_drop, dests_length h hk hs, (qs_spec h offline k (by omega) s hs).1]
    show _ = _ - (g.noiseQs offline k s).length
    rw [noiseQs_length]
    omega)
  have e2 : noiseTo (g.dests k) (fun s => (g.noiseQs offline k s).length) u s = noiseTo (g.dests k) (g.noise k) u s := by
    unfold noiseTo
    simp only [noiseQs_length]
  rw [e2] at hr
  rw [hr, Nat.add_sub_cancel_left]

/-- What the servers of a party hear from each other. -/
theorem heard_sibling (offline online : Bool) (hk : k + 1 < g.parties) :
    g.heardLen offline online (k + 1) s (k + 1, u) =
      5 + (if offline then 15 + (g.dests k u).count s * (124 * (g.parties - k - 1)) + g.load k u * 76 else 4) +
      if online then 4 + (g.dests k u).count s * 12 + ((g.dests k s).count u - noiseTo (g.dests k) (g.noise k) u s) * 52 else 0 := by
  have w : (toOne s (g.wait u)).length = 1 := len_cast (fun _ _ => rfl) hs hne
  have c : ∀ own, (toOne s (countsRound g.servers own u)).length = 4 := fun own => len_cast (countMsg_len _) hs hne
  have n : (toOne s (g.noiseR k u)).length = 4 := len_cast (countMsg_len _) hs hne
  have b : ∀ I, (toOne s (bcastCounts g.servers I u)).length = 4 := fun I => len_cast (countMsg_len _) hs hne
  have i : (toOne s (bcastRound g.servers (g.items k) u)).length = g.load k u * 76 := by
    rw [len_bcast _ hs hne, (items_perm h k u).length_eq, List.length_map, ((tickets_spec h k (by omega)).1 u hu).1]
  have q := len_queryR h hu hs hne offline hk
  have a := len_backR h hu hs hne offline hk
  have ci := len_cipherR h hu hs hne hk
  unfold heardLen downLen upLen inLen
  have e1 : ¬ ((k + 1, u) : Node) = (k + 1 - 1, s) := by simp
  have e2 : ¬ ((k + 1, u) : Node) = (k + 1 + 1, s) := by simp
  have e3 : 1 ≤ k + 1 ∧ k + 1 ≤ g.parties := by omega
  have e4 : k + 1 ≤ g.parties := by omega
  simp only [if_neg e1, if_neg e2, if_pos e3, if_pos e4, if_pos hk, hu, and_self, if_true, Nat.zero_add]
  rw [countRs, simRs, waitRs, cipherRs, castRs, queryRs, backRs, if_neg (show ¬ k + 1 = g.parties by omega)]
  simp only [atParty_mid g _ hk, roundsLen, List.map_cons, List.map_nil, List.sum_cons, List.sum_nil]
  cases offline <;> cases online <;>
    simp only [if_true, Bool.false_eq_true, if_false, List.map_cons, List.map_nil, List.sum_cons, List.sum_nil, w, c, n, b, i, q, a, ci] <;>
    omega

/-- What the servers of the backend hear from each other. -/
theorem heard_backend (offline online : Bool) :
    g.heardLen offline online g.parties s (g.parties, u) = if offline then 5 + g.load (g.parties - 1) u * 76 else 0 := by
  have hP := h.parties
  have w : (toOne s (g.wait u)).length = 1 := len_cast (fun _ _ => rfl) hs hne
  have b : ∀ I, (toOne s (bcastCounts g.servers I u)).length = 4 := fun I => len_cast (countMsg_len _) hs hne
  have i : (toOne s (bcastRound g.servers g.itemsB u)).length = g.load (g.parties - 1) u * 76 := by
    have e := (itemsB_perm h u).length_eq
    rw [List.length_map, List.length_map] at e
    rw [len_bcast _ hs hne, e, ((tickets_spec h (g.parties - 1) (by omega)).1 u hu).1]
  unfold heardLen downLen upLen inLen
  have e1 : ¬ ((g.parties, u) : Node) = (g.parties - 1, s) := by
    intro e
    have := congrArg Prod.fst e
    simp only at this
    omega
  have e3 : 1 ≤ g.parties := by omega
  simp only [if_neg e1, e3, le_refl, lt_irrefl, if_false, hu, and_self, if_true, Nat.zero_add]
  rw [countRs, simRs, cipherRs, castRs, queryRs, if_pos rfl]
  simp only [atParty_last g, roundsLen, List.map_cons, List.map_nil, List.sum_cons, List.sum_nil]
  cases offline <;> cases online <;>
    simp only [if_true, Bool.false_eq_true, if_false, w, b, i] <;> omega

end

section
variable {g : Grid box} (h : g.Valid) {k s : Nat} (hk : k < g.parties) (hs : s < g.servers)
include h hk hs

theorem len_cipherB : (g.cipherB k s).length = g.load k s * (124 * (g.parties - k)) := by
  have hP := h.parties
  obtain ⟨t1, t2⟩ := (tickets_spec h k hk).1 s hs
  unfold cipherB
  rw [List.flatMap_def, flatten_length (cipherSize (g.parties - k)) _ (by
    intro c hc
    obtain ⟨x, hx, rfl⟩ := List.mem_map.1 hc
    exact Ticket.cipher_length h.good (by rw [h.keysLength]; omega) (t2 x hx) (by rw [h.keysLength]; omega)), List.length_map, t1]
  rfl

theorem len_queryB (offline : Bool) : (g.queryB offline k s).length = g.load k s * 12 := by
  unfold queryB
  rw [List.flatMap_def, flatten_length 12 _ (by
    intro c hc
    obtain ⟨x, hx, rfl⟩ := List.mem_map.1 hc
    exact Query.encode_length _), List.length_map, (qs_spec h offline k hk s hs).1]

theorem len_respB (offline : Bool) : (g.respB offline k s).length = g.load k s * 52 := by
  unfold respB
  rw [List.flatMap_def, flatten_length 52 _ (by
    intro c hc
    obtain ⟨x, hx, rfl⟩ := List.mem_map.1 hc
    exact Response.encode_length _), List.length_map, (qs_spec h offline k hk s hs).1]

/-- What a server hears from the one before it. -/
theorem heard_down (offline online : Bool) : g.heardLen offline online (k + 1) s (k, s) =
    4 + (if offline then g.load k s * (124 * (g.parties - k)) else 0) + if online then g.load k s * 12 else 0 := by
  have e0 : (g.countB k s).length = 4 := natLE_length _ _
  have e1 := len_cipherB h hk hs
  have e2 := len_queryB h hk hs offline
  unfold heardLen downLen upLen inLen
  have a1 : 1 ≤ k + 1 ∧ k + 1 ≤ g.parties := by omega
  have a2 : ¬ ((k, s) : Node) = (k + 1 + 1, s) := by
    intro e
    have := congrArg Prod.fst e
    simp only at this
    omega
  have a3 : ¬ (k = k + 1 ∧ s < g.servers) := by omega
  simp only [if_pos a1, if_neg a2, if_neg a3, Nat.add_sub_cancel, if_true, e0, e1, e2, ite_self, Nat.add_zero, Nat.zero_add]

/-- What a server hears from the one after it. -/
theorem heard_up (offline online : Bool) : g.heardLen offline online k s (k + 1, s) =
    1 + (if offline then 1 else 0) + if online then g.load k s * 52 else 0 := by
  have e2 := len_respB h hk hs offline
  unfold heardLen downLen upLen inLen
  have a2 : ¬ ((k + 1, s) : Node) = (k - 1, s) := by
    intro e
    have := congrArg Prod.fst e
    simp only at this
    omega
  have a3 : ¬ (k + 1 = k ∧ s < g.servers) := by omega
  have e0 : (readyB k s).length = 1 := rfl
  simp only [if_pos hk, if_neg a2, if_neg a3, if_true, e0, e2, ite_self, Nat.add_zero, Nat.zero_add]

end

/-- Nobody else is heard. -/
theorem heard_other {g : Grid box} (h : g.Valid) (offline online : Bool) (i s : Nat) (j : Node)
    (h1 : ¬ (j = (i - 1, s) ∧ 1 ≤ i ∧ i ≤ g.parties)) (h2 : ¬ (j = (i + 1, s) ∧ i < g.parties))
    (h3 : ¬ (j.1 = i ∧ j.2 < g.servers ∧ 1 ≤ i ∧ i ≤ g.parties)) :
    g.heardLen offline online i s j = 0 := by
  have hP := h.parties
  have d : ∀ f B, downLen g.servers g.parties i s f B j = 0 := by
    intro f B
    unfold downLen
    by_cases hi : 1 ≤ i ∧ i ≤ g.parties
    · rw [if_pos hi, if_neg (fun e => h1 ⟨e, hi⟩), if_neg (fun e => h3 ⟨e.1, e.2, hi⟩)]
    · rw [if_neg hi]
  have u : ∀ f B, B 0 = [] → upLen g.servers g.parties i s f B j = 0 := by
    intro f B hB
    unfold upLen
    by_cases hi : i < g.parties
    · rw [if_pos hi, if_neg (fun e => h2 ⟨e, hi⟩), Nat.zero_add]
      split
      · rename_i hj
        have : i = 0 := by
          by_contra hc
          exact h3 ⟨hj.1, hj.2, by omega, by omega⟩
        subst this
        rw [hB]; rfl
      · rfl
    · rw [if_neg hi]
  have n : ∀ B, B 0 = [] → inLen g.servers g.parties i s B j = 0 := by
    intro B hB
    unfold inLen
    split
    · split
      · rename_i hi hj
        have : i = 0 := by
          by_contra hc
          exact h3 ⟨hj.1, hj.2, by omega, by omega⟩
        subst this
        rw [hB]; rfl
      · rfl
    · rfl
  unfold heardLen
  rw [d, d, d, u _ g.waitRs (atParty_zero g _), u _ (g.backRs offline) (atParty_zero g _), n (g.simRs offline) (atParty_zero g _), n g.castRs (by
    unfold castRs
    rw [if_neg (by omega)]
    exact atParty_zero g _)]
  simp

/-- The plan of a server of a party. -/
theorem plan_counts {g : Grid box} (h : g.Valid) {k s : Nat} (hk : k + 1 < g.parties) (hs : s < g.servers) :
    ∃ plan, g.Plans k s plan ∧ ∀ u < g.servers, plan.countFrom u = .ok ((g.dests k u).count s) ∧
      plan.countTo u = .ok ((g.dests k s).count u) ∧ plan.countNoiseTo u = .ok (noiseTo (g.dests k) (g.noise k) u s) := by
  have ok := h.slot hk hs
  obtain ⟨p, h1, -, h3⟩ := (plan_ok (g.slot k s).rand.rand (g.slot k s).seed (g.slot k s).counts ok.pos
    (by rw [Slot.counts_sum]; exact ok.total)).2.2.2 s (g.noise k s)
    (by rw [Slot.counts_length]; exact ok.me) (ParallelShuffler.new s (g.slot k s).counts.length (g.slot k s).seed) rfl rfl rfl
  refine ⟨p, h1, fun u hu => ⟨?_, ?_, ?_⟩⟩
  · unfold ParallelShuffler.countFrom
    rw [h3.fromCount, Slot.counts_length]
    exact rd_tab _ _ _ hu
  · unfold ParallelShuffler.countTo
    rw [h3.toCount, Slot.counts_length]
    exact rd_tab _ _ _ hu
  · unfold ParallelShuffler.countNoiseTo
    rw [h3.toNoise, Slot.counts_length]
    exact rd_tab _ _ _ hu

theorem total_congr {box' : SealedBox} {g : Grid box} {g' : Grid box'} (hsv : g.servers = g'.servers)
    (hc : ∀ s < g.servers, g.count s = g'.count s) (P : Nat) (hn : ∀ k, k + 1 < P → ∀ s < g.servers, g.noise k s = g'.noise k s)
    (k : Nat) (hk : k < P) : g.total k = g'.total k := by
  induction k with
  | zero =>
    unfold total
    rw [← hsv]
    exact congrArg _ (List.map_congr_left (fun s hs => hc s (List.mem_range.1 hs)))
  | succ k ih =>
    unfold total
    rw [ih (by omega), ← hsv]
    exact congrArg _ (congrArg _ (List.map_congr_left (fun s hs => hn k hk s (List.mem_range.1 hs))))

theorem load_congr {box' : SealedBox} {g : Grid box} {g' : Grid box'} (hsv : g.servers = g'.servers)
    (hc : ∀ s < g.servers, g.count s = g'.count s) (P : Nat) (hn : ∀ k, k + 1 < P → ∀ s < g.servers, g.noise k s = g'.noise k s)
    (k : Nat) (hk : k < P) (s : Nat) (hs : s < g.servers) : g.load k s = g'.load k s := by
  cases k with
  | zero => exact hc s hs
  | succ k =>
    simp only [load]
    rw [total_congr hsv hc P hn (k + 1) hk, ← hsv]

theorem dests_congr {box' : SealedBox} {g : Grid box} {g' : Grid box'} (hsv : g.servers = g'.servers)
    (hc : ∀ s < g.servers, g.count s = g'.count s) (P : Nat) (hn : ∀ k, k + 1 < P → ∀ s < g.servers, g.noise k s = g'.noise k s)
    (hr : g.rand = g'.rand) (k : Nat) (hk : k + 1 < P) (hseed : g.sharedSeed k = g'.sharedSeed k) : g.dests k = g'.dests k := by
  show planOf g.rand (g.sharedSeed k) (tab g.servers (fun s => g.noise k s + g.load k s)) =
    planOf g'.rand (g'.sharedSeed k) (tab g'.servers (fun s => g'.noise k s + g'.load k s))
  rw [← hr, ← hseed, ← hsv]
  congr 1
  unfold tab
  refine List.map_congr_left (fun s hs => ?_)
  rw [hn k hk s (List.mem_range.1 hs), load_congr hsv hc P hn k (by omega) s (List.mem_range.1 hs)]

/-- What the lengths depend on. -/
theorem heardLen_congr {box' : SealedBox} {g : Grid box} {g' : Grid box'} (h : g.Valid) (h' : g'.Valid)
    (hp : g.parties = g'.parties) (hsv : g.servers = g'.servers) (hc : ∀ s < g.servers, g.count s = g'.count s)
    (hn : ∀ k, k + 1 < g.parties → ∀ s < g.servers, g.noise k s = g'.noise k s) (hr : g.rand = g'.rand)
    (hseed : ∀ k, k + 1 < g.parties → g.sharedSeed k = g'.sharedSeed k) (offline online : Bool) (i s : Nat) (hs : s < g.servers)
    (j : Node) (hj : j ≠ (i, s)) : g.heardLen offline online i s j = g'.heardLen offline online i s j := by
  have hP := h.parties
  have hl := load_congr hsv hc g.parties hn
  by_cases h1 : j = (i - 1, s) ∧ 1 ≤ i ∧ i ≤ g.parties
  · obtain ⟨k, rfl⟩ : ∃ k, i = k + 1 := ⟨i - 1, by omega⟩
    obtain ⟨rfl, -, h1⟩ := h1
    rw [show k + 1 - 1 = k from rfl, heard_down h (by omega) hs, heard_down h' (by omega) (by omega), hl k (by omega) s hs, hp]
  · by_cases h2 : j = (i + 1, s) ∧ i < g.parties
    · obtain ⟨rfl, h2⟩ := h2
      rw [heard_up h h2 hs, heard_up h' (by omega) (by omega), hl i h2 s hs]
    · by_cases h3 : j.1 = i ∧ j.2 < g.servers ∧ 1 ≤ i ∧ i ≤ g.parties
      · obtain ⟨j1, u⟩ := j
        obtain ⟨rfl, hu, h3, h4⟩ := h3
        simp only at h3 h4 hu
        have hne : s ≠ u := fun e => hj (by rw [e])
        obtain ⟨k, rfl⟩ : ∃ k, j1 = k + 1 := ⟨j1 - 1, by omega⟩
        by_cases hk : k + 1 < g.parties
        · rw [heard_sibling h hu hs hne offline online hk, heard_sibling h' (by omega) (by omega) hne offline online (by omega),
            dests_congr hsv hc g.parties hn hr k hk (hseed k hk), hl k (by omega) u hu, hp]
          unfold noiseTo
          rw [hn k hk s hs]
        · have e : k + 1 = g.parties := by omega
          have e' : k + 1 = g'.parties := by omega
          have a := heard_backend h hu hs hne offline online
          have b := heard_backend h' (by omega) (by omega) hne offline online
          rw [← e] at a
          rw [← e'] at b
          rw [a, b, hl (k + 1 - 1) (by omega) u hu]
      · rw [heard_other h _ _ _ _ _ h1 h2 h3, heard_other h' _ _ _ _ _ (by rwa [← hp]) (by rwa [← hp]) (by rwa [← hp, ← hsv])]

end Grid

end DPPIR.Protocol
