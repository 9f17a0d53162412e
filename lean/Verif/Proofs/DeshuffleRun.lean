import Verif.Proofs.Deshuffle

/-!
# The backward shuffle of a parallel party
-/

namespace DPPIR.Protocol
open DPPIR Proc PNet Onion Shuffle Spec Additive

variable {box : SealedBox} {ι : Type} [DecidableEq ι]

/-- The part of `Planned` that the backward shuffle uses. -/
structure PlannedBack (S : Nat) (dests : Nat → List Nat) (me noise : Nat) (ps : ParallelShuffler) : Prop where
  count : ps.serverCount = S
  slice : ps.sliceSize = sliceOf S dests me
  backward : ps.backward = tab S (fun t => posOf (dests me) t (dests me).length)
  backwardIdx : ps.backwardIdx = tab S (fun _ => 0)
  prefixFrom : ps.prefixFrom = tab S (preSum (fun a => (dests a).count me))
  toCount : ps.toCount = tab S (fun t => (dests me).count t)
  toNoise : ps.toNoiseCount = tab S (fun t => ((dests me).take noise).count t)

theorem Planned.back {S : Nat} {dests : Nat → List Nat} {me noise : Nat} {ps : ParallelShuffler} (h : Planned S dests me noise ps)
    (n : Nat) (f : List Nat) : PlannedBack S dests me noise { ps with forwardIdx := n, forward := f } :=
  ⟨h.count, h.slice, h.backward, h.backwardIdx, h.prefixFrom, h.toCount, h.toNoise⟩

/-- Responses that server `t` has for server `s`. -/
def rowsOf (dests : Nat → List Nat) (noise : Nat → Nat) (ans : Nat → List Response) (t s : Nat) : List Response :=
  selTo (realDest dests noise s) (ans s) t

/-- All responses that server `t` has, without those to noise. -/
def answersOf (S : Nat) (dests : Nat → List Nat) (noise : Nat → Nat) (ans : Nat → List Response) (t : Nat) : List Response :=
  (List.range S).flatMap (rowsOf dests noise ans t)

/-- The round of `DeshuffleResponses`. -/
def backRound (S : Nat) (dests : Nat → List Nat) (noise : Nat → Nat) (ans : Nat → List Response) (s : Nat) : List (Nat × Byte) :=
  routedBytes Response.encode responseSize S s (backSrcs S (rowsOf dests noise ans s)) (answersOf S dests noise ans s)

theorem backRound_ok (S : Nat) (dests : Nat → List Nat) (noise : Nat → Nat) (ans : Nat → List Response) :
    OutsOk S (backRound S dests noise ans) := by
  intro s hs o ho
  exact outgoing_mem _ _ _ _ _ (routed_mem _ s S _ (srcList_lt _ _) _) o ho

theorem count_real (dests : Nat → List Nat) (noise : Nat → Nat) (ans : Nat → List Response) (t s : Nat)
    (hlen : (ans s).length = (realDest dests noise s).length) :
    (dests s).count t = noiseTo dests noise t s + (rowsOf dests noise ans t s).length := by
  unfold rowsOf noiseTo
  rw [selTo_length _ _ _ hlen.symm]
  unfold realDest
  rw [← List.count_append, List.take_append_drop]

theorem sum_counts_lt (S : Nat) (ds : List Nat) (h : ∀ d ∈ ds, d < S) : preSum (fun t => ds.count t) S = ds.length := by
  induction ds with
  | nil =>
    have : ∀ n, preSum (fun _ => 0) n = 0 := by
      intro n; induction n with
      | zero => rfl
      | succ n ih => rw [preSum_succ, ih]
    simpa using this S
  | cons d ds ih =>
    have hd := h d (by simp)
    have e : ∀ t, (d :: ds).count t = ds.count t + if t = d then 1 else 0 := by
      intro t
      rw [List.count_cons]
      by_cases h : d = t
      · simp [h]
      · simp [h, Ne.symm h]
    have e2 : ∀ n, preSum (fun t => if t = d then 1 else 0) n = if d < n then 1 else 0 := by
      intro n
      induction n with
      | zero => rfl
      | succ n ih =>
        rw [preSum_succ, ih]
        by_cases h1 : d < n
        · rw [if_pos h1, if_neg (show ¬ n = d by omega), if_pos (show d < n + 1 by omega)]
        · rw [if_neg h1]
          by_cases h2 : n = d
          · rw [if_pos h2, if_pos (show d < n + 1 by omega)]
          · rw [if_neg h2, if_neg (show ¬ d < n + 1 by omega)]
    rw [show preSum (fun t => (d :: ds).count t) S = preSum (fun t => ds.count t + if t = d then 1 else 0) S from
      preSum_congr (fun t _ => e t), preSum_add, ih (fun x hx => h x (by simp [hx])), e2, if_pos hd]
    simp

theorem backRound_does {idx : ι → Option Nat} {sib : Nat → ι} {S : Nat} (hg : Group idx sib S) (hS : S < 255) (h2 : 2 ≤ S)
    (p : ParallelParty box) (me : Nat) (hme : me < S) (dests : Nat → List Nat) (hplan : Routing S dests)
    (noise : Nat → Nat) (hn : ∀ s, s < S → noise s ≤ (dests s).length)
    (ans : Nat → List Response) (hlen : ∀ s, s < S → (ans s).length = (realDest dests noise s).length)
    (un : Nat → Response)
    (hid : p.serverId = me) (hcount : p.serverCount = S) (hps : PlannedBack S dests me (noise me) p.pshuffler)
    (hnoise : p.noiseCount = noise me) (hin : p.inputCount = (realDest dests noise me).length)
    (hnp : p.noisePrefix = tab S (fun s => preSum (noiseTo dests noise me) (s + 1)))
    (hun : ∀ i r, (ans me)[i]? = some r → ∃ tag pre, p.tags.get i = .ok tag ∧ p.queriesState.getPreshare tag = .ok pre ∧
      ∀ t, additiveReconstructInto r pre t = .ok (un i)) :
    PProc.Does (fun st => ∃ ps, st.p = ({ p with
        responses := { ptr := (List.range p.inputCount).map un, capacity := p.inputCount, right := 0 }
        pshuffler := ps } : ParallelParty box))
      (sendAndPoll (ParallelParty.exchange { p with responses := Batch.initialize p.inputCount ⟨0, fun _ => 0⟩ } sib responseSize
        (tab S (fun s => if s = me then 0 else (realDest dests noise me).count s)))
        (ParallelParty.responseHandlers (ParallelParty.exchange { p with responses := Batch.initialize p.inputCount ⟨0, fun _ => 0⟩ } sib responseSize
        (tab S (fun s => if s = me then 0 else (realDest dests noise me).count s)))) (answersOf S dests noise ans me)
        (p.inputCount - (realDest dests noise me).count me)
        { p := { p with responses := Batch.initialize p.inputCount ⟨0, fun _ => 0⟩ }
          stop := preSum (fun s => (rowsOf dests noise ans me s).length) 1 })
      [rseg idx sib (backRound S dests noise ans) me] := by
  have hl32 := hplan.length_le hme
  have hs32 := hplan.slice_le hme
  have hD : realDest dests noise me = (dests me).drop (noise me) := rfl
  have hDl : (realDest dests noise me).length = (dests me).length - noise me := List.length_drop
  have hcr : ∀ t s, s < S → (dests s).count t = noiseTo dests noise t s + (rowsOf dests noise ans t s).length :=
    fun t s hs => count_real dests noise ans t s (hlen s hs)
  have hto : ∀ t, (dests me).count t = ((dests me).take (noise me)).count t + (realDest dests noise me).count t := by
    intro t; rw [hD, ← List.count_append, List.take_append_drop]
  have hDc : (realDest dests noise me).count me ≤ (realDest dests noise me).length := List.count_le_length
  have hX : ∀ s, ((ParallelParty.exchange { p with responses := Batch.initialize p.inputCount ⟨0, fun _ => 0⟩ } sib responseSize
      (tab S (fun s => if s = me then 0 else (realDest dests noise me).count s))).Sib s ↔ s < S ∧ s ≠ me) := by
    intro s
    show s < p.serverCount ∧ s ≠ p.serverId ↔ _
    rw [hid, hcount]
  generalize hXe : (ParallelParty.exchange { p with responses := Batch.initialize p.inputCount ⟨0, fun _ => 0⟩ } sib responseSize
      (tab S (fun s => if s = me then 0 else (realDest dests noise me).count s))) = X at hX
  have e1 : X.me = me := by rw [← hXe]; exact hid
  have e2 : X.servers = S := by rw [← hXe]; exact hcount
  have e3 : X.unit = responseSize := by rw [← hXe]; rfl
  have e4 : X.sib = sib := by rw [← hXe]; rfl
  have e5 : ∀ s, X.Sib s → X.counts s = (realDest dests noise me).count s := by
    intro s hs
    have hs' := (hX s).1 hs
    rw [← hXe, exchange_counts_tab _ _ _ _ _ _ hs'.1, if_neg hs'.2]
  have hsum : p.inputCount - (realDest dests noise me).count me = ∑ s ∈ X.sibs, X.counts s := by
    have h1 : ∑ s ∈ X.sibs, X.counts s = ∑ s ∈ X.sibs, (realDest dests noise me).count s :=
      Finset.sum_congr rfl (fun s hs => e5 s ((X.mem_sibs s).1 hs))
    have h3 : ∀ n, ∑ s ∈ Finset.range n, (realDest dests noise me).count s = preSum (fun a => (realDest dests noise me).count a) n := by
      intro n
      induction n with
      | zero => rfl
      | succ n ih => rw [Finset.sum_range_succ, ih, preSum_succ]
    have h4 : (realDest dests noise me).count me + ∑ s ∈ X.sibs, (realDest dests noise me).count s = (realDest dests noise me).length := by
      unfold Exchange.sibs
      rw [e1, e2, Finset.add_sum_erase _ (fun s => (realDest dests noise me).count s) (Finset.mem_range.2 hme), h3,
        sum_counts_lt S (realDest dests noise me) (fun d hd => hplan.lt me hme d (List.drop_subset _ _ hd))]
    omega
  let p0 : ParallelParty box := { p with responses := Batch.initialize p.inputCount ⟨0, fun _ => 0⟩ }
  let SP := deshuffleSpec X p0 (noise me) (dests me) (ans me) (rowsOf dests noise ans me) un (fun a => (dests a).count me)
    (noiseTo dests noise me) hnoise (hn me hme) (hlen me hme) hl32 (by rw [e2]; exact hps.backward) hun (by rw [e1]; rfl)
    (by rw [e2]; exact fun s hs => hcr me s hs) (by rw [e2]; exact hs32) (by rw [e2]; exact hps.prefixFrom)
    (by rw [e2]; exact hnp) (by rw [e2]; exact hcount) (by rw [e1, e2]; exact hme) (by rw [e4]; exact hg.inj) e3
    (by rw [e2]; exact hS) e5 (by rw [← hsum]; omega)
  have hz : doneOf (fun _ => backSrcs X.servers (rowsOf dests noise ans me)) X.me 0 (fun _ => 0) = fun _ => 0 := by
    funext s; unfold doneOf; simp
  have h0 : SP.I 0 (fun _ => 0) ⟨p0, 0, 0, preSum (fun s => (rowsOf dests noise ans me s).length) 1⟩ (List.replicate X.servers 0) := by
    refine ⟨⟨List.replicate p.inputCount ⟨0, fun _ => 0⟩, ?_, ?_⟩, ?_, rfl, ?_, Nat.zero_le _, fun _ => rfl⟩
    · rw [hz]
      show p0 = _
      unfold backParty
      have hb : (bidx (fun t => ((dests me).take (noise me)).count t) fun _ => 0) = fun _ => 0 := by
        funext t; simp [bidx]
      rw [hb, e2, ← show p0.pshuffler.backwardIdx = tab S (fun _ => 0) from hps.backwardIdx]
      simp only [p0, Batch.initialize, List.length_replicate]
    · rw [hz]
      refine ⟨by rw [List.length_replicate, hin]; rfl, ?_⟩
      intro i t _ h
      exact absurd h (Nat.not_lt_zero _)
    · rw [hz, replicate_eq_tab]
    · show 0 < X.servers
      rw [e2]; omega
  have hd := SP.does ⟨p0, 0, 0, preSum (fun s => (rowsOf dests noise ans me s).length) 1⟩ _ hsum h0
    (is := roundIns idx (backRound S dests noise ans) me) (av := fun _ => false)
    (by
      intro s hs
      have hs' := (hX s).1 hs
      rw [e4, roundIns_sib hg _ hs'.1]
      unfold backRound
      rw [routedBytes_to _ _ _ _ _ _ _ hme (Ne.symm hs'.2)]
      unfold answersOf
      rw [selTo_srcList, if_pos hme]
      rfl)
    (by
      intro j hj
      refine roundIns_other hg (backRound_ok S dests noise ans) ?_
      intro s hs
      have := hj s ((hX s).2 hs)
      rwa [e4] at this)
  have hbr : backRound S dests noise ans me = routedBytes Response.encode X.unit X.servers X.me
      (backSrcs X.servers (rowsOf dests noise ans me)) ((List.range X.servers).flatMap (rowsOf dests noise ans me)) := by
    rw [e1, e2, e3]; rfl
  have hall : SP.allOut = backRound S dests noise ans me := by
    rw [hbr]
    unfold XSpec.allOut XSpec.outsFrom routedBytes
    congr 1
    exact routed_range Response.encode X.me (backSrcs X.servers (rowsOf dests noise ans me))
      ((List.range X.servers).flatMap (rowsOf dests noise ans me)) (by rw [srcList_length, concat_length])
  rw [hall, e4] at hd
  have hi : (List.range X.servers).flatMap (rowsOf dests noise ans me) = answersOf S dests noise ans me := by rw [e2]; rfl
  rw [← hi]
  refine hd.mono ?_
  rintro st ⟨r, rc, hr, hI⟩
  obtain ⟨⟨view, hst, hfill⟩, -⟩ := hI
  refine ⟨{ p.pshuffler with backwardIdx := (backParty p0 X.servers (fun t => ((dests me).take (noise me)).count t) view
      (doneOf (fun _ => backSrcs X.servers (rowsOf dests noise ans me)) X.me ((List.range X.servers).flatMap (rowsOf dests noise ans me)).length r)).pshuffler.backwardIdx }, ?_⟩
  rw [hst]
  have hvl : view.length = p.inputCount := by rw [hfill.length, hin]; rfl
  have hview : view = (List.range p.inputCount).map un := by
    apply List.ext_getElem?
    intro i
    by_cases hi : i < p.inputCount
    · rw [List.getElem?_map, List.getElem?_range hi]
      have hi' : i < (realDest dests noise me).length := by omega
      obtain ⟨d, hget⟩ : ∃ d, (realDest dests noise me)[i]? = some d := ⟨_, List.getElem?_eq_getElem hi'⟩
      have htS : d < S := hplan.lt me hme _ (List.drop_subset _ _ (List.mem_of_getElem? hget))
      refine hfill.at' i _ hget ?_
      have hlt : ((realDest dests noise me).take i).count d < (realDest dests noise me).count d := by
        have h1 := List.take_append_drop i (realDest dests noise me)
        have h3 : (realDest dests noise me).drop i = d :: (realDest dests noise me).drop (i + 1) := by
          rw [List.drop_eq_getElem_cons hi']
          congr 1
          rw [List.getElem?_eq_getElem hi'] at hget
          exact Option.some.inj hget
        have h4 : (realDest dests noise me).count d =
            ((realDest dests noise me).take i).count d + ((realDest dests noise me).drop i).count d := by
          rw [← List.count_append, h1]
        rw [h3, List.count_cons_self] at h4
        omega
      refine lt_of_lt_of_le hlt (le_of_eq ?_)
      unfold doneOf
      split
      · rename_i e
        rw [List.take_of_length_le (by rw [srcList_length, concat_length]), srcList_count _ _ (by rw [e1, e2]; exact hme), e, e1]
        unfold rowsOf
        rw [selTo_length _ _ _ (hlen me hme).symm]
      · rename_i e
        rw [e1] at e
        rw [hr _ ((hX _).2 ⟨htS, e⟩), e5 _ ((hX _).2 ⟨htS, e⟩)]
    · rw [List.getElem?_eq_none (by omega), List.getElem?_eq_none (by simp; omega)]
  unfold backParty
  rw [hvl, ← hview]

theorem deshuffleResponses_does {idx : ι → Option Nat} {sib : Nat → ι} {S : Nat} (hg : Group idx sib S) (hS : S < 255) (h2 : 2 ≤ S)
    (p : ParallelParty box) (me : Nat) (hme : me < S) (dests : Nat → List Nat) (hplan : Routing S dests)
    (noise : Nat → Nat) (hn : ∀ s, s < S → noise s ≤ (dests s).length)
    (ans : Nat → List Response) (hlen : ∀ s, s < S → (ans s).length = (realDest dests noise s).length)
    (un : Nat → Response)
    (hid : p.serverId = me) (hcount : p.serverCount = S) (hps : PlannedBack S dests me (noise me) p.pshuffler)
    (hnoise : p.noiseCount = noise me) (hin : p.inputCount = (realDest dests noise me).length)
    (hnp : p.noisePrefix = tab S (fun s => preSum (noiseTo dests noise me) (s + 1)))
    (hun : ∀ i r, (ans me)[i]? = some r → ∃ tag pre, p.tags.get i = .ok tag ∧ p.queriesState.getPreshare tag = .ok pre ∧
      ∀ t, additiveReconstructInto r pre t = .ok (un i))
    (hitems : p.inResponses.elements = .ok (answersOf S dests noise ans me)) :
    PProc.Does (fun p' => ∃ ps, p' = { p with
        responses := { ptr := (List.range p.inputCount).map un, capacity := p.inputCount, right := 0 }
        inResponses := Batch.free
        pshuffler := ps })
      (p.deshuffleResponses sib) [rseg idx sib (backRound S dests noise ans) me, rseg idx sib (castOut S readyMsg) me] := by
  unfold ParallelParty.deshuffleResponses
  simp only [PProc.bind_def]
  have hl32 := hplan.length_le hme
  have hs32 := hplan.slice_le hme
  have hD : realDest dests noise me = (dests me).drop (noise me) := rfl
  have hDl : (realDest dests noise me).length = (dests me).length - noise me := List.length_drop
  have hcr : ∀ t s, s < S → (dests s).count t = noiseTo dests noise t s + (rowsOf dests noise ans t s).length :=
    fun t s hs => count_real dests noise ans t s (hlen s hs)
  have hto : ∀ t, (dests me).count t = ((dests me).take (noise me)).count t + (realDest dests noise me).count t := by
    intro t; rw [hD, ← List.count_append, List.take_append_drop]
  have hDc : (realDest dests noise me).count me ≤ (realDest dests noise me).length := List.count_le_length
  refine PProc.Does.lifts (readPlan_ok _ S me _ (fun s => (realDest dests noise me).count s) _ hcount hid hme (fun s hs => ?_)
    (by rw [hin]; omega) (by rw [hin]; exact hDc)) ?_
  · unfold ParallelShuffler.countTo ParallelShuffler.countNoiseTo
    rw [hps.toCount, rd_tab _ _ _ hs, bind_ok, hps.toNoise, rd_tab _ _ _ hs, bind_ok, hto s]
    have : (realDest dests noise me).count s ≤ (realDest dests noise me).length := List.count_le_length
    rw [show ((dests me).take (noise me)).count s + (realDest dests noise me).count s + 2 ^ 32 - ((dests me).take (noise me)).count s =
      (realDest dests noise me).count s + 2 ^ 32 by omega]
    unfold wrap32
    rw [Nat.add_mod_right, Nat.mod_eq_of_lt (by omega)]
  refine PProc.Does.lifts (targetEnd_ok _ S (fun a => (dests a).count me) (noiseTo dests noise me)
    (fun s => (rowsOf dests noise ans me s).length) (fun s hs => hcr me s hs) hs32 hps.prefixFrom hnp (show 0 + 1 < S by omega)) ?_
  refine PProc.Does.lifts hitems ?_
  simp only
  refine PProc.Does.bind' (L := [rseg idx sib (backRound S dests noise ans) me]) (M := [rseg idx sib (castOut S readyMsg) me])
    (Q := fun st => ∃ ps, st.p = ({ p with
        responses := { ptr := (List.range p.inputCount).map un, capacity := p.inputCount, right := 0 }
        pshuffler := ps } : ParallelParty box)) ?_ ?_ rfl
  · exact backRound_does hg hS h2 p me hme dests hplan noise hn ans hlen un hid hcount hps hnoise hin hnp hun
  · rintro ⟨p', i', t', s'⟩ ⟨ps, hp'⟩
    simp only at hp'
    subst hp'
    simp only
    refine PProc.Does.bind' (M := []) (by
      have := barrier_does hg hme (fun _ => false)
      unfold ParallelParty.sync
      simp only
      rw [hid, hcount]
      exact this) ?_ rfl
    rintro - -
    exact .done ⟨_, rfl⟩

end DPPIR.Protocol
