import Verif.Proofs.ParallelShuffleRun

/-!
# The backward shuffle exchange
-/

namespace DPPIR.Protocol
open DPPIR Proc PNet Onion Shuffle Spec Additive

variable {box : SealedBox} {ι : Type} [DecidableEq ι] {α : Type}

/-! ## Sources of the messages of a server, in the order of the servers -/

/-- `f 0` times 0, `f 1` times 1, … -/
def srcList (S : Nat) (f : Nat → Nat) : List Nat := (List.range S).flatMap (fun s => List.replicate (f s) s)

theorem srcList_length (S : Nat) (f : Nat → Nat) : (srcList S f).length = preSum f S := by
  unfold srcList
  rw [concat_length]
  simp

theorem srcList_get (S : Nat) (f : Nat → Nat) {s j : Nat} (hs : s < S) (hj : j < f s) :
    (srcList S f)[preSum f s + j]? = some s := by
  have := concat_get S (fun s => List.replicate (f s) s) s j hs (by simpa using hj)
  simp only [List.length_replicate] at this
  unfold srcList
  rw [this]
  simp [hj]

theorem srcList_lt (S : Nat) (f : Nat → Nat) : ∀ d ∈ srcList S f, d < S := by
  intro d hd
  obtain ⟨s, hs, hd⟩ := List.mem_flatMap.1 hd
  rw [List.eq_of_mem_replicate hd]
  simpa using hs

theorem srcList_succ (S : Nat) (f : Nat → Nat) : srcList (S + 1) f = srcList S f ++ List.replicate (f S) S := by
  simp [srcList, List.range_succ]

theorem selTo_replicate (s t : Nat) (l : List α) : selTo (List.replicate l.length s) l t = if s = t then l else [] := by
  induction l with
  | nil => simp
  | cons x l ih =>
    rw [List.length_cons, List.replicate_succ, selTo_cons, ih]
    split <;> rfl

theorem selTo_srcList (S : Nat) (rows : Nat → List α) (t : Nat) :
    selTo (srcList S (fun s => (rows s).length)) ((List.range S).flatMap rows) t = if t < S then rows t else [] := by
  induction S with
  | zero => simp [srcList]
  | succ S ih =>
    rw [srcList_succ, List.range_succ, List.flatMap_append, selTo_append _ _ _ _ _ (by rw [srcList_length, concat_length]), ih]
    simp only [List.flatMap_cons, List.flatMap_nil, List.append_nil]
    rw [selTo_replicate]
    by_cases h : t < S
    · rw [if_pos h, if_neg (show ¬ S = t by omega), if_pos (show t < S + 1 by omega), List.append_nil]
    · rw [if_neg h]
      by_cases h2 : S = t
      · rw [if_pos h2, if_pos (show t < S + 1 by omega), h2]; rfl
      · rw [if_neg h2, if_neg (show ¬ t < S + 1 by omega)]; rfl

theorem srcList_count (S : Nat) (f : Nat → Nat) {t : Nat} (ht : t < S) : (srcList S f).count t = f t := by
  have h := selTo_srcList S (fun s => List.replicate (f s) s) t
  simp only [List.length_replicate] at h
  rw [if_pos ht] at h
  have := selTo_length (srcList S f) ((List.range S).flatMap (fun s => List.replicate (f s) s)) t rfl
  rw [h] at this
  simpa using this.symm

/-! ## Skipping noise -/

theorem posOf_lt (l : List Nat) (t n : Nat) : ∀ i ∈ posOf l t n, i < n := by
  intro i hi
  have := (List.mem_filter.1 hi).1
  simpa using this

theorem posOf_split (l : List Nat) (t n : Nat) (hn : n ≤ l.length) :
    posOf l t l.length = posOf l t n ++ (posOf (l.drop n) t (l.drop n).length).map (n + ·) := by
  have key : ∀ m, n + m ≤ l.length → posOf l t (n + m) = posOf l t n ++ (posOf (l.drop n) t m).map (n + ·) := by
    intro m hm
    induction m with
    | zero => simp [posOf]
    | succ m ih =>
      rw [← Nat.add_assoc, posOf_succ, ih (by omega), posOf_succ, List.map_append, List.append_assoc]
      congr 2
      rw [List.getElem?_drop]
      split <;> rfl
  have := key (l.length - n) (by omega)
  rw [Nat.add_sub_cancel' hn] at this
  rw [this, List.length_drop]

/-- One call that finds a message that is not noise. -/
theorem skipNoise_hit (noise source k i fuel : Nat) (s : ParallelShuffler) (row : List Nat) (hb : s.backward[source]? = some row)
    (hbi : s.backwardIdx[source]? = some k) (hi : row[k]? = some i) (hk : k + 1 < 2 ^ 32) (hn : noise ≤ i) :
    skipNoise noise source (fuel + 1) s = .ok (i, { s with backwardIdx := s.backwardIdx.set source (k + 1) }) := by
  have h : s.deshuffleOne source = .ok (i, { s with backwardIdx := s.backwardIdx.set source (k + 1) }) := by
    unfold ParallelShuffler.deshuffleOne
    rw [rd_eq_ok.2 hb, bind_ok, rd_eq_ok.2 hbi, bind_ok, rd_eq_ok.2 hi, bind_ok, wrap32_of_lt hk,
      wr_ok (List.getElem?_eq_some_iff.1 hbi).1, bind_ok]
  unfold skipNoise
  rw [h, bind_ok]
  simp only
  rw [if_neg (by omega)]

/-- The first call skips the noise. -/
theorem skipNoise_first (noise source i : Nat) (P R : List Nat) (hP : ∀ x ∈ P, x < noise) (hR : R[0]? = some i) (hi : noise ≤ i)
    (hlen : P.length + 1 < 2 ^ 32) (m : Nat) : ∀ (k fuel : Nat) (s : ParallelShuffler), k + m = P.length → m < fuel →
    s.backward[source]? = some (P ++ R) → s.backwardIdx[source]? = some k →
    skipNoise noise source fuel s = .ok (i, { s with backwardIdx := s.backwardIdx.set source (P.length + 1) }) := by
  induction m with
  | zero =>
    intro k fuel s hk hf hb hbi
    obtain ⟨fuel, rfl⟩ : ∃ f, fuel = f + 1 := ⟨fuel - 1, by omega⟩
    have hk' : k = P.length := by omega
    subst hk'
    exact skipNoise_hit noise source _ i fuel s _ hb hbi (by rw [List.getElem?_append_right (le_refl _), Nat.sub_self, hR]) hlen hi
  | succ m ih =>
    intro k fuel s hk hf hb hbi
    obtain ⟨fuel, rfl⟩ : ∃ f, fuel = f + 1 := ⟨fuel - 1, by omega⟩
    have hkP : k < P.length := by omega
    have h : s.deshuffleOne source = .ok (P[k], { s with backwardIdx := s.backwardIdx.set source (k + 1) }) := by
      unfold ParallelShuffler.deshuffleOne
      rw [rd_eq_ok.2 hb, bind_ok, rd_eq_ok.2 hbi, bind_ok, rd_eq_ok.2 (show (P ++ R)[k]? = some P[k] by
        rw [List.getElem?_append_left hkP, List.getElem?_eq_getElem hkP]), bind_ok, wrap32_of_lt (by omega),
        wr_ok (List.getElem?_eq_some_iff.1 hbi).1, bind_ok]
    unfold skipNoise
    rw [h, bind_ok]
    simp only
    rw [if_pos (hP _ (List.getElem_mem hkP))]
    have hlt := (List.getElem?_eq_some_iff.1 hbi).1
    rw [ih (k + 1) fuel { s with backwardIdx := s.backwardIdx.set source (k + 1) } (by omega) (by omega) hb
      (by simp [hlt])]
    simp [List.set_set]

/-- Position of the next index in the backward map of a server from which `done` messages
were read. -/
def bidx (nz done : Nat → Nat) (t : Nat) : Nat := if done t = 0 then 0 else nz t + done t

theorem skipNoise_ok (noise source i S : Nat) (nz done : Nat → Nat) (P R : List Nat) (hP : ∀ x ∈ P, x < noise)
    (hPn : P.length ≤ noise) (hnz : nz source = P.length)
    (hR : R[done source]? = some i) (hi : noise ≤ i) (hlen : (P ++ R).length < 2 ^ 32) (s : ParallelShuffler) (hs : source < S)
    (hb : s.backward[source]? = some (P ++ R)) (hbi : s.backwardIdx = tab S (bidx nz done)) :
    skipNoise noise source (noise + 1) s = .ok (i, { s with
      backwardIdx := tab S (bidx nz (Function.update done source (done source + 1))) }) := by
  have hRl := (List.getElem?_eq_some_iff.1 hR).1
  rw [List.length_append] at hlen
  have hget : s.backwardIdx[source]? = some (bidx nz done source) := by rw [hbi, tab_get _ _ _ hs]
  have hset : s.backwardIdx.set source (nz source + (done source + 1)) =
      tab S (bidx nz (Function.update done source (done source + 1))) := by
    rw [hbi, tab_update]
    apply tab_congr
    intro t _
    unfold bidx
    by_cases h : t = source
    · subst h; simp
    · rw [Function.update_of_ne h, Function.update_of_ne h]
  rw [← hset]
  by_cases h0 : done source = 0
  · rw [h0] at hR
    have hb0 : bidx nz done source = 0 := by unfold bidx; rw [if_pos h0]
    rw [hb0] at hget
    rw [skipNoise_first noise source i P R hP hR hi (by omega) P.length 0 (noise + 1) s (by omega) (by omega) hb hget, hnz, h0]
  · have hb0 : bidx nz done source = P.length + done source := by unfold bidx; rw [if_neg h0, hnz]
    rw [hb0] at hget
    rw [skipNoise_hit noise source _ i noise s _ hb hget (by
      rw [List.getElem?_append_right (by omega), Nat.add_sub_cancel_left, hR]) (by omega) hi, hnz, Nat.add_assoc]

/-! ## Responses in place -/

/-- The responses that have arrived are in their places. -/
structure FilledBack (D : List Nat) (un : Nat → Response) (view : List Response) (done : Nat → Nat) : Prop where
  length : view.length = D.length
  at' : ∀ i t, D[i]? = some t → (D.take i).count t < done t → view[i]? = some (un i)

/-- This server's messages that are not noise. -/
def realDest (dests : Nat → List Nat) (noise : Nat → Nat) (s : Nat) : List Nat := (dests s).drop (noise s)

/-- Party during the backward exchange. -/
def backParty (p0 : ParallelParty box) (S : Nat) (nz : Nat → Nat) (view : List Response) (done : Nat → Nat) : ParallelParty box :=
  { p0 with
    responses := { ptr := view, capacity := view.length, right := 0 }
    pshuffler := { p0.pshuffler with backwardIdx := tab S (bidx nz done) } }

/-- One response is put in place. -/
theorem responseFrom_ok (p0 : ParallelParty box) (S noise : Nat) (ds : List Nat) (ans : List Response) (un : Nat → Response)
    (hnoise : p0.noiseCount = noise) (hn : noise ≤ ds.length) (hl : ans.length = (ds.drop noise).length) (h32 : ds.length < 2 ^ 32)
    (hback : p0.pshuffler.backward = tab S (fun t => posOf ds t ds.length))
    (hun : ∀ i r, ans[i]? = some r → ∃ tag pre, p0.tags.get i = .ok tag ∧ p0.queriesState.getPreshare tag = .ok pre ∧
      ∀ t, additiveReconstructInto r pre t = .ok (un i))
    (view : List Response) (done : Nat → Nat) (source : Nat) (r : Response) (hs : source < S)
    (hr : (selTo (ds.drop noise) ans source)[done source]? = some r) (hf : FilledBack (ds.drop noise) un view done) :
    ∃ view', ParallelParty.responseFrom source r (backParty p0 S (fun t => (ds.take noise).count t) view done, tab S done) =
        .ok (backParty p0 S (fun t => (ds.take noise).count t) view' (Function.update done source (done source + 1)),
          tab S (Function.update done source (done source + 1))) ∧
      FilledBack (ds.drop noise) un view' (Function.update done source (done source + 1)) := by
  have hlt := (List.getElem?_eq_some_iff.1 hr).1
  rw [selTo_length _ _ _ hl.symm] at hlt
  have hpl : (posOf (ds.drop noise) source (ds.drop noise).length).length = (ds.drop noise).count source := by
    rw [posOf_length _ _ _ (le_refl _), List.take_length]
  obtain ⟨i, hi⟩ : ∃ i, (posOf (ds.drop noise) source (ds.drop noise).length)[done source]? = some i :=
    ⟨_, List.getElem?_eq_getElem (by rw [hpl]; exact hlt)⟩
  obtain ⟨k1, k2⟩ := posOf_get _ _ _ _ _ (le_refl _) hi
  have hil := (List.getElem?_eq_some_iff.1 k1).1
  have hans : ans[i]? = some r := by
    rw [← k2, selTo_get _ _ _ _ k1] at hr
    exact hr
  obtain ⟨tag, pre, u1, u2, u3⟩ := hun i r hans
  have hdl : (ds.drop noise).length = ds.length - noise := List.length_drop
  have hcnt : (posOf ds source noise).length = (ds.take noise).count source := posOf_length _ _ _ hn
  have hPn : (posOf ds source noise).length ≤ noise := by
    rw [hcnt]
    exact le_trans List.count_le_length (by simp)
  have hvl := hf.length
  have hskip := skipNoise_ok noise source (noise + i) S (fun t => (ds.take noise).count t) done (posOf ds source noise)
    ((posOf (ds.drop noise) source (ds.drop noise).length).map (noise + ·)) (posOf_lt _ _ _) hPn hcnt.symm
    (by rw [List.getElem?_map, hi]; rfl) (by omega)
    (by
      rw [← posOf_split ds source noise hn, posOf_length _ _ _ (le_refl _)]
      exact lt_of_le_of_lt List.count_le_length (by rw [List.take_length]; exact h32))
    (backParty p0 S (fun t => (ds.take noise).count t) view done).pshuffler hs
    (by
      show p0.pshuffler.backward[source]? = _
      rw [hback, tab_get _ _ _ hs, posOf_split ds source noise hn]) rfl
  refine ⟨view.set i (un i), ?_, ?_⟩
  · unfold ParallelParty.responseFrom
    simp only
    have hd32 : done source + 1 < 2 ^ 32 := by
      have : (ds.drop noise).count source ≤ (ds.drop noise).length := List.count_le_length
      omega
    rw [rd_tab _ _ _ hs, bind_ok, wrap32_of_lt hd32, wr_ok (by simpa using hs), bind_ok,
      show (backParty p0 S (fun t => (ds.take noise).count t) view done).noiseCount = noise from hnoise, hskip, bind_ok]
    simp only
    rw [show noise + i - noise = i by omega,
      show (backParty p0 S (fun t => (ds.take noise).count t) view done).tags = p0.tags from rfl, u1, bind_ok]
    have hh : Party.handleResponse (backParty p0 S (fun t => (ds.take noise).count t) view done).toParty tag r i =
        .ok (backParty p0 S (fun t => (ds.take noise).count t) (view.set i (un i)) done).toParty := by
      unfold Party.handleResponse backParty
      simp only
      rw [u2, bind_ok]
      unfold Batch.get Batch.set
      simp only
      rw [rd_ok (by omega), bind_ok, u3, bind_ok, wr_ok (by omega), bind_ok, bind_ok]
      simp
    rw [hh, bind_ok, tab_update]
    rfl
  · refine ⟨by simpa using hvl, ?_⟩
    intro i' t' h1 h2
    by_cases e : i' = i
    · subst e
      rw [List.getElem?_set_self (by omega)]
    · rw [List.getElem?_set_ne (Ne.symm e)]
      refine hf.at' i' t' h1 ?_
      by_cases e2 : t' = source
      · subst e2
        rw [Function.update_self] at h2
        by_contra h3
        exact e (kthOcc_unique _ t' (done t') i' i ⟨h1, by omega⟩ ⟨k1, k2⟩)
      · rwa [Function.update_of_ne e2] at h2

/-! ## Whose turn it is -/

theorem targetEnd_ok (p : ParallelParty box) (S : Nat) (cnt nz f : Nat → Nat) (hcnt : ∀ s, s < S → cnt s = nz s + f s)
    (h32 : preSum cnt S < 2 ^ 32) (hpre : p.pshuffler.prefixFrom = tab S (preSum cnt))
    (hnp : p.noisePrefix = tab S (fun s => preSum nz (s + 1))) {t : Nat} (ht : t + 1 < S) : p.targetEnd t = .ok (preSum f (t + 1)) := by
  unfold ParallelParty.targetEnd ParallelShuffler.prefixCountFrom
  rw [hpre, rd_tab _ _ _ ht, bind_ok, hnp, rd_tab _ _ _ (show t < S by omega), bind_ok]
  have h1 : preSum cnt (t + 1) = preSum nz (t + 1) + preSum f (t + 1) := by
    rw [← preSum_add]; exact preSum_congr (fun i hi => hcnt i (by omega))
  have h2 := preSum_mono cnt (show t + 1 ≤ S by omega)
  rw [show preSum cnt (t + 1) + 2 ^ 32 - preSum nz (t + 1) = preSum f (t + 1) + 2 ^ 32 by omega]
  unfold wrap32
  rw [Nat.add_mod_right, Nat.mod_eq_of_lt (by omega)]

theorem advance_ok (p : ParallelParty box) (S : Nat) (cnt nz f : Nat → Nat) (hcnt : ∀ s, s < S → cnt s = nz s + f s)
    (h32 : preSum cnt S < 2 ^ 32) (hpre : p.pshuffler.prefixFrom = tab S (preSum cnt))
    (hnp : p.noisePrefix = tab S (fun s => preSum nz (s + 1))) (hS : p.serverCount = S) (a : Nat) (ha : a < preSum f S) (fuel : Nat) :
    ∀ target stop, target < S → S - target ≤ fuel → preSum f target ≤ a → (target + 1 < S → stop = preSum f (target + 1)) →
    ∃ target' stop', p.advance a fuel (target, stop) = .ok (target', stop') ∧ target' < S ∧ (srcList S f)[a]? = some target' ∧
      preSum f target' ≤ a ∧ (target' + 1 < S → stop' = preSum f (target' + 1)) := by
  induction fuel with
  | zero => intro target stop h1 h2; omega
  | succ fuel ih =>
    intro target stop h1 h2 h3 h4
    unfold ParallelParty.advance
    rw [hS]
    by_cases hc : a ≥ stop ∧ target < S - 1
    · rw [if_pos hc]
      have hstop := h4 (by omega)
      simp only
      by_cases hl : target + 1 < S - 1
      · rw [if_pos hl, targetEnd_ok p S cnt nz f hcnt h32 hpre hnp (by omega), bind_ok]
        exact ih (target + 1) _ (by omega) (by omega) (by omega) (fun _ => rfl)
      · rw [if_neg hl, bind_ok]
        exact ih (target + 1) stop (by omega) (by omega) (by omega) (fun h => by omega)
    · rw [if_neg hc]
      refine ⟨target, stop, rfl, h1, ?_, h3, h4⟩
      have hlt : a < preSum f (target + 1) := by
        by_cases hl : target + 1 < S
        · rw [← h4 hl]; omega
        · rw [show target + 1 = S by omega]; exact ha
      rw [preSum_succ] at hlt
      have := srcList_get S f h1 (j := a - preSum f target) (by omega)
      rwa [Nat.add_sub_cancel' h3] at this

/-! ## The exchange -/

/-- Sources of the responses of this server. -/
abbrev backSrcs (S : Nat) (rows : Nat → List Response) : List Nat := srcList S (fun s => (rows s).length)

/-- State during the exchange. -/
structure BackInv (p0 : ParallelParty box) (S me noise : Nat) (ds : List Nat) (rows : Nat → List Response) (un : Nat → Response) (a : Nat)
    (r : Nat → Nat) (st : DeshuffleState box) (rc : List Nat) : Prop where
  state : ∃ view, st.p = backParty p0 S (fun t => (ds.take noise).count t) view (doneOf (fun _ => backSrcs S rows) me a r) ∧
    FilledBack (ds.drop noise) un view (doneOf (fun _ => backSrcs S rows) me a r)
  counts : rc = tab S (doneOf (fun _ => backSrcs S rows) me a r)
  index : st.index = a
  target : st.target < S
  before : preSum (fun s => (rows s).length) st.target ≤ a
  stop : st.target + 1 < S → st.stop = preSum (fun s => (rows s).length) (st.target + 1)

/-- The backward shuffle as an exchange. -/
def deshuffleSpec (X : Exchange ι) (p0 : ParallelParty box) (noise : Nat) (ds : List Nat) (ans : List Response)
    (rows : Nat → List Response) (un : Nat → Response) (cnt nz : Nat → Nat)
    (hnoise : p0.noiseCount = noise) (hn : noise ≤ ds.length) (hl : ans.length = (ds.drop noise).length) (h32 : ds.length < 2 ^ 32)
    (hback : p0.pshuffler.backward = tab X.servers (fun t => posOf ds t ds.length))
    (hun : ∀ i r, ans[i]? = some r → ∃ tag pre, p0.tags.get i = .ok tag ∧ p0.queriesState.getPreshare tag = .ok pre ∧
      ∀ t, additiveReconstructInto r pre t = .ok (un i))
    (hown : rows X.me = selTo (ds.drop noise) ans X.me)
    (hcnt : ∀ s, s < X.servers → cnt s = nz s + (rows s).length)
    (hc32 : preSum cnt X.servers < 2 ^ 32) (hpre : p0.pshuffler.prefixFrom = tab X.servers (preSum cnt))
    (hnp : p0.noisePrefix = tab X.servers (fun s => preSum nz (s + 1))) (hS : p0.serverCount = X.servers) (hme : X.me < X.servers)
    (inj : Function.Injective X.sib) (unit : X.unit = responseSize) (servers : X.servers < 255)
    (hcounts : ∀ s, X.Sib s → X.counts s = (ds.drop noise).count s) (htot : ∑ s ∈ X.sibs, X.counts s < 2 ^ 32) :
    XSpec X (ParallelParty.responseHandlers (box := box) X) ((List.range X.servers).flatMap rows) where
  M s := (selTo (ds.drop noise) ans s).map Response.encode
  outs a := routedOne Response.encode X.me (backSrcs X.servers rows) ((List.range X.servers).flatMap rows) a
  I := BackInv p0 X.servers X.me noise ds rows un
  inj := inj
  unit0 := by rw [unit]; decide
  unitB := by rw [unit]; decide
  servers := servers
  hM := by
    intro s hs
    refine ⟨?_, ?_⟩
    · intro m hm
      obtain ⟨x, hx, rfl⟩ := List.mem_map.1 hm
      rw [unit]; exact Response.encode_length x
    · rw [List.length_map, selTo_length _ _ _ hl.symm, hcounts s hs]
  total := htot
  houts := by
    intro a o ho
    unfold routedOne at ho
    split at ho
    · rename_i p hp
      have hp := List.mem_of_getElem? hp
      split at ho
      · cases ho
      · rename_i hne
        rw [List.mem_singleton] at ho
        subst ho
        exact ⟨srcList_lt _ _ _ (List.of_mem_zip (a := p.1) (b := p.2) hp).1, hne⟩
    · cases ho
  got := by
    intro a r s rc hI i hi
    rw [hI.counts, tab_get _ _ _ hi.1]
    unfold doneOf
    rw [if_neg hi.2]
  send := by
    rintro a r st rc ha hr ⟨⟨view, hst, hfill⟩, hrc, hidx, htgt, hbef, hstop⟩
    have hlen : (backSrcs X.servers rows).length = ((List.range X.servers).flatMap rows).length := by
      rw [srcList_length, concat_length]
    have hpc := concat_length X.servers rows
    obtain ⟨t', s', q1, q2, q3, q4, q5⟩ := advance_ok st.p X.servers cnt nz (fun s => (rows s).length) hcnt hc32
      (by rw [hst]; exact hpre) (by rw [hst]; exact hnp) (by rw [hst]; exact hS) a (by omega) X.servers st.target st.stop htgt
      (by omega) hbef hstop
    have ha32 : a + 1 < 2 ^ 32 := by
      have : preSum (fun s => (rows s).length) X.servers ≤ preSum cnt X.servers := by
        have h1 : preSum cnt X.servers = preSum nz X.servers + preSum (fun s => (rows s).length) X.servers := by
          rw [← preSum_add]; exact preSum_congr hcnt
        omega
      omega
    have hzip : ((backSrcs X.servers rows).zip ((List.range X.servers).flatMap rows))[a]? =
        some (t', ((List.range X.servers).flatMap rows)[a]) := by
      rw [List.getElem?_zip_eq_some]
      exact ⟨q3, List.getElem?_eq_getElem ha⟩
    have hfuel : st.p.serverCount = X.servers := by rw [hst]; exact hS
    by_cases e : t' = X.me
    · have hx : (selTo (ds.drop noise) ans X.me)[doneOf (fun _ => backSrcs X.servers rows) X.me a r X.me]? =
          some ((List.range X.servers).flatMap rows)[a] := by
        have h1 := selTo_srcList X.servers rows X.me
        rw [if_pos hme] at h1
        rw [← hown, ← h1]
        unfold doneOf
        rw [if_pos rfl, selTo_get _ _ _ _ (by rw [q3, e]), List.getElem?_eq_getElem ha]
      obtain ⟨view', w1, w2⟩ := responseFrom_ok p0 X.servers noise ds ans un hnoise hn hl h32 hback hun view _ X.me _ hme hx hfill
      rw [← doneOf_me (fun _ => backSrcs X.servers rows) X.me a r (by rw [q3, e])] at w1 w2
      refine ⟨⟨backParty p0 X.servers (fun t => (ds.take noise).count t) view' (doneOf (fun _ => backSrcs X.servers rows) X.me (a + 1) r),
        a + 1, t', s'⟩, _, ⟨⟨view', rfl, w2⟩, rfl, rfl, q2, ?_, q5⟩, ?_⟩
      · show preSum _ t' ≤ a + 1
        omega
      intro x hx1 hx2 hroom
      have hout : routedOne Response.encode X.me (backSrcs X.servers rows) ((List.range X.servers).flatMap rows) a = [] := by
        unfold routedOne
        rw [hzip]
        simp [e]
      simp only [hout]
      show Runs (ParallelParty.respond X _ x) _ _
      unfold ParallelParty.respond
      refine Runs.bind' (Runs.lift (by rw [hx1, hfuel, hidx]; exact q1)) ?_ rfl
      simp only
      rw [if_pos e]
      have hown' : ParallelParty.responseFrom t' ((List.range X.servers).flatMap rows)[a] (x.st.p, x.received) = .ok
          (backParty p0 X.servers (fun t => (ds.take noise).count t) view' (doneOf (fun _ => backSrcs X.servers rows) X.me (a + 1) r),
            tab X.servers (doneOf (fun _ => backSrcs X.servers rows) X.me (a + 1) r)) := by
        rw [hx1, hx2, hst, e, hrc]
        exact w1
      refine Runs.bind' (Runs.lift hown') ?_ rfl
      have hi : wrap32 (x.st.index + 1) = a + 1 := by rw [hx1, hidx, wrap32_of_lt ha32]
      rw [hi]
      exact Runs.done _
    · refine ⟨⟨st.p, a + 1, t', s'⟩, rc, ⟨⟨view, ?_, ?_⟩, ?_, rfl, q2, ?_, q5⟩, ?_⟩
      · rw [doneOf_other (fun _ => backSrcs X.servers rows) X.me a _ r q3 e]; exact hst
      · rw [doneOf_other (fun _ => backSrcs X.servers rows) X.me a _ r q3 e]; exact hfill
      · rw [doneOf_other (fun _ => backSrcs X.servers rows) X.me a _ r q3 e]; exact hrc
      · show preSum _ t' ≤ a + 1
        omega
      · intro x hx1 hx2 hroom
        have hout : routedOne Response.encode X.me (backSrcs X.servers rows) ((List.range X.servers).flatMap rows) a =
            [(t', Response.encode ((List.range X.servers).flatMap rows)[a])] := by
          unfold routedOne
          rw [hzip]
          simp [e]
        simp only [hout]
        show Runs (ParallelParty.respond X _ x) _ _
        unfold ParallelParty.respond
        refine Runs.bind' (Runs.lift (by rw [hx1, hfuel, hidx]; exact q1)) ?_ (List.nil_append _).symm
        simp only
        rw [if_neg e]
        have hi : wrap32 (st.index + 1) = a + 1 := by rw [hidx, wrap32_of_lt ha32]
        have := runs_sendTo X { x with st := { x.st with target := t', stop := s', index := wrap32 (x.st.index + 1) } } t'
          (Response.encode ((List.range X.servers).flatMap rows)[a]) (hroom _)
        simp only [hx1, hi] at this ⊢
        rw [← hx2]
        exact this
  recv := by
    rintro a r st rc i m hi hr hm ⟨⟨view, hst, hfill⟩, hrc, hidx, htgt, hbef, hstop⟩
    rw [List.getElem?_map] at hm
    obtain ⟨x, hx, rfl⟩ := Option.map_eq_some_iff.1 hm
    have hx' : (selTo (ds.drop noise) ans i)[doneOf (fun _ => backSrcs X.servers rows) X.me a r i]? = some x := by
      unfold doneOf; rw [if_neg hi.2]; exact hx
    obtain ⟨view', w1, w2⟩ := responseFrom_ok p0 X.servers noise ds ans un hnoise hn hl h32 hback hun view _ i x hi.1 hx' hfill
    have hup : Function.update (doneOf (fun _ => backSrcs X.servers rows) X.me a r) i
        (doneOf (fun _ => backSrcs X.servers rows) X.me a r i + 1) =
        doneOf (fun _ => backSrcs X.servers rows) X.me a (Function.update r i (r i + 1)) := by
      rw [doneOf_update _ _ _ _ _ _ hi.2]
      congr 1
      unfold doneOf
      rw [if_neg hi.2]
    rw [hup] at w1 w2
    refine ⟨{ st with p := _ }, _, ?_, ⟨⟨view', rfl, w2⟩, rfl, hidx, htgt, hbef, hstop⟩⟩
    show (do
      let (p, received) ← ParallelParty.responseFrom i (Response.decode x.encode) (st.p, rc)
      .ok ({ st with p := p }, received)) = _
    rw [Response.decode_encode, hst, hrc, w1, bind_ok]
    rfl

end DPPIR.Protocol
