import Verif.Proofs.HostileBackends

/-!
# The shuffles of a parallel party among arbitrary siblings
-/

namespace DPPIR.Protocol
open DPPIR Proc Onion Shuffle Spec Additive
variable {box : SealedBox} {ι : Type} [DecidableEq ι]

/-- Any messages are those of some batch. -/
theorem scatter {α : Type} (ds : List Nat) : ∀ (msgs : Nat → List α), (∀ t, (msgs t).length = ds.count t) →
    ∃ l : List α, l.length = ds.length ∧ (∀ t, selTo ds l t = msgs t) ∧ ∀ x ∈ l, ∃ t, x ∈ msgs t := by
  induction ds with
  | nil =>
    intro msgs h
    refine ⟨[], rfl, fun t => ?_, by simp⟩
    have := h t
    rw [List.count_nil] at this
    rw [List.length_eq_zero_iff.1 this]
    rfl
  | cons d ds ih =>
    intro msgs h
    have hd := h d
    rw [List.count_cons_self] at hd
    cases e : msgs d with
    | nil => rw [e] at hd; simp at hd
    | cons x xs =>
      obtain ⟨l, h1, h2, h3⟩ := ih (Function.update msgs d xs) (by
        intro t
        by_cases ht : t = d
        · subst ht
          rw [Function.update_self]
          rw [e] at hd
          simpa using hd
        · rw [Function.update_of_ne ht, h t, List.count_cons_of_ne (Ne.symm ht)])
      refine ⟨x :: l, by simp [h1], fun t => ?_, fun y hy => ?_⟩
      · rw [selTo_cons, h2]
        by_cases ht : d = t
        · subst ht
          rw [if_pos rfl, Function.update_self, e]
        · rw [if_neg ht, Function.update_of_ne (Ne.symm ht)]
      · rcases List.mem_cons.1 hy with rfl | hy
        · exact ⟨d, by rw [e]; simp⟩
        · obtain ⟨t, ht⟩ := h3 y hy
          refine ⟨t, ?_⟩
          by_cases htd : t = d
          · subst htd
            rw [Function.update_self] at ht
            rw [e]
            exact List.mem_cons_of_mem _ ht
          · rwa [Function.update_of_ne htd] at ht

/-- A list as a concatenation of lists of given lengths. -/
theorem split_rows {α : Type} (f : Nat → Nat) : ∀ (S : Nat) (l : List α), l.length = preSum f S →
    ∃ rows : Nat → List α, (∀ s, s < S → (rows s).length = f s) ∧ (List.range S).flatMap rows = l := by
  intro S
  induction S with
  | zero =>
    intro l h
    rw [preSum_zero] at h
    exact ⟨fun _ => [], by simp, by rw [List.length_eq_zero_iff.1 h]; rfl⟩
  | succ S ih =>
    intro l h
    rw [preSum_succ] at h
    obtain ⟨rows, h1, h2⟩ := ih (l.take (preSum f S)) (by simp; omega)
    refine ⟨Function.update rows S (l.drop (preSum f S)), ?_, ?_⟩
    · intro s hs
      by_cases e : s = S
      · subst e
        rw [Function.update_self, List.length_drop]
        omega
      · rw [Function.update_of_ne e, h1 s (by omega)]
    · rw [List.range_succ, List.flatMap_append]
      have : (List.range S).flatMap (Function.update rows S (l.drop (preSum f S))) = (List.range S).flatMap rows := by
        refine List.flatMap_congr (fun s hs => ?_)
        rw [Function.update_of_ne (by have := List.mem_range.1 hs; omega)]
      rw [this, h2]
      simp

/-- Batches of the siblings that make them send given bytes. -/
theorem scatter_units {τ : Type} {idx : ι → Option Nat} {sib : Nat → ι} {S : Nat} (hg : Group idx sib S) (me unit : Nat)
    (dests : Nat → List Nat) (encode : τ → List Byte) (decode : List Byte → τ) (Good : τ → Prop) (dflt : τ) (hdflt : Good dflt)
    (hdec : ∀ m : List Byte, m.length = unit → encode (decode m) = m ∧ Good (decode m)) (items : List τ)
    (is : ι → List Byte) (his : ∀ j, (is j).length = lensOf idx me unit (fun s => (dests s).count me) j) :
    ∃ batch : Nat → List τ, batch me = items ∧ (∀ s, s < S → s ≠ me → (batch s).length = (dests s).length) ∧
      (∀ s, s < S → s ≠ me → ∀ x ∈ batch s, Good x) ∧
      ∀ s, s < S → s ≠ me → ((selTo (dests s) (batch s) me).map encode).flatten = is (sib s) := by
  have key : ∀ s, ∃ l : List τ, s < S → s ≠ me → l.length = (dests s).length ∧ (∀ x ∈ l, Good x) ∧
      ((selTo (dests s) l me).map encode).flatten = is (sib s) := by
    intro s
    by_cases hs : s < S ∧ s ≠ me
    · obtain ⟨ms, m1, m2, m3⟩ := units_of unit ((dests s).count me) (is (sib s)) (by rw [his, lensOf_sib hg _ _ _ hs.1 hs.2])
      obtain ⟨l, l1, l2, l3⟩ := scatter (dests s) (fun t => if t = me then ms.map decode else List.replicate ((dests s).count t) dflt) (by
        intro t
        split
        · rename_i e; rw [List.length_map, m1, e]
        · simp)
      refine ⟨l, fun _ _ => ⟨l1, ?_, ?_⟩⟩
      · intro x hx
        obtain ⟨t, ht⟩ := l3 x hx
        split at ht
        · obtain ⟨m, hm, rfl⟩ := List.mem_map.1 ht
          exact (hdec m (m2 m hm)).2
        · rw [List.eq_of_mem_replicate ht]; exact hdflt
      · rw [l2, if_pos rfl, List.map_map, ← m3]
        congr 1
        refine (List.map_congr_left (fun m hm => ?_)).trans (List.map_id _)
        exact (hdec m (m2 m hm)).1
    · exact ⟨[], fun h1 h2 => absurd ⟨h1, h2⟩ hs⟩
  choose b hb using key
  refine ⟨fun s => if s = me then items else b s, if_pos rfl, ?_, ?_, ?_⟩
  · intro s h1 h2
    beta_reduce
    rw [if_neg h2]
    exact (hb s h1 h2).1
  · intro s h1 h2
    beta_reduce
    rw [if_neg h2]
    exact (hb s h1 h2).2.1
  · intro s h1 h2
    beta_reduce
    rw [if_neg h2]
    exact (hb s h1 h2).2.2

section
variable {F : (ι → List Byte) → List Obs → Fault → Prop}

/-- Bytes of given numbers were read from the siblings. -/
def HeardLen (sib : Nat → ι) (S me : Nat) (L L' : ι → List Byte) (len : Nat → Nat) : Prop :=
  ∃ f, (∀ s, s < S → s ≠ me → (f s).length = len s) ∧ Heard sib S me L L' f

omit [DecidableEq ι] in
theorem Heard.len {sib : Nat → ι} {S me : Nat} {L L' : ι → List Byte} {f : Nat → List Byte} (h : Heard sib S me L L' f) :
    HeardLen sib S me L L' (fun s => (f s).length) := ⟨f, fun _ _ _ => rfl, h⟩

theorem heardLen_of_is {idx : ι → Option Nat} {sib : Nat → ι} {S : Nat} (hg : Group idx sib S) {me unit : Nat} {c : Nat → Nat}
    {L L' is : ι → List Byte} (h1 : ∀ j, (is j).length = lensOf idx me unit c j) (h2 : ∀ j, L' j = L j ++ is j) :
    HeardLen sib S me L L' (fun s => c s * unit) :=
  ⟨fun s => is (sib s), fun s hs hne => by rw [h1, lensOf_sib hg _ _ _ hs hne], fun s _ _ => h2 _⟩

theorem heeds_queryRound {idx : ι → Option Nat} {sib : Nat → ι} {S : Nat} (hg : Group idx sib S) (hS : S < 255)
    (p : ParallelParty box) (me : Nat) (hme : me < S) (dests : Nat → List Nat) (hplan : Routing S dests)
    (items : List Query) (hlen : items.length = (dests me).length)
    (noise : Nat) (hid : p.serverId = me) (hcount : p.serverCount = S) (hps : Planned S dests me noise p.pshuffler)
    (B : List Nat) (hF : IsShuffler p.shuffler.forward B (sliceOf S dests me)) (hslice : p.shuffledCount = sliceOf S dests me)
    (L : ι → List Byte) (h : List Obs) :
    PProc.Heeds F (sendAndPoll (ParallelParty.exchange { p with outQueries := Batch.initialize p.shuffledCount ⟨0, 0⟩ } sib querySize
        (tab S (fun s => if s = me then 0 else (dests s).count me)))
        (ParallelParty.queryHandlers (ParallelParty.exchange { p with outQueries := Batch.initialize p.shuffledCount ⟨0, 0⟩ } sib querySize
        (tab S (fun s => if s = me then 0 else (dests s).count me)))) items (p.shuffledCount - (dests me).count me)
        { p with outQueries := Batch.initialize p.shuffledCount ⟨0, 0⟩ })
      (fun p' L' h' => h' = h ∧ HeardLen sib S me L L' (fun s => (dests s).count me * querySize) ∧ ∃ g' l, p' = ({ p with
        pshuffler := { p.pshuffler with forwardIdx := (dests me).length }
        outQueries := g' } : ParallelParty box) ∧ QRep g' l) L h := by
  refine (PProc.Heeds.ofDoes _ (lensOf idx me querySize (fun s => (dests s).count me)) (fun _ p' => ∃ g' l, p' = ({ p with
        pshuffler := { p.pshuffler with forwardIdx := (dests me).length }
        outQueries := g' } : ParallelParty box) ∧ QRep g' l) ?_ L h).mono ?_
  · intro is his
    obtain ⟨batch, rfl, b2, -, b4⟩ := scatter_units hg me querySize dests Query.encode Query.decode (fun _ => True) ⟨0, 0⟩ trivial
      (fun m hm => ⟨Query.encode_decode m hm, trivial⟩) items is his
    have hd := queryRound_does hg hS p me hme dests hplan batch (fun s hs => by
      by_cases e : s = me
      · rw [e, hlen]
      · exact b2 s hs e) noise hid hcount hps B hF hslice
    have e : roundIns idx (queryRound S dests batch) me = is := roundIns_eq hg (routed_outsOk _ _ S dests batch hplan) his (fun s h1 h2 => by
      exact (routedBytes_to _ _ _ _ _ _ _ hme (Ne.symm h2)).trans (b4 s h1 h2))
    unfold rseg at hd
    rw [e] at hd
    refine ⟨_, _, hd.mono ?_⟩
    rintro p' ⟨g', h1, h2⟩
    exact ⟨g', _, h1, h2⟩
  · rintro p' L' h' ⟨rfl, is, h1, h2, h3⟩
    exact ⟨rfl, heardLen_of_is hg h1 h2, h3⟩

theorem heeds_cipherRound {idx : ι → Option Nat} {sib : Nat → ι} {S : Nat} (hg : Group idx sib S) (hS : S < 255)
    (p : ParallelParty box) (me : Nat) (hme : me < S) (dests : Nat → List Nat) (hplan : Routing S dests)
    (items : List (List Byte)) (hlen : items.length = (dests me).length)
    (noise : Nat) (hid : p.serverId = me) (hcount : p.serverCount = S) (hps : Planned S dests me noise p.pshuffler)
    (B : List Nat) (hF : IsShuffler p.shuffler.forward B (sliceOf S dests me)) (hslice : p.shuffledCount = sliceOf S dests me)
    (unit : Nat) (hu : 0 < unit) (hub : unit ≤ Sockets.bufferSize) (hosh : p.outCiphers.shortSize = unit)
    (hgood : ∀ x ∈ items, x.length = unit) (L : ι → List Byte) (h : List Obs) :
    PProc.Heeds F (sendAndPoll (ParallelParty.exchange { p with outCiphers := p.outCiphers.initialize p.shuffledCount 0 } sib unit
        (tab S (fun s => if s = me then 0 else (dests s).count me)))
        (ParallelParty.cipherHandlers (ParallelParty.exchange { p with outCiphers := p.outCiphers.initialize p.shuffledCount 0 } sib unit
        (tab S (fun s => if s = me then 0 else (dests s).count me)))) items (p.shuffledCount - (dests me).count me)
        { p with outCiphers := p.outCiphers.initialize p.shuffledCount 0 })
      (fun p' L' h' => h' = h ∧ HeardLen sib S me L L' (fun s => (dests s).count me * unit) ∧ ∃ g' l, p' = ({ p with
        pshuffler := { p.pshuffler with forwardIdx := (dests me).length }
        outCiphers := g' } : ParallelParty box) ∧ CRep unit g' l) L h := by
  refine (PProc.Heeds.ofDoes _ (lensOf idx me unit (fun s => (dests s).count me)) (fun _ p' => ∃ g' l, p' = ({ p with
        pshuffler := { p.pshuffler with forwardIdx := (dests me).length }
        outCiphers := g' } : ParallelParty box) ∧ CRep unit g' l) ?_ L h).mono ?_
  · intro is his
    obtain ⟨batch, rfl, b2, b3, b4⟩ := scatter_units hg me unit dests id id (fun c => c.length = unit) (List.replicate unit 0) (by simp)
      (fun m hm => ⟨rfl, hm⟩) items is his
    have hd := cipherRound_does hg hS p me hme dests hplan batch (fun s hs => by
      by_cases e : s = me
      · rw [e, hlen]
      · exact b2 s hs e) noise hid hcount hps B hF hslice unit hu hub hosh (fun s hs => by
      by_cases e : s = me
      · rw [e]; exact hgood
      · exact b3 s hs e)
    have e : roundIns idx (cipherRound unit S dests batch) me = is := roundIns_eq hg (routed_outsOk _ _ S dests batch hplan) his (fun s h1 h2 => by
      exact (routedBytes_to _ _ _ _ _ _ _ hme (Ne.symm h2)).trans (b4 s h1 h2))
    unfold rseg at hd
    rw [e] at hd
    refine ⟨_, _, hd.mono ?_⟩
    rintro p' ⟨g', h1, h2⟩
    exact ⟨g', _, h1, h2⟩
  · rintro p' L' h' ⟨rfl, is, h1, h2, h3⟩
    exact ⟨rfl, heardLen_of_is hg h1 h2, h3⟩

theorem heeds_backRound {idx : ι → Option Nat} {sib : Nat → ι} {S : Nat} (hg : Group idx sib S) (hS : S < 255) (h2 : 2 ≤ S)
    (p : ParallelParty box) (me : Nat) (hme : me < S) (dests : Nat → List Nat) (hplan : Routing S dests)
    (noise : Nat → Nat) (hn : ∀ s, s < S → noise s ≤ (dests s).length)
    (items : List Response) (hlen : items.length = preSum (fun s => (realDest dests noise s).count me) S)
    (hid : p.serverId = me) (hcount : p.serverCount = S) (hps : PlannedBack S dests me (noise me) p.pshuffler)
    (hnoise : p.noiseCount = noise me) (hin : p.inputCount = (realDest dests noise me).length)
    (hnp : p.noisePrefix = tab S (fun s => preSum (noiseTo dests noise me) (s + 1)))
    (hun : ∀ i, i < p.inputCount → ∃ tag pre, p.tags.get i = .ok tag ∧ p.queriesState.getPreshare tag = .ok pre)
    (L : ι → List Byte) (h : List Obs) :
    PProc.Heeds F (sendAndPoll (ParallelParty.exchange { p with responses := Batch.initialize p.inputCount ⟨0, fun _ => 0⟩ } sib responseSize
        (tab S (fun s => if s = me then 0 else (realDest dests noise me).count s)))
        (ParallelParty.responseHandlers (ParallelParty.exchange { p with responses := Batch.initialize p.inputCount ⟨0, fun _ => 0⟩ } sib responseSize
        (tab S (fun s => if s = me then 0 else (realDest dests noise me).count s)))) items
        (p.inputCount - (realDest dests noise me).count me)
        { p := { p with responses := Batch.initialize p.inputCount ⟨0, fun _ => 0⟩ }
          stop := preSum (fun s => (realDest dests noise s).count me) 1 })
      (fun st L' h' => ∃ (un : Nat → Response) (ps : ParallelShuffler), st.p = ({ p with
        responses := { ptr := (List.range p.inputCount).map un, capacity := p.inputCount, right := 0 }
        pshuffler := ps } : ParallelParty box)) L h := by
  refine (PProc.Heeds.ofDoes _ (lensOf idx me responseSize (fun s => (realDest dests noise me).count s)) (fun _ st => ∃ (un : Nat → Response) (ps : ParallelShuffler), st.p = ({ p with
        responses := { ptr := (List.range p.inputCount).map un, capacity := p.inputCount, right := 0 }
        pshuffler := ps } : ParallelParty box)) ?_ L h).mono ?_
  · intro is his
    obtain ⟨rows, r1, r2⟩ := split_rows (fun s => (realDest dests noise s).count me) S items hlen
    -- the answers of the siblings to the queries of this server
    have hms : ∀ s, ∃ ms : List (List Byte), s < S → s ≠ me → ms.length = (realDest dests noise me).count s ∧
        (∀ m ∈ ms, m.length = responseSize) ∧ ms.flatten = is (sib s) := by
      intro s
      by_cases hs : s < S ∧ s ≠ me
      · obtain ⟨ms, hms⟩ := units_of responseSize _ (is (sib s)) (by rw [his, lensOf_sib hg _ _ _ hs.1 hs.2])
        exact ⟨ms, fun _ _ => hms⟩
      · exact ⟨[], fun h1 h2 => absurd ⟨h1, h2⟩ hs⟩
    choose ms hms using hms
    obtain ⟨mine, m1, m2, -⟩ := scatter (realDest dests noise me) (fun t => if t = me then rows me else
        if t < S then (ms t).map Response.decode else []) (by
      intro t
      split
      · rename_i e; rw [r1 me hme, e]
      · rename_i e
        split
        · rename_i ht; rw [List.length_map, (hms t ht e).1]
        · rename_i ht
          symm
          rw [List.length_nil, List.count_eq_zero]
          intro hm
          exact ht (hplan.lt me hme t (List.drop_subset _ _ hm)))
    have hoth : ∀ s, ∃ l : List Response, s < S → l.length = (realDest dests noise s).length ∧ selTo (realDest dests noise s) l me = rows s := by
      intro s
      by_cases hs : s < S
      · obtain ⟨l, l1, l2, -⟩ := scatter (realDest dests noise s) (fun t => if t = me then rows s else
          List.replicate ((realDest dests noise s).count t) ⟨0, fun _ => 0⟩) (by
            intro t
            split
            · rename_i e; rw [r1 s hs, e]
            · simp)
        exact ⟨l, fun _ => ⟨l1, by rw [l2, if_pos rfl]⟩⟩
      · exact ⟨[], fun h => absurd h hs⟩
    choose oth hoth using hoth
    let ans : Nat → List Response := fun s => if s = me then mine else oth s
    have ame : ans me = mine := if_pos rfl
    have ane : ∀ s, s ≠ me → ans s = oth s := fun s hs => if_neg hs
    have hal : ∀ s, s < S → (ans s).length = (realDest dests noise s).length := by
      intro s hs
      by_cases e : s = me
      · rw [e, ame, m1]
      · rw [ane s e, (hoth s hs).1]
    have hrows : ∀ s, s < S → rowsOf dests noise ans me s = rows s := by
      intro s hs
      unfold rowsOf
      by_cases e : s = me
      · rw [e, ame, m2, if_pos rfl]
      · rw [ane s e, (hoth s hs).2]
    have hans : answersOf S dests noise ans me = items := by
      rw [← r2]
      exact List.flatMap_congr (fun s hs => hrows s (List.mem_range.1 hs))
    let un : Nat → Response := fun i => match p.tags.get i with
      | .ok tag => (match p.queriesState.getPreshare tag with
        | .ok pre => Response.ofMem (bx (Response.mem (mine.getD i ⟨0, fun _ => 0⟩)) pre)
        | .error _ => ⟨0, fun _ => 0⟩)
      | .error _ => ⟨0, fun _ => 0⟩
    have hd := backRound_does hg hS h2 p me hme dests hplan noise hn ans hal un hid hcount hps hnoise hin hnp (by
      intro i r hi
      have hil : i < p.inputCount := by
        have := (List.getElem?_eq_some_iff.1 hi).1
        rw [hal me hme] at this
        omega
      obtain ⟨tag, pre, t1, t2⟩ := hun i hil
      refine ⟨tag, pre, t1, t2, fun t => ?_⟩
      rw [additiveReconstructInto_ok]
      rw [ame] at hi
      simp only [un, t1, t2, List.getD_eq_getElem?_getD, hi, Option.getD_some])
    rw [hans, show (fun s => (rowsOf dests noise ans me s).length) = fun s => (selTo (realDest dests noise s) (ans s) me).length from rfl,
      preSum_congr (g := fun s => (realDest dests noise s).count me) (fun s hs => selTo_length _ _ _ (hal s (by omega)).symm)] at hd
    have e : roundIns idx (backRound S dests noise ans) me = is := roundIns_eq hg (backRound_ok S dests noise ans) his (fun s h1 h2 => by
      unfold backRound
      rw [routedBytes_to _ _ _ _ _ _ _ hme (Ne.symm h2)]
      unfold answersOf
      rw [selTo_srcList, if_pos hme]
      unfold rowsOf
      rw [ame, m2, if_neg h2, if_pos h1, List.map_map, ← (hms s h1 h2).2.2]
      congr 1
      refine (List.map_congr_left (fun m hm => ?_)).trans (List.map_id _)
      exact Response.encode_decode m ((hms s h1 h2).2.1 m hm))
    unfold rseg at hd
    rw [e] at hd
    refine ⟨_, _, hd.mono ?_⟩
    rintro st ⟨ps, h1⟩
    exact ⟨un, ps, h1⟩
  · rintro st L' h' ⟨rfl, is, h1, h2, h3⟩
    exact h3

end

end DPPIR.Protocol
