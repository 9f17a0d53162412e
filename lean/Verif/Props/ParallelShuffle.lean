import Verif.Proofs.ParallelShuffle
import Mathlib.Data.List.Perm.Subperm

/-!
# C12-C15: the shuffle across the sibling servers of one party
-/

namespace DPPIR.Props
open DPPIR.Shuffle DPPIR.Spec

/-- **C12.** Initialisation succeeds at every sibling, for every seed, `rand()`
stream, count vector and noise split. -/
theorem C12_plan_exists (rand : RandGen) (seed : Int) (counts : List Nat) (h32 : counts.sum < 2 ^ 32)
    (me noise : Nat) (hme : me < counts.length) : ∃ s, IsPlan rand seed counts me noise s := by
  obtain ⟨map, -, -, h⟩ := pinit_spec rand seed counts (by omega) h32
  obtain ⟨s, h1, -⟩ := h me noise hme (ParallelShuffler.new me counts.length seed) rfl rfl rfl
  exact ⟨s, h1⟩

/-- **C12.** For any two siblings `A`, `B` (possibly the same): what `A` announces
to send to `B`, what `B` expects from `A`, and the number of times `A`'s
`ShuffleOne` really returns `B` over `A`'s whole batch are the same number; and
of these the ones among `A`'s first `noise` messages are what
`CountNoiseToServer` says. -/
theorem C12_siblings_agree (rand : RandGen) (seed : Int) (counts : List Nat) (h32 : counts.sum < 2 ^ 32)
    (A B noiseA noiseB : Nat) (hA : A < counts.length) (hB : B < counts.length)
    (sA sB : ParallelShuffler) (iA : IsPlan rand seed counts A noiseA sA)
    (iB : IsPlan rand seed counts B noiseB sB) :
    ∃ (out : List Nat) (sA' : ParallelShuffler), shuffleCalls counts[A] sA = .ok (out, sA') ∧
      out.length = counts[A] ∧ (∀ t ∈ out, t < counts.length) ∧
      sA.countTo B = .ok (out.count B) ∧ sB.countFrom A = .ok (out.count B) ∧
      sA.countNoiseTo B = .ok ((out.take noiseA).count B) := by
  obtain ⟨map, hml, hperm, h⟩ := pinit_spec rand seed counts (by omega) h32
  obtain ⟨s, a1, -, -, -, -, a2, a3, -, a4, -, -, -, a5, a6, -⟩ :=
    h A noiseA hA (ParallelShuffler.new A counts.length seed) rfl rfl rfl
  obtain ⟨t, b1, -, -, -, -, -, -, -, -, -, b2, -, -, -, -⟩ :=
    h B noiseB hB (ParallelShuffler.new B counts.length seed) rfl rfl rfl
  have := Except.ok.inj (iA.symm.trans a1)
  subst this
  have := Except.ok.inj (iB.symm.trans b1)
  subst this
  have hcA : counts[A] < 2 ^ 32 := by
    have := take_succ_sum counts A hA
    have := take_sum_le counts (A + 1)
    omega
  have hrun := shuffleCalls_ok counts[A] sA (by omega) (by omega)
  rw [a4, List.drop_zero, List.take_of_length_le (by omega)] at hrun
  have hcnt : sA.forward.count B = (pairs counts map).count (A, B) := by
    rw [a2]; exact dests_count _ _ _
  refine ⟨_, _, hrun, a3, ?_, ?_, ?_, ?_⟩
  · intro t ht
    rw [a2] at ht
    unfold destsOf at ht
    obtain ⟨p, hp, rfl⟩ := List.mem_map.1 ht
    have hp2 := (List.of_mem_zip (List.mem_of_mem_filter hp)).2
    have := srcsFrom_mem _ _ _ (hperm.mem_iff.1 hp2)
    rw [slices_length _ _ (by omega)] at this
    omega
  · unfold ParallelShuffler.countTo
    rw [a5, rd_tab _ _ _ hB, hcnt]
  · unfold ParallelShuffler.countFrom
    rw [b2, rd_tab _ _ _ hA, hcnt]
  · unfold ParallelShuffler.countNoiseTo
    rw [a6, rd_tab _ _ _ hB]

/-- **C13.** Let `out` be what `ShuffleOne` returned for the whole batch.  For every
sequence `ts` of `DeshuffleOne` targets that asks each target at most as often as
messages were sent to it, all calls are in bounds, and the `j`-th call returns the
index of the `k`-th message sent to `ts[j]`, `k` being the number of earlier calls
for the same target. -/
theorem C13_deshuffle_inverts (rand : RandGen) (seed : Int) (counts : List Nat) (h32 : counts.sum < 2 ^ 32)
    (me noise : Nat) (hme : me < counts.length) (s s1 : ParallelShuffler) (out : List Nat)
    (hs : IsPlan rand seed counts me noise s) (hout : shuffleCalls counts[me] s = .ok (out, s1))
    (ts : List Nat) (hts : ∀ t, ts.count t ≤ out.count t) :
    ∃ rs s2, deshuffleCalls ts s1 = .ok (rs, s2) ∧ rs.length = ts.length ∧
      ∀ j t r, ts[j]? = some t → rs[j]? = some r → IsKthOcc out t ((ts.take j).count t) r := by
  obtain ⟨out', s1', e1, e2, e3, -⟩ :=
    C12_siblings_agree rand seed counts h32 me me noise noise hme hme s s hs hs
  rw [hout] at e1
  obtain ⟨rfl, rfl⟩ := Prod.mk.inj (Except.ok.inj e1)
  obtain ⟨map, hml, hperm, h⟩ := pinit_spec rand seed counts (by omega) h32
  obtain ⟨s', a1, -, -, -, -, a2, a3, a7, a4, a8, -, -, a5, a6, -⟩ :=
    h me noise hme (ParallelShuffler.new me counts.length seed) rfl rfl rfl
  have := Except.ok.inj (hs.symm.trans a1)
  subst this
  have hcA : counts[me] < 2 ^ 32 := by
    have := take_succ_sum counts me hme
    have := take_sum_le counts (me + 1)
    omega
  have hrun := shuffleCalls_ok counts[me] s (by omega) (by omega)
  rw [a4, List.drop_zero, List.take_of_length_le (by omega), hout] at hrun
  obtain ⟨rfl, rfl⟩ := Prod.mk.inj (Except.ok.inj hrun)
  have hlen : ∀ t, (posOf s.forward t counts[me]).length = s.forward.count t := by
    intro t
    rw [posOf_length _ _ _ (by omega), List.take_of_length_le (by omega)]
  obtain ⟨rs, s2, r1, r2, -, -, r3⟩ := deshuffleCalls_inv counts.length
    (fun t => posOf s.forward t counts[me]) ts []
    { s with forwardIdx := 0 + counts[me] } a7 (by simpa using a8)
    (by intro t; rw [hlen]; have : s.forward.count t ≤ s.forward.length := List.count_le_length
        omega)
    (by
      intro t ht
      apply e3
      apply List.count_pos_iff.1
      have := hts t
      have := List.count_pos_iff.2 ht
      omega)
    (by intro t; rw [hlen]; simpa using hts t)
  refine ⟨rs, s2, r1, r2, ?_⟩
  intro j t r h1 h2
  have := r3 j t r h1 h2
  exact posOf_get _ _ counts[me] _ _ (by omega) (by simpa using this)

/-- **C13.** Hence, sending the whole batch out and asking for the replies in any
order that takes every message's reply exactly once recovers each index exactly
once. -/
theorem C13_deshuffle_is_a_permutation (rand : RandGen) (seed : Int) (counts : List Nat)
    (h32 : counts.sum < 2 ^ 32) (me noise : Nat) (hme : me < counts.length)
    (s s1 s2 : ParallelShuffler) (out ts rs : List Nat)
    (hs : IsPlan rand seed counts me noise s) (hout : shuffleCalls counts[me] s = .ok (out, s1))
    (hts : ts.Perm out) (hrs : deshuffleCalls ts s1 = .ok (rs, s2)) :
    rs.Perm (List.range counts[me]) := by
  obtain ⟨rs', s2', r1, r2, r3⟩ := C13_deshuffle_inverts rand seed counts h32 me noise hme s s1 out hs hout ts
    (fun t => le_of_eq (hts.count_eq t))
  rw [hrs] at r1
  obtain ⟨rfl, rfl⟩ := Prod.mk.inj (Except.ok.inj r1)
  obtain ⟨out', s1', e1, e2, -⟩ :=
    C12_siblings_agree rand seed counts h32 me me noise noise hme hme s s hs hs
  rw [hout] at e1
  obtain ⟨rfl, rfl⟩ := Prod.mk.inj (Except.ok.inj e1)
  have hrl : rs.length = counts[me] := by rw [r2, hts.length_eq, e2]
  have hnd : rs.Nodup := by
    rw [List.nodup_iff_injective_getElem]
    rintro ⟨j, hj⟩ ⟨j', hj'⟩ h
    simp only at h
    have o1 := r3 j _ _ (List.getElem?_eq_getElem (by omega)) (List.getElem?_eq_getElem hj)
    have o2 := r3 j' _ _ (List.getElem?_eq_getElem (by omega)) (List.getElem?_eq_getElem hj')
    rw [h] at o1
    have ht : ts[j] = ts[j'] := Option.some.inj (o1.1.symm.trans o2.1)
    have hc : (ts.take j).count ts[j] = (ts.take j').count ts[j] := by
      rw [← o1.2, ht, o2.2]
    ext
    simp only
    exact kthOcc_unique ts ts[j] _ j j' ⟨List.getElem?_eq_getElem (by omega), rfl⟩
      ⟨by rw [ht]; exact List.getElem?_eq_getElem (by omega), hc.symm⟩
  apply (List.perm_ext_iff_of_nodup hnd List.nodup_range).2
  have hsub : rs ⊆ List.range counts[me] := by
    intro r hr
    obtain ⟨j, hj, rfl⟩ := List.getElem_of_mem hr
    have o1 := r3 j _ _ (List.getElem?_eq_getElem (by omega)) (List.getElem?_eq_getElem hj)
    have := (List.getElem?_eq_some_iff.1 o1.1).1
    simp; omega
  intro a
  refine ⟨fun h => hsub h, fun h => ?_⟩
  exact ((List.subperm_of_subset hnd hsub).perm_of_length_le (by simp [hrl])).mem_iff.2 h

/-- **C14.** Every position of a server's output slice is attributed to the server
whose block of received messages contains it. -/
theorem C14_find_source (rand : RandGen) (seed : Int) (counts : List Nat) (h32 : counts.sum < 2 ^ 32)
    (me noise : Nat) (hme : me < counts.length) (s : ParallelShuffler)
    (hs : IsPlan rand seed counts me noise s) (idx : Nat) (hidx : idx < s.getServerSliceSize) :
    ∃ src before count, s.findSourceOf idx = .ok src ∧ src < counts.length ∧
      s.prefixCountFrom src = .ok before ∧ s.countFrom src = .ok count ∧
      before ≤ idx ∧ idx < before + count := by
  obtain ⟨map, hml, hperm, h⟩ := pinit_spec rand seed counts (by omega) h32
  obtain ⟨s', a1, -, -, an, -, -, -, -, -, -, af, ap, -, -, asum⟩ :=
    h me noise hme (ParallelShuffler.new me counts.length seed) rfl rfl rfl
  have := Except.ok.inj (hs.symm.trans a1)
  subst this
  unfold ParallelShuffler.getServerSliceSize at hidx
  rw [← asum] at hidx
  obtain ⟨src, h1, h2, h3, h4⟩ := findSource_ok counts.length
    (fun a => (pairs counts map).count (a, me)) idx 1 (le_refl _) (by omega) hidx (by simp)
  refine ⟨src, _, _, ?_, h2, ?_, ?_, h3, h4⟩
  · unfold ParallelShuffler.findSourceOf
    rw [ap, an]; exact h1
  · unfold ParallelShuffler.prefixCountFrom
    rw [ap, rd_tab _ _ _ h2]
  · unfold ParallelShuffler.countFrom
    rw [af, rd_tab _ _ _ h2]

/-- **C14.** The blocks are laid end to end: the prefix of the first server is 0 and
each next prefix adds the previous server's count. -/
theorem C14_blocks_contiguous (rand : RandGen) (seed : Int) (counts : List Nat) (h32 : counts.sum < 2 ^ 32)
    (me noise : Nat) (hme : me < counts.length) (s : ParallelShuffler)
    (hs : IsPlan rand seed counts me noise s) :
    s.prefixCountFrom 0 = .ok 0 ∧
    ∀ k, k + 1 < counts.length → ∃ before count, s.prefixCountFrom k = .ok before ∧
      s.countFrom k = .ok count ∧ s.prefixCountFrom (k + 1) = .ok (before + count) := by
  obtain ⟨map, hml, hperm, h⟩ := pinit_spec rand seed counts (by omega) h32
  obtain ⟨s', a1, -, -, an, -, -, -, -, -, -, af, ap, -, -, asum⟩ :=
    h me noise hme (ParallelShuffler.new me counts.length seed) rfl rfl rfl
  have := Except.ok.inj (hs.symm.trans a1)
  subst this
  unfold ParallelShuffler.prefixCountFrom ParallelShuffler.countFrom
  rw [ap, af]
  refine ⟨by rw [rd_tab _ _ _ (by omega)]; simp, ?_⟩
  intro k hk
  refine ⟨_, _, rd_tab _ _ _ (by omega), rd_tab _ _ _ (by omega), ?_⟩
  rw [rd_tab _ _ _ hk, take_succ_sum _ _ (by simp; omega)]
  simp [tab]

/-- **C15.** Every server but the last gets `⌊total/servers⌋` messages and the last
one the rest; this is also the number of messages it receives from all servers. -/
theorem C15_balanced (rand : RandGen) (seed : Int) (counts : List Nat) (h32 : counts.sum < 2 ^ 32)
    (me noise : Nat) (hme : me < counts.length) (s : ParallelShuffler)
    (hs : IsPlan rand seed counts me noise s) :
    s.getServerSliceSize =
      (if me + 1 = counts.length then counts.sum - (counts.length - 1) * (counts.sum / counts.length)
       else counts.sum / counts.length) ∧
    ∃ fromCounts : List Nat, fromCounts.length = counts.length ∧
      (∀ a (h : a < fromCounts.length), s.countFrom a = .ok fromCounts[a]) ∧
      fromCounts.sum = s.getServerSliceSize := by
  obtain ⟨map, hml, hperm, h⟩ := pinit_spec rand seed counts (by omega) h32
  obtain ⟨s', a1, -, -, an, asl, -, -, -, -, -, af, ap, -, -, asum⟩ :=
    h me noise hme (ParallelShuffler.new me counts.length seed) rfl rfl rfl
  have := Except.ok.inj (hs.symm.trans a1)
  subst this
  constructor
  · have := slices_get counts.length counts.sum me hme
    rw [List.getElem?_eq_getElem (by rw [slices_length _ _ (by omega)]; exact hme)] at this
    unfold ParallelShuffler.getServerSliceSize
    rw [asl, Option.some.inj this]
    by_cases hl : me = counts.length - 1
    · rw [if_pos hl, if_pos (by omega)]
    · rw [if_neg hl, if_neg (by omega)]
  · refine ⟨s.fromCount, by rw [af]; simp, fun a h => rd_ok h, ?_⟩
    rw [af]; exact asum

/-- **C15.** Nothing is lost: the slices of all servers add up to the total. -/
theorem C15_conserved (rand : RandGen) (seed : Int) (counts noises : List Nat) (h32 : counts.sum < 2 ^ 32)
    (ss : List ParallelShuffler) (hlen : ss.length = counts.length) (hn : 0 < counts.length)
    (hs : ∀ me (h : me < ss.length), IsPlan rand seed counts me (noises.getD me 0) ss[me]) :
    (ss.map ParallelShuffler.getServerSliceSize).sum = counts.sum := by
  have : ss.map ParallelShuffler.getServerSliceSize = slices counts.length counts.sum := by
    apply List.ext_getElem
    · rw [slices_length _ _ hn]; simpa using hlen
    · intro me h1 h2
      have hme : me < ss.length := by simpa using h1
      obtain ⟨map, hml, hperm, h⟩ := pinit_spec rand seed counts (by omega) h32
      obtain ⟨s', a1, -, -, an, asl, -⟩ :=
        h me (noises.getD me 0) (by omega) (ParallelShuffler.new me counts.length seed) rfl rfl rfl
      have := Except.ok.inj ((hs me hme).symm.trans a1)
      simp only [List.getElem_map, ParallelShuffler.getServerSliceSize]
      rw [this, asl]
  rw [this, slices_sum]

/-- Non-vacuity of C12-C15: three servers, one of which has nothing to send. -/
example : ([4, 0, 3] : List Nat).sum < 2 ^ 32 ∧
    (do
      let s ← (ParallelShuffler.new 0 3 5).initialize (fun _ k => 1000000007 * (k + 1) % 2147483648) [4, 0, 3] 2
      let (out, s1) ← shuffleCalls 4 s
      let (back, _) ← deshuffleCalls [2, 1, 2, 2] s1
      let src ← s.findSourceOf 1
      .ok (out, back, s.getServerSliceSize, src) : Res (List Nat × List Nat × Nat × Nat)) =
    .ok ([1, 2, 2, 2], [1, 0, 2, 3], 2, 2) := by
  decide +kernel

end DPPIR.Props
