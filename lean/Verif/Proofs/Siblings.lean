import Verif.Proofs.ParallelShuffleRun
import Verif.Spec.Siblings

/-!
# The network of the servers of one party
-/

namespace DPPIR.Protocol
open DPPIR Proc PNet Onion Shuffle Spec

variable {box : SealedBox}

/-- Servers named by their number. -/
def natIdx (S i : Nat) : Option Nat := if i < S then some i else none

theorem natGroup (S : Nat) : Group (natIdx S) (fun s => s) S where
  iff i s := by
    unfold natIdx
    split
    · simp only [Option.some.injEq]
      constructor
      · rintro rfl; exact ⟨by assumption, rfl⟩
      · rintro ⟨-, h⟩; exact h
    · simp only [false_iff, not_and, reduceCtorEq]
      rintro h rfl
      omega
  inj := fun _ _ h => h

/-- The plan of a deal. -/
def _root_.DPPIR.Spec.Deal.dests (d : Deal) : Nat → List Nat := planOf d.gen d.seed d.counts

/-- The local shuffler of server `t`. -/
def _root_.DPPIR.Spec.Deal.local (d : Deal) (t : Nat) : LocalShuffler := shufOf d.gen (d.localSeed t) (sliceOf d.servers d.dests t)

/-- The deal is one of at least one server and fits 32-bit counters. -/
structure DealOk (d : Deal) : Prop where
  pos : 0 < d.servers
  small : d.counts.sum < 2 ^ 32

section
variable {d : Deal} (h : DealOk d)
include h

theorem DealOk.routing : Routing d.servers d.dests := (plan_ok d.gen d.seed d.counts h.pos h.small).1

theorem DealOk.length {s : Nat} (hs : s < d.servers) : (d.dests s).length = d.counts.getD s 0 :=
  (plan_ok d.gen d.seed d.counts h.pos h.small).2.1 s hs

theorem DealOk.plan {t : Nat} (ht : t < d.servers) (noise : Nat) :
    ∃ ps, IsPlan d.gen d.seed d.counts t noise ps ∧ Planned d.servers d.dests t noise ps := by
  obtain ⟨ps, h1, -, h2⟩ := (plan_ok d.gen d.seed d.counts h.pos h.small).2.2.2 t noise ht
    (ParallelShuffler.new t d.counts.length d.seed) rfl rfl rfl
  exact ⟨ps, h1, h2⟩

theorem DealOk.planned {t : Nat} (ht : t < d.servers) {noise : Nat} {ps : ParallelShuffler}
    (hps : IsPlan d.gen d.seed d.counts t noise ps) : Planned d.servers d.dests t noise ps := by
  obtain ⟨ps', h1, h2⟩ := h.plan ht noise
  obtain rfl := Except.ok.inj (hps.symm.trans h1)
  exact h2

theorem DealOk.goes_iff {s a t k : Nat} (hs : s < d.servers) : d.Goes s a t k ↔ IsKthOcc (d.dests s) t k a := by
  have hcalls : ∀ ps, IsPlan d.gen d.seed d.counts s (d.noise s) ps →
      ∃ ps', shuffleCalls (d.counts.getD s 0) ps = .ok (d.dests s, ps') := by
    intro ps hps
    have hp := h.planned hs hps
    have hlen := h.length hs
    have := shuffleCalls_ok (d.counts.getD s 0) ps (by rw [hp.forwardIdx, hp.forward, hlen]; omega)
      (by have := h.routing.length_le hs; rw [hp.forward]; exact this)
    rw [hp.forwardIdx, hp.forward, List.drop_zero, List.take_of_length_le (by omega)] at this
    exact ⟨_, this⟩
  constructor
  · rintro ⟨ps, ts, ps', h1, h2, h3⟩
    obtain ⟨ps'', e⟩ := hcalls ps h1
    rw [h2] at e
    obtain ⟨rfl, -⟩ := Prod.mk.inj (Except.ok.inj e)
    exact h3
  · intro hk
    obtain ⟨ps, h1, -⟩ := h.plan hs (d.noise s)
    obtain ⟨ps', h2⟩ := hcalls ps h1
    exact ⟨ps, _, ps', h1, h2, hk⟩

theorem DealOk.shuffler {t : Nat} (ht : t < d.servers) :
    (LocalShuffler.new (d.localSeed t)).initialize d.gen (sliceOf d.servers d.dests t) = .ok (d.local t) ∧
    IsShuffler (d.local t).forward (d.local t).backward (sliceOf d.servers d.dests t) := by
  obtain ⟨h1, -, h3⟩ := shufOf_ok d.gen (LocalShuffler.new (d.localSeed t)) (d.localSeed t) rfl _ (h.routing.slice_le ht)
  exact ⟨h1, h3⟩

theorem DealOk.slot_iff {t s k y : Nat} (ht : t < d.servers) (hs : s < d.servers) :
    d.Slot t s k y ↔ (d.local t).forward[preSum (fun a => (d.dests a).count t) s + k]? = some y := by
  obtain ⟨g1, g2⟩ := h.shuffler ht
  constructor
  · rintro ⟨ps, x, ls, h1, h2, h3, h4⟩
    have hp := h.planned ht h1
    unfold ParallelShuffler.prefixCountFrom at h2
    rw [hp.prefixFrom, rd_tab _ _ _ hs] at h2
    obtain rfl := Except.ok.inj h2
    unfold ParallelShuffler.getServerSliceSize at h3
    rw [hp.slice, g1] at h3
    obtain rfl := Except.ok.inj h3
    exact rd_eq_ok.1 h4
  · intro hy
    obtain ⟨ps, h1, hp⟩ := h.plan ht (d.noise t)
    refine ⟨ps, _, d.local t, h1, ?_, ?_, rd_eq_ok.2 hy⟩
    · unfold ParallelShuffler.prefixCountFrom
      rw [hp.prefixFrom, rd_tab _ _ _ hs]
    · unfold ParallelShuffler.getServerSliceSize
      rw [hp.slice, g1]

/-- The result of the shuffle is the one specified. -/
theorem DealOk.result {α : Type} (batch : Nat → List α) (hb : ∀ s, s < d.servers → (batch s).length = d.counts.getD s 0)
    {t : Nat} (ht : t < d.servers) : d.Shuffled batch t (shuffled d.servers d.dests batch (d.local t).backward t) := by
  obtain ⟨-, hF⟩ := h.shuffler ht
  have hrow : ∀ s, s < d.servers → (selTo (d.dests s) (batch s) t).length = (d.dests s).count t := fun s hs =>
    selTo_length _ _ _ (by rw [h.length hs, hb s hs])
  have hpre : ∀ s, s ≤ d.servers → preSum (fun s => (selTo (d.dests s) (batch s) t).length) s =
      preSum (fun a => (d.dests a).count t) s := fun s hs => preSum_congr (fun i hi => hrow i (by omega))
  have hcl : ((List.range d.servers).flatMap (fun s => selTo (d.dests s) (batch s) t)).length = sliceOf d.servers d.dests t := by
    rw [concat_length, hpre _ (le_refl _)]; rfl
  have hlt : ∀ i ∈ (d.local t).backward, i < ((List.range d.servers).flatMap (fun s => selTo (d.dests s) (batch s) t)).length := by
    intro i hi
    have := hF.permB.mem_iff.1 hi
    rw [hcl]; simpa using this
  have hget : ∀ y i : Nat, (d.local t).backward[y]? = some i →
      (shuffled d.servers d.dests batch (d.local t).backward t)[y]? =
        ((List.range d.servers).flatMap (fun s => selTo (d.dests s) (batch s) t))[i]? := by
    intro y i hyi
    have hi := hlt i (List.mem_of_getElem? hyi)
    unfold shuffled
    cases hne : ((List.range d.servers).flatMap (fun s => selTo (d.dests s) (batch s) t)) with
    | nil => rw [hne] at hi; simp at hi
    | cons x0 xs =>
      rw [← hne, pick_eq_getD _ _ x0 hlt, List.getElem?_map, hyi, Option.map_some, List.getD_eq_getElem?_getD]
      rw [List.getElem?_eq_getElem hi]
      rfl
  have hol : (shuffled d.servers d.dests batch (d.local t).backward t).length = sliceOf d.servers d.dests t := by
    have : (shuffled d.servers d.dests batch (d.local t).backward t).Perm _ :=
      pick_perm (by rw [hcl]; exact hF.permB)
    rw [this.length_eq, hcl]
  refine ⟨?_, ?_, ?_⟩
  · intro ps hps
    rw [hol]; exact (h.planned ht hps).slice.symm
  · intro s a k m hs hgo hm
    obtain ⟨h1, h2⟩ := (h.goes_iff hs).1 hgo
    have hkl : k < (d.dests s).count t := by
      rw [← h2]
      have := congrArg (List.count t) (List.take_append_drop a (d.dests s))
      rw [List.count_append] at this
      have hd : t ∈ (d.dests s).drop a := by
        have ha := (List.getElem?_eq_some_iff.1 h1).1
        rw [List.drop_eq_getElem_cons ha]
        have := (List.getElem?_eq_some_iff.1 h1).2
        rw [this]; exact List.mem_cons_self
      have := List.count_pos_iff.2 hd
      omega
    have hi : preSum (fun a => (d.dests a).count t) s + k < sliceOf d.servers d.dests t := by
      have := preSum_mono (fun a => (d.dests a).count t) (show s + 1 ≤ d.servers by omega)
      rw [preSum_succ] at this
      unfold sliceOf; omega
    obtain ⟨y, hy⟩ : ∃ y, (d.local t).forward[preSum (fun a => (d.dests a).count t) s + k]? = some y :=
      ⟨_, List.getElem?_eq_getElem (by rw [hF.length]; exact hi)⟩
    refine ⟨y, (h.slot_iff ht hs).2 hy, ?_⟩
    rw [hget y _ ((hF.inv _ _).1 hy), ← hpre s (by omega), concat_get _ _ _ _ hs (by rw [hrow s hs]; exact hkl), ← h2,
      selTo_get _ _ _ _ h1, hm]
  · intro y hy
    rw [hol] at hy
    obtain ⟨i, hi⟩ : ∃ i, (d.local t).backward[y]? = some i := ⟨_, List.getElem?_eq_getElem (by rw [hF.back]; exact hy)⟩
    have hiF := (hF.inv _ _).2 hi
    have hil : i < preSum (fun a => (d.dests a).count t) d.servers := (hF.lt hiF).1
    obtain ⟨s, k, hs, hk, rfl⟩ := preSum_find _ _ _ hil
    have hocc : ∀ (l : List Nat) (k : Nat), k < l.count t → ∃ a, IsKthOcc l t k a := by
      intro l
      induction l with
      | nil => intro k hk; simp at hk
      | cons x l ih =>
        intro k hk
        by_cases e : x = t
        · subst e
          cases k with
          | zero => exact ⟨0, by simp [IsKthOcc]⟩
          | succ k =>
            obtain ⟨a, h1, h2⟩ := ih k (by simpa using hk)
            exact ⟨a + 1, by simpa using h1, by simp [h2]⟩
        · obtain ⟨a, h1, h2⟩ := ih k (by simpa [List.count_cons_of_ne e] using hk)
          exact ⟨a + 1, by simpa using h1, by simp [List.count_cons_of_ne e, h2]⟩
    have hocc1 : ∀ (l : List Nat) (k a b : Nat), IsKthOcc l t k a → IsKthOcc l t k b → a = b := by
      have key : ∀ (l : List Nat) (k a b : Nat), IsKthOcc l t k a → IsKthOcc l t k b → ¬ a < b := by
        intro l k a b ⟨h1, h2⟩ ⟨h3, h4⟩ hab
        have : (l.take (a + 1)).count t ≤ (l.take b).count t := by
          refine List.Sublist.count_le _ ?_
          exact (List.take_prefix_take_left (show a + 1 ≤ b by omega)).sublist
        rw [List.take_add_one, h1, List.count_append] at this
        simp only [Option.toList_some, List.count_cons_self, List.count_nil] at this
        omega
      intro l k a b h1 h2
      have := key l k a b h1 h2
      have := key l k b a h2 h1
      omega
    obtain ⟨a, ha⟩ := hocc _ _ hk
    refine ⟨(s, a), ⟨hs, k, (h.goes_iff hs).2 ha, (h.slot_iff ht hs).2 hiF⟩, ?_⟩
    rintro ⟨s', a'⟩ ⟨hs', k', hg', hsl'⟩
    simp only at hs' hg' hsl'
    have hg' := (h.goes_iff hs').1 hg'
    have hF' := (h.slot_iff ht hs').1 hsl'
    have hk' : k' < (d.dests s').count t := by
      obtain ⟨h1, h2⟩ := hg'
      rw [← h2]
      have := congrArg (List.count t) (List.take_append_drop a' (d.dests s'))
      rw [List.count_append] at this
      have hd : t ∈ (d.dests s').drop a' := by
        have ha := (List.getElem?_eq_some_iff.1 h1).1
        rw [List.drop_eq_getElem_cons ha]
        have := (List.getElem?_eq_some_iff.1 h1).2
        rw [this]; exact List.mem_cons_self
      have := List.count_pos_iff.2 hd
      omega
    obtain ⟨rfl, rfl⟩ := preSum_inj (fun a => (d.dests a).count t) hk' hk (hF.inj hF' hiF)
    rw [hocc1 _ _ _ _ hg' ha]

theorem DealOk.counted {s : Nat} (hs : s < d.servers) {p : ParallelParty box} (hp : d.Ready s p) :
    Counted p d.servers s d.seed (d.localSeed s) d.counts (d.noise s) (sliceOf d.servers d.dests s) where
  id := hp.id
  count := hp.count
  seed := hp.seed
  pid := hp.planId
  pcount := hp.planCount
  lseed := hp.localSeed
  counts := hp.counts
  noise := hp.noise
  slice := by
    obtain ⟨ps, h1, h2⟩ := h.plan hs (d.noise s)
    rw [hp.slice ps h1]; exact h2.slice

/-- The global order of a shuffle. -/
def shuffleOrder (d : Deal) (round : Nat → List (Nat × Byte)) : List (GSeg Nat) :=
  [groupRound (natIdx d.servers) (fun s => s) (noiseRound d.servers d.dests d.noise),
   groupRound (natIdx d.servers) (fun s => s) round,
   groupRound (natIdx d.servers) (fun s => s) (castOut d.servers readyMsg)]

omit h in
theorem shuffleOrder_proj (d : Deal) (round : Nat → List (Nat × Byte)) {s : Nat} (hs : s < d.servers) :
    (proj s (shuffleOrder d round) : List (Seg Nat Obs)) =
      [rseg (natIdx d.servers) (fun s => s) (noiseRound d.servers d.dests d.noise) s,
       rseg (natIdx d.servers) (fun s => s) round s, rseg (natIdx d.servers) (fun s => s) (castOut d.servers readyMsg) s] := by
  unfold shuffleOrder proj
  have e := fun outs => proj1_round (natGroup d.servers) outs (O := Obs) hs
  simp only [List.flatMap_cons, List.flatMap_nil, List.append_nil]
  rw [e, e, e]
  rfl

omit h in
theorem shuffleOrder_none (d : Deal) (round : Nat → List (Nat × Byte)) {s : Nat} (hs : ¬ s < d.servers) :
    (proj s (shuffleOrder d round) : List (Seg Nat Obs)) = [] := by
  unfold shuffleOrder proj
  have e := fun outs => proj1_round_none (idx := natIdx d.servers) (sib := fun s => s) outs (O := Obs) (i := s) (by simp [natIdx, hs])
  simp only [List.flatMap_cons, List.flatMap_nil, List.append_nil]
  rw [e, e, e]
  rfl

theorem shuffleOrder_ok (round : Nat → List (Nat × Byte)) (hround : OutsOk d.servers round) {cap : Nat × Nat → Nat}
    (hcap : ∀ s t, s < d.servers → t < d.servers → 4 ≤ cap (s, t) ∧ (toOne t (round s)).length ≤ cap (s, t)) :
    ∀ g ∈ shuffleOrder d round, GSeg.Ok cap g := by
  intro g hg
  unfold shuffleOrder at hg
  simp only [List.mem_cons, List.not_mem_nil, or_false] at hg
  rcases hg with rfl | rfl | rfl
  · refine groupRound_ok (natGroup _) (castOut_ok _ _) ?_
    intro s t hs ht
    have := (hcap s t hs ht).1
    rw [toOne_cast]
    split
    · rw [countMsg, natLE_length]; exact this
    · simp
  · exact groupRound_ok (natGroup _) hround (fun s t hs ht => (hcap s t hs ht).2)
  · refine groupRound_ok (natGroup _) (castOut_ok _ _) ?_
    intro s t hs ht
    have := (hcap s t hs ht).1
    rw [toOne_cast]
    split
    · show 1 ≤ _; omega
    · simp

omit h in
theorem routed_toOne_le {τ : Type} (encode : τ → List Byte) (unit S s t : Nat) (ht : t < S) (ds : List Nat) (hds : ∀ d ∈ ds, d < S)
    (l : List τ) (hl : l.length = ds.length) (hu : ∀ x ∈ l, (encode x).length = unit) :
    (toOne t (routedBytes encode unit S s ds l)).length ≤ ds.length * unit := by
  by_cases hst : s = t
  · subst hst
    have : toOne s (routedBytes encode unit S s ds l) = [] := by
      unfold toOne
      rw [List.filterMap_eq_nil_iff]
      intro o ho
      rw [if_neg (outgoing_mem _ _ _ _ _ (routed_mem encode s S ds hds l) o ho).2]
    rw [this]; simp
  · rw [routedBytes_to encode unit S s ds l t ht (Ne.symm hst)]
    rw [flatten_length unit _ (by
      intro c hc
      obtain ⟨x, hx, rfl⟩ := List.mem_map.1 hc
      exact hu x (mem_selTo hx))]
    rw [List.length_map, selTo_length _ _ _ hl.symm]
    exact Nat.mul_le_mul_right _ List.count_le_length

omit h in
theorem siblings_finite (S : Nat) (prog : Nat → ParallelParty box → PProg Nat (ParallelParty box)) (p : Nat → ParallelParty box) :
    ∀ s ∉ Finset.range S, ∃ a, (siblings S prog p).proc s = .done a := by
  intro s hs
  refine ⟨p s, ?_⟩
  show (if s < S then prog s (p s) else .done (p s)) = _
  rw [if_neg (by simpa using hs)]

/-- Queries. -/
theorem queryShuffle_does (hS : d.servers < 255) (rand : Nat → ParallelRand box) (hr : ∀ s, s < d.servers → (rand s).rand = d.gen)
    (p : Nat → ParallelParty box) (hp : ∀ s, s < d.servers → d.Ready s (p s)) (batch : Nat → List Query)
    (hb : ∀ s, s < d.servers → (p s).queries.elements = .ok (batch s) ∧ (batch s).length = d.counts.getD s 0) (s : Nat) :
    PProc.Does (fun p' => s < d.servers → p'.outQueries.elements = .ok (shuffled d.servers d.dests batch (d.local s).backward s))
      ((siblings d.servers (fun s => queryShuffle (rand s)) p).proc s)
      (proj s (shuffleOrder d (queryRound d.servers d.dests batch))) := by
  show PProc.Does _ (if s < d.servers then queryShuffle (rand s) (p s) else .done (p s)) _
  by_cases hs : s < d.servers
  · rw [if_pos hs, shuffleOrder_proj d _ hs]
    unfold queryShuffle
    simp only [PProc.bind_def]
    have hi := initializeShufflers_does (natGroup d.servers) (rand s) (p s) s hs d.seed (d.localSeed s) d.counts d.noise
      (sliceOf d.servers d.dests s) rfl h.small (by rw [hr s hs]; rfl) (h.counted hs (hp s hs))
    rw [hr s hs] at hi
    refine PProc.Does.bind' hi ?_ rfl
    rintro p' ⟨ps, -, hps, hp'⟩
    refine (shuffleQueries_does (natGroup d.servers) hS p' s hs d.dests h.routing batch ?_ (d.noise s)
      (by rw [hp']; exact (hp s hs).id) (by rw [hp']; exact (hp s hs).count) (by rw [hp']; exact hps) (d.local s).backward
      (by rw [hp']; exact (h.shuffler hs).2) (by rw [hp']; exact (h.counted hs (hp s hs)).slice) (by rw [hp']; exact (hb s hs).1)).mono ?_
    · intro s hs; rw [h.length hs, (hb s hs).2]
    · rintro _ ⟨g, hg, rfl⟩ -
      exact hg.elements
  · rw [if_neg hs, shuffleOrder_none d _ hs]
    exact .done (fun h => absurd h hs)

/-- Ciphers. -/
theorem cipherShuffle_does (hS : d.servers < 255) (rand : Nat → ParallelRand box) (hr : ∀ s, s < d.servers → (rand s).rand = d.gen)
    (p : Nat → ParallelParty box) (hp : ∀ s, s < d.servers → d.Ready s (p s)) (unit : Nat) (hu : 0 < unit)
    (hub : unit ≤ Sockets.bufferSize) (batch : Nat → List (List Byte))
    (hpu : ∀ s, s < d.servers → (p s).ciphers.shortSize = unit ∧ (p s).outCiphers.shortSize = unit)
    (hb : ∀ s, s < d.servers → (p s).ciphers.elements = .ok (batch s) ∧ (batch s).length = d.counts.getD s 0 ∧
      ∀ x ∈ batch s, x.length = unit) (s : Nat) :
    PProc.Does (fun p' => s < d.servers → p'.outCiphers.elements = .ok (shuffled d.servers d.dests batch (d.local s).backward s))
      ((siblings d.servers (fun s => cipherShuffle (rand s)) p).proc s)
      (proj s (shuffleOrder d (cipherRound unit d.servers d.dests batch))) := by
  show PProc.Does _ (if s < d.servers then cipherShuffle (rand s) (p s) else .done (p s)) _
  by_cases hs : s < d.servers
  · rw [if_pos hs, shuffleOrder_proj d _ hs]
    unfold cipherShuffle
    simp only [PProc.bind_def]
    have hi := initializeShufflers_does (natGroup d.servers) (rand s) (p s) s hs d.seed (d.localSeed s) d.counts d.noise
      (sliceOf d.servers d.dests s) rfl h.small (by rw [hr s hs]; rfl) (h.counted hs (hp s hs))
    rw [hr s hs] at hi
    refine PProc.Does.bind' hi ?_ rfl
    rintro p' ⟨ps, -, hps, hp'⟩
    refine (shuffleCiphers_does (natGroup d.servers) hS p' s hs d.dests h.routing batch ?_ (d.noise s)
      (by rw [hp']; exact (hp s hs).id) (by rw [hp']; exact (hp s hs).count) (by rw [hp']; exact hps) (d.local s).backward
      (by rw [hp']; exact (h.shuffler hs).2) (by rw [hp']; exact (h.counted hs (hp s hs)).slice) unit hu hub (by rw [hp']; exact (hpu s hs).1)
      (by rw [hp']; exact (hpu s hs).2) (by rw [hp']; exact (hb s hs).1)
      (fun s hs => (hb s hs).2.2)).mono ?_
    · intro s hs; rw [h.length hs, (hb s hs).2.1]
    · rintro _ ⟨g, hg, rfl⟩ -
      exact hg.elements hu
  · rw [if_neg hs, shuffleOrder_none d _ hs]
    exact .done (fun h => absurd h hs)

/-- The order of the shuffle of the queries is realisable when a connection can hold all
the queries of a server. -/
theorem queryOrder_ok (batch : Nat → List Query) (hb : ∀ s, s < d.servers → (batch s).length = d.counts.getD s 0)
    {cap : Nat × Nat → Nat} (hcap : ∀ s t, s < d.servers → t < d.servers → 4 ≤ cap (s, t) ∧ d.counts.getD s 0 * querySize ≤ cap (s, t)) :
    ∀ g ∈ shuffleOrder d (queryRound d.servers d.dests batch), GSeg.Ok cap g := by
  refine shuffleOrder_ok h _ (routed_outsOk _ _ _ _ _ h.routing) (fun s t hs ht => ⟨(hcap s t hs ht).1, le_trans ?_ (hcap s t hs ht).2⟩)
  rw [← h.length hs]
  exact routed_toOne_le _ _ _ _ _ ht _ (h.routing.lt s hs) _ (by rw [hb s hs, h.length hs]) (fun x _ => Query.encode_length x)

theorem cipherOrder_ok (unit : Nat) (batch : Nat → List (List Byte))
    (hb : ∀ s, s < d.servers → (batch s).length = d.counts.getD s 0 ∧ ∀ x ∈ batch s, x.length = unit)
    {cap : Nat × Nat → Nat} (hcap : ∀ s t, s < d.servers → t < d.servers → 4 ≤ cap (s, t) ∧ d.counts.getD s 0 * unit ≤ cap (s, t)) :
    ∀ g ∈ shuffleOrder d (cipherRound unit d.servers d.dests batch), GSeg.Ok cap g := by
  refine shuffleOrder_ok h _ (routed_outsOk _ _ _ _ _ h.routing) (fun s t hs ht => ⟨(hcap s t hs ht).1, le_trans ?_ (hcap s t hs ht).2⟩)
  rw [← h.length hs]
  exact routed_toOne_le _ _ _ _ _ ht _ (h.routing.lt s hs) _ (by rw [(hb s hs).1, h.length hs]) (hb s hs).2

omit h in
theorem proj_comm {ι : Type} [DecidableEq ι] (i : ι) (G : List (GSeg ι)) : segComm (proj i G : List (Seg ι Obs)) = proj i G := by
  unfold segComm
  rw [List.filter_eq_self]
  intro x hx
  obtain ⟨g, -, hg⟩ := List.mem_flatMap.1 hx
  cases g with
  | msg s t b =>
    simp only [proj1] at hg
    split at hg
    · rw [List.mem_singleton.1 hg]; rfl
    · split at hg
      · rw [List.mem_singleton.1 hg]; rfl
      · cases hg
  | round part outs ins =>
    simp only [proj1] at hg
    split at hg
    · rw [List.mem_singleton.1 hg]; rfl
    · cases hg

end

end DPPIR.Protocol
