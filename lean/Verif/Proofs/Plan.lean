import Verif.Proofs.Route

/-!
# The plan of a parallel shuffle, as seen by all servers of a party
-/

namespace DPPIR.Protocol
open DPPIR Shuffle Spec

/-- The destinations of the messages of every server. -/
def planOf (rand : RandGen) (seed : Int) (counts : List Nat) (s : Nat) : List Nat :=
  match (ParallelShuffler.new s counts.length seed).initialize rand counts 0 with
  | .ok p => p.forward
  | .error _ => []

/-- Number of messages server `t` gets from all servers. -/
def sliceOf (S : Nat) (dests : Nat → List Nat) (t : Nat) : Nat := preSum (fun a => (dests a).count t) S

/-- The shuffler of server `me`, initialised with the plan `dests`. -/
structure Planned (S : Nat) (dests : Nat → List Nat) (me noise : Nat) (ps : ParallelShuffler) : Prop where
  id : ps.serverId = me
  count : ps.serverCount = S
  slice : ps.sliceSize = sliceOf S dests me
  forward : ps.forward = dests me
  backward : ps.backward = tab S (fun t => posOf (dests me) t (dests me).length)
  forwardIdx : ps.forwardIdx = 0
  backwardIdx : ps.backwardIdx = tab S (fun _ => 0)
  fromCount : ps.fromCount = tab S (fun a => (dests a).count me)
  prefixFrom : ps.prefixFrom = tab S (preSum (fun a => (dests a).count me))
  toCount : ps.toCount = tab S (fun t => (dests me).count t)
  toNoise : ps.toNoiseCount = tab S (fun t => ((dests me).take noise).count t)

/-- A plan: all messages go to some server. -/
structure Routing (S : Nat) (dests : Nat → List Nat) : Prop where
  lt : ∀ s, s < S → ∀ d ∈ dests s, d < S
  total : preSum (fun s => (dests s).length) S < 2 ^ 32

theorem Routing.slice_total {S : Nat} {dests : Nat → List Nat} (h : ∀ s, s < S → ∀ d ∈ dests s, d < S) :
    preSum (sliceOf S dests) S = preSum (fun s => (dests s).length) S := by
  have swap : ∀ n m : Nat, ∀ f : Nat → Nat → Nat,
      preSum (fun t => preSum (fun a => f a t) n) m = preSum (fun a => preSum (fun t => f a t) m) n := by
    intro n m f
    induction n with
    | zero =>
      induction m with
      | zero => rfl
      | succ m ih => rw [preSum_succ, ih]; rfl
    | succ n ih =>
      rw [preSum_succ, ← ih, ← preSum_add]
      exact preSum_congr (fun i _ => preSum_succ _ _)
  unfold sliceOf
  rw [swap]
  apply preSum_congr
  intro s hs
  have : ∀ l : List Nat, (∀ d ∈ l, d < S) → preSum (fun t => l.count t) S = l.length := by
    intro l hl
    have := (selTo_perm S l l rfl hl).length_eq
    rw [concat_length] at this
    rw [← this]
    apply preSum_congr
    intro t _
    rw [selTo_length l l t rfl]
  exact this _ (h s hs)

theorem Routing.slice_le {S : Nat} {dests : Nat → List Nat} (h : Routing S dests) {t : Nat} (ht : t < S) :
    sliceOf S dests t < 2 ^ 32 := by
  have h1 := Routing.slice_total h.lt
  have h2 := preSum_mono (sliceOf S dests) (show t + 1 ≤ S by omega)
  rw [preSum_succ] at h2
  have := h.total
  omega

theorem Routing.length_le {S : Nat} {dests : Nat → List Nat} (h : Routing S dests) {t : Nat} (ht : t < S) :
    (dests t).length < 2 ^ 32 := by
  have h2 := preSum_mono (fun s => (dests s).length) (show t + 1 ≤ S by omega)
  rw [preSum_succ] at h2
  have := h.total
  omega

theorem preSum_list (l : List Nat) (n : Nat) (h : n ≤ l.length) : preSum (fun i => l.getD i 0) n = (l.take n).sum := by
  induction n with
  | zero => rfl
  | succ n ih =>
    rw [preSum_succ, ih (by omega), take_succ_sum l n (by omega), List.getD_eq_getElem _ _ (by omega)]

/-- All servers compute the same plan. -/
theorem plan_ok (rand : RandGen) (seed : Int) (counts : List Nat) (hn : 0 < counts.length) (h32 : counts.sum < 2 ^ 32) :
    Routing counts.length (planOf rand seed counts) ∧
    (∀ s, s < counts.length → (planOf rand seed counts s).length = counts.getD s 0) ∧
    (∀ t, (ht : t < counts.length) → sliceOf counts.length (planOf rand seed counts) t =
      (slices counts.length counts.sum)[t]'(by rw [slices_length _ _ hn]; exact ht)) ∧
    ∀ (me noise : Nat), me < counts.length → ∀ s : ParallelShuffler, s.seed = seed → s.serverId = me →
      s.serverCount = counts.length →
      ∃ s', s.initialize rand counts noise = .ok s' ∧ s'.seed = seed ∧
        Planned counts.length (planOf rand seed counts) me noise s' := by
  obtain ⟨map, hml, hperm, hspec⟩ := pinit_spec rand seed counts hn h32
  have hplan : ∀ s, s < counts.length → planOf rand seed counts s = destsOf counts map s := by
    intro s hs
    obtain ⟨s', h1, -, -, -, -, h2, -⟩ := hspec s 0 hs (ParallelShuffler.new s counts.length seed) rfl rfl rfl
    unfold planOf
    rw [h1]
    exact h2
  have hlen : ∀ s, (hs : s < counts.length) → (planOf rand seed counts s).length = counts[s] := by
    intro s hs
    obtain ⟨s', -, -, -, -, -, h2, h3, -⟩ := hspec s 0 hs (ParallelShuffler.new s counts.length seed) rfl rfl rfl
    rw [hplan s hs, ← h2, h3]
  have hmt : ∀ t ∈ map, t < counts.length := by
    intro t ht
    have := srcsFrom_mem _ _ _ (hperm.mem_iff.1 ht)
    rw [slices_length _ _ hn] at this
    omega
  have hcount : ∀ a t, a < counts.length → (pairs counts map).count (a, t) = (planOf rand seed counts a).count t := by
    intro a t ha
    rw [hplan a ha]
    exact (dests_count _ _ _).symm
  have hsum : ∀ me, tab counts.length (fun a => (pairs counts map).count (a, me)) =
      tab counts.length (fun a => (planOf rand seed counts a).count me) := by
    intro me
    apply tab_congr
    intro a ha
    exact hcount a me ha
  have hlt : ∀ s, s < counts.length → ∀ d ∈ planOf rand seed counts s, d < counts.length := by
    intro s hs d hd
    rw [hplan s hs] at hd
    unfold destsOf at hd
    obtain ⟨p, hp, rfl⟩ := List.mem_map.1 hd
    have hp := List.mem_of_mem_filter hp
    unfold pairs at hp
    exact hmt _ (List.of_mem_zip (a := p.1) (b := p.2) hp).2
  refine ⟨⟨hlt, ?_⟩, ?_, ?_, ?_⟩
  · have : preSum (fun s => (planOf rand seed counts s).length) counts.length = counts.sum := by
      rw [preSum_congr (g := fun i => counts.getD i 0) (fun i hi => by rw [hlen i hi, List.getD_eq_getElem _ _ hi]),
        preSum_list counts _ le_rfl, List.take_length]
    rw [this]; exact h32
  · intro s hs
    rw [hlen s hs, List.getD_eq_getElem _ _ hs]
  · intro t ht
    obtain ⟨s', -, -, -, -, h1, -, -, -, -, -, -, -, -, -, h2⟩ := hspec t 0 ht (ParallelShuffler.new t counts.length seed) rfl rfl rfl
    rw [hsum t, h1] at h2
    exact h2
  · intro me noise hme s hseed hid hcnt
    obtain ⟨s', h1, h2, h3, h4, h5, h6, h7, h8, h9, h10, h11, h12, h13, h14, h15⟩ := hspec me noise hme s hseed hid hcnt
    rw [hsum me] at h11 h12 h15
    rw [← hplan me hme] at h6
    refine ⟨s', h1, h2, ⟨h3, h4, h15.symm, h6, ?_, h9, h10, h11, ?_, ?_, ?_⟩⟩
    · rw [h8, h6, hlen me hme]
    · rw [h12]
      apply tab_congr
      intro k hk
      rw [tab_take _ _ _ (by omega)]
      rfl
    · rw [h13]
      apply tab_congr
      intro t ht
      exact hcount me t hme
    · rw [h14, h6]

end DPPIR.Protocol
