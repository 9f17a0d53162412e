import Verif.Proofs.Shuffle

/-!
# C10, C11: the local shuffle
-/

namespace DPPIR.Props
open DPPIR.Shuffle

/-- **C10.** For every batch size, seed and behaviour of `rand()`, initialisation
succeeds; `Shuffle` and `Deshuffle` are total on `[0,n)`, stay in `[0,n)` and are
inverse to each other; outside `[0,n)` both are out-of-bounds reads. -/
theorem C10_local_shuffle_bijective (rand : RandGen) (seed : Int) (n : Nat) (hn : n < 2 ^ 32) :
    ∃ s, (LocalShuffler.new seed).initialize rand n = .ok s ∧
      (∀ i, i < n → ∃ j, j < n ∧ s.shuffle i = .ok j ∧ s.deshuffle j = .ok i) ∧
      (∀ j, j < n → ∃ i, i < n ∧ s.deshuffle j = .ok i ∧ s.shuffle i = .ok j) ∧
      (∀ i, n ≤ i → s.shuffle i = .error .ub ∧ s.deshuffle i = .error .ub) := by
  obtain ⟨s, h1, -, hp, -, hbl, hinv⟩ := initialize_spec rand (LocalShuffler.new seed) n hn
  have hfl : s.forward.length = n := by simpa using hp.length_eq
  refine ⟨s, h1, ?_, ?_, ?_⟩
  · intro i hi
    have hf : s.forward[i]? = some (s.forward[i]'(by omega)) := by simp [hfl, hi]
    have hb := (hinv i _).1 hf
    refine ⟨s.forward[i]'(by omega), ?_, rd_eq_ok.2 hf, rd_eq_ok.2 hb⟩
    have := (List.getElem?_eq_some_iff.1 hb).1
    omega
  · intro j hj
    have hb : s.backward[j]? = some (s.backward[j]'(by omega)) := by simp [hbl, hj]
    have hf := (hinv _ j).2 hb
    refine ⟨s.backward[j]'(by omega), ?_, rd_eq_ok.2 hb, rd_eq_ok.2 hf⟩
    have := (List.getElem?_eq_some_iff.1 hf).1
    omega
  · intro i hi
    exact ⟨rd_ub (by omega), rd_ub (by omega)⟩

/-- **C10.** No two indices are sent to the same place. -/
theorem C10_local_shuffle_injective (rand : RandGen) (seed : Int) (n : Nat) (hn : n < 2 ^ 32)
    (s : LocalShuffler) (hs : (LocalShuffler.new seed).initialize rand n = .ok s)
    (i i' j : Nat) (h : s.shuffle i = .ok j) (h' : s.shuffle i' = .ok j) : i = i' := by
  obtain ⟨s', h1, h2, -, h4⟩ := C10_local_shuffle_bijective rand seed n hn
  rw [hs] at h1
  have := Except.ok.inj h1
  subst this
  have key : ∀ i, s.shuffle i = .ok j → s.deshuffle j = .ok i := by
    intro i h
    by_cases hi : i < n
    · obtain ⟨j', -, h5, h6⟩ := h2 i hi
      rw [h] at h5
      have := Except.ok.inj h5
      subst this
      exact h6
    · have := (h4 i (by omega)).1
      rw [h] at this
      cases this
  have e := (key i h).symm.trans (key i' h')
  exact Except.ok.inj e

/-- **C10.** Re-initialising with the same seed and size gives the same
arrangement (the offline and online stages agree). -/
theorem C10_local_shuffle_repeatable (rand : RandGen) (seed : Int) (n : Nat)
    (s s' : LocalShuffler) (hn : n < 2 ^ 32)
    (h : (LocalShuffler.new seed).initialize rand n = .ok s)
    (h' : s.finishForward.initialize rand n = .ok s') :
    ∀ i, s'.shuffle i = s.shuffle i ∧ s'.deshuffle i = s.deshuffle i := by
  obtain ⟨t, h1, hseed, -, hsh, -, hinv⟩ := initialize_spec rand (LocalShuffler.new seed) n hn
  obtain ⟨t', h1', -, -, hsh', -, hinv'⟩ := initialize_spec rand s.finishForward n hn
  rw [h] at h1
  have := Except.ok.inj h1
  subst this
  rw [h'] at h1'
  have := Except.ok.inj h1'
  subst this
  have hs2 : s.finishForward.seed = (LocalShuffler.new seed).seed := hseed
  rw [hs2, hsh] at hsh'
  have hff := Except.ok.inj hsh'
  intro i
  have hb : s'.backward[i]? = s.backward[i]? := by
    apply Option.ext
    intro a
    rw [← hinv' a i, ← hinv a i, hff]
  constructor
  · show rd s'.forward i = rd s.forward i
    rw [hff]
  · show rd s'.backward i = rd s.backward i
    unfold rd
    rw [hb]

/-- Non-vacuity of C10: a concrete generator and a batch of five. -/
example : (5 < 2 ^ 32) ∧ ∃ s, (LocalShuffler.new 7).initialize (fun _ k => 1000000007 * (k + 1) % 2147483648) 5 = .ok s ∧
    s.forward = [3, 2, 0, 4, 1] := by
  refine ⟨by decide, _, by rfl, by decide⟩

/-- **C11 (violated).** `rand()` never exceeds `RAND_MAX = 2^31-1`.  Then, for
every batch of at least two messages and every seed, the shuffle moves every
message: no message ever stays in its place. -/
theorem C11_shuffle_never_fixes_a_message (rand : RandGen) (hr : ∀ seed k, rand seed k ≤ randMax)
    (seed : Int) (n : Nat) (h2 : 2 ≤ n) (hn : n < 2 ^ 32) (s : LocalShuffler)
    (hs : (LocalShuffler.new seed).initialize rand n = .ok s) :
    ∀ i, i < n → s.shuffle i ≠ .ok i := by
  obtain ⟨t, h1, -, hp, hsh, -, -⟩ := initialize_spec rand (LocalShuffler.new seed) n hn
  rw [hs] at h1
  have := Except.ok.inj h1
  subst this
  intro i hi h
  have hfl : s.forward.length = n := by simpa using hp.length_eq
  have := shuffleLoop_no_fixpoint (rand seed) (hr seed) 0 n (List.range n) (by simp) (by simpa using h2)
    hn List.nodup_range (by intro q h _; left; simp) (by intro q h hq; simp at h; omega) (by omega)
    s.forward hsh i (by omega)
  have hh := rd_eq_ok.1 h
  obtain ⟨_, he⟩ := List.getElem?_eq_some_iff.1 hh
  exact this he

/-- **C11 (violated)**, as the negation of the property: it is not true that for
every size and every arrangement some generator output produces it. -/
theorem C11_not_every_arrangement_possible :
    ¬ ∀ (n : Nat) (arrangement : List Nat), n < 2 ^ 32 → arrangement.Perm (List.range n) →
      ∃ (rand : RandGen) (seed : Int) (s : LocalShuffler), (∀ seed k, rand seed k ≤ randMax) ∧
        (LocalShuffler.new seed).initialize rand n = .ok s ∧
        ∀ i (h : i < arrangement.length), s.shuffle i = .ok arrangement[i] := by
  intro h
  obtain ⟨rand, seed, s, hr, hi, hs⟩ := h 2 [0, 1] (by decide) (List.Perm.refl _)
  exact C11_shuffle_never_fixes_a_message rand hr seed 2 (le_refl _) (by decide) s hi 0 (by decide)
    (hs 0 (by decide))

/-- **C11.** What the scaling in `random_bounded` assumes: if `rand()` delivered
all 32-bit values, every arrangement of every batch would be possible. -/
theorem C11_every_arrangement_possible_with_32bit_rand (n : Nat) (hn : n < 2 ^ 32)
    (arrangement : List Nat) (hp : arrangement.Perm (List.range n)) (seed : Int) :
    ∃ (rand : RandGen) (s : LocalShuffler), (∀ seed k, rand seed k ≤ 2 ^ 32 - 1) ∧
      (LocalShuffler.new seed).initialize rand n = .ok s ∧
      ∀ i (h : i < arrangement.length), s.shuffle i = .ok arrangement[i] := by
  obtain ⟨rng, hr, hsh⟩ := shuffleLoop_surj 0 n (List.range n) arrangement (by simp) hn
    List.nodup_range hp (by
      intro q hq
      have := hp.length_eq
      rw [List.length_range] at this
      rw [List.getElem?_eq_none (by omega), List.getElem?_eq_none (by simpa using hq)])
  obtain ⟨s, h1, -, -, h2, -, -⟩ := initialize_spec (fun _ => rng) (LocalShuffler.new seed) n hn
  refine ⟨fun _ => rng, s, fun _ k => hr k, h1, ?_⟩
  intro i h
  have : s.forward = arrangement := by
    have e : shuffle rng (List.range n) n = .ok arrangement := hsh
    rw [e] at h2
    exact (Except.ok.inj h2).symm
  show rd s.forward i = _
  rw [this, rd_ok h]

/-- Non-vacuity of C11: a generator within `RAND_MAX`, and a successful run on
four messages. -/
example : (∀ (seed : Int) (k : Nat), (fun _ k => 1000000007 * (k + 1) % 2147483648 : RandGen) seed k ≤ randMax) ∧
    ∃ s, (LocalShuffler.new 3).initialize (fun _ k => 1000000007 * (k + 1) % 2147483648) 4 = .ok s := by
  refine ⟨?_, _, by rfl⟩
  intro _ k
  show 1000000007 * (k + 1) % 2147483648 ≤ 2 ^ 31 - 1
  omega

end DPPIR.Props
