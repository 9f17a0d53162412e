import Verif.Model.Shuffle
import Verif.Proofs.Base
import Mathlib.Data.List.Perm.Basic
import Mathlib.Data.List.Nodup
import Mathlib.Tactic.Linarith
import Mathlib.Tactic.Ring

namespace DPPIR.Shuffle

theorem randomBounded_lt (raw i : Nat) (h0 : 0 < i) (h : i < 2 ^ 32) : randomBounded raw i < i := by
  unfold randomBounded wrap32 wrap64
  simp only
  have h1 : raw % 2 ^ 32 < 2 ^ 32 := Nat.mod_lt _ (by decide)
  rw [Nat.mod_eq_of_lt h]
  have h2 : raw % 2 ^ 32 * i < 2 ^ 32 * i := Nat.mul_lt_mul_of_pos_right h1 h0
  have h3 : raw % 2 ^ 32 * i < 2 ^ 64 := by
    calc raw % 2 ^ 32 * i < 2 ^ 32 * i := h2
      _ ≤ 2 ^ 32 * 2 ^ 32 := Nat.mul_le_mul_left _ h.le
      _ = 2 ^ 64 := by decide
  rw [Nat.mod_eq_of_lt h3]
  have h4 : raw % 2 ^ 32 * i / 2 ^ 32 < i := by
    rw [Nat.div_lt_iff_lt_mul (by decide), mul_comm i]; exact h2
  rw [Nat.mod_eq_of_lt (by omega)]
  exact h4

/-- With 31-bit outputs of `rand()` the bounded draw stays in the lower half. -/
theorem randomBounded_half (raw i : Nat) (hr : raw ≤ randMax) (h : i < 2 ^ 32) :
    2 * randomBounded raw i ≤ i ∧ (0 < i → 2 * randomBounded raw i < i) := by
  have key : 0 < i → 2 * randomBounded raw i < i := by
    intro h0
    unfold randomBounded wrap32 wrap64
    simp only
    have hr' : raw ≤ 2 ^ 31 - 1 := hr
    rw [Nat.mod_eq_of_lt (show raw < 2 ^ 32 by omega), Nat.mod_eq_of_lt h]
    have h2 : raw * i < 2 ^ 31 * i := Nat.mul_lt_mul_of_pos_right (by omega) h0
    have h3 : raw * i < 2 ^ 64 := by
      calc raw * i < 2 ^ 31 * i := h2
        _ ≤ 2 ^ 31 * 2 ^ 32 := Nat.mul_le_mul_left _ h.le
        _ < 2 ^ 64 := by decide
    rw [Nat.mod_eq_of_lt h3]
    have h4 : 2 * (raw * i / 2 ^ 32) < i := by
      have h5 : raw * i / 2 ^ 32 * 2 ^ 32 ≤ raw * i := Nat.div_mul_le_self _ _
      omega
    rw [Nat.mod_eq_of_lt (by omega)]
    exact h4
  refine ⟨?_, key⟩
  rcases Nat.eq_zero_or_pos i with rfl | h0
  · unfold randomBounded wrap32 wrap64; simp
  · exact (key h0).le

theorem swap_ok {α : Type} (arr : List α) (i j : Nat) (hi : i < arr.length) (hj : j < arr.length) :
    swap arr i j = .ok ((arr.set i arr[j]).set j arr[i]) := by
  unfold swap
  rw [rd_ok hi, rd_ok hj]
  simp only [bind_ok]
  rw [wr_ok hi]
  simp only [bind_ok]
  rw [wr_ok (by simpa using hj)]

theorem swap_perm {α : Type} (arr : List α) (i j : Nat) (hi : i < arr.length) (hj : j < arr.length) :
    ((arr.set i arr[j]).set j arr[i]).Perm arr := List.set_set_perm hi hj

/-- The shuffle always succeeds and permutes its array, for any random stream. -/
theorem shuffleLoop_perm {α : Type} (rng : Nat → Nat) (k i : Nat) (arr : List α)
    (h : i ≤ arr.length) (h32 : i < 2 ^ 32) :
    ∃ out, shuffleLoop rng k i arr = .ok out ∧ out.Perm arr := by
  induction i using Nat.strong_induction_on generalizing k arr with
  | _ i ih =>
    match i, h, h32 with
    | 0, _, _ => exact ⟨arr, rfl, List.Perm.refl _⟩
    | 1, _, _ => exact ⟨arr, rfl, List.Perm.refl _⟩
    | i + 2, h, h32 =>
      have hp := randomBounded_lt (rng k) (i + 2) (by omega) h32
      have hi : i + 1 < arr.length := by omega
      have hj : randomBounded (rng k) (i + 2) < arr.length := by omega
      have hsw := swap_perm arr (i + 1) _ hi hj
      obtain ⟨out, h1, h2⟩ := ih (i + 1) (by omega) (k + 1)
        ((arr.set (i + 1) arr[randomBounded (rng k) (i + 2)]).set (randomBounded (rng k) (i + 2)) arr[i + 1])
        (by simp; omega) (by omega)
      refine ⟨out, ?_, h2.trans hsw⟩
      simp only [shuffleLoop]
      rw [swap_ok _ _ _ hi hj]
      simpa using h1

theorem shuffle_perm {α : Type} (rng : Nat → Nat) (arr : List α) (h32 : arr.length < 2 ^ 32) :
    ∃ out, shuffle rng arr arr.length = .ok out ∧ out.Perm arr :=
  shuffleLoop_perm rng 0 _ arr (le_refl _) h32

theorem fillId (n : Nat) :
    forRange 0 n (fun i m => wr m i i) (List.replicate n 0) = .ok (List.range n) := by
  obtain ⟨m, h1, h2, h3⟩ := forRange_inv
    (fun i (m : List Nat) => m.length = n ∧ ∀ j, j < i → m[j]? = some j)
    (fun i m => wr m i i) 0 n (List.replicate n 0) (Nat.zero_le _) ⟨by simp, by omega⟩ (by
      rintro j m - hj ⟨hl, hm⟩
      refine ⟨m.set j j, wr_ok (by omega), by simpa using hl, ?_⟩
      intro k hk
      rw [List.getElem?_set]
      by_cases hkj : j = k
      · subst hkj; simp; omega
      · rw [if_neg hkj]; exact hm k (by omega))
  rw [h1]
  congr 1
  apply List.ext_getElem?
  intro i
  by_cases hi : i < n
  · rw [h3 i hi]; simp [hi]
  · rw [List.getElem?_eq_none (by omega), List.getElem?_eq_none (by simp; omega)]

/-- Filling the inverse table of a permutation. -/
theorem fillInverse (n : Nat) (fwd : List Nat) (hp : fwd.Perm (List.range n)) :
    ∃ bwd, forRange 0 n (fun i m => do
        let j ← rd fwd i
        wr m j i) (List.replicate n 0) = .ok bwd ∧ bwd.length = n ∧
      ∀ i (hi : i < n) , ∃ hj : i < fwd.length, bwd[fwd[i]]? = some i := by
  have hlen : fwd.length = n := by simpa using hp.length_eq
  have hnd : fwd.Nodup := hp.nodup_iff.2 List.nodup_range
  have hlt : ∀ (i : Nat) (h : i < fwd.length), fwd[i] < n := by
    intro i h
    have := hp.mem_iff.1 (List.getElem_mem h)
    simpa using this
  obtain ⟨m, h1, h2, h3⟩ := forRange_inv
    (fun i (m : List Nat) => m.length = n ∧ ∀ j (hj : j < fwd.length), j < i → m[fwd[j]]? = some j)
    (fun i m => do
        let j ← rd fwd i
        wr m j i) 0 n (List.replicate n 0) (Nat.zero_le _) ⟨by simp, by omega⟩ (by
      rintro j m - hj ⟨hl, hm⟩
      have hjl : j < fwd.length := by omega
      refine ⟨m.set fwd[j] j, ?_, by simpa using hl, ?_⟩
      · rw [rd_ok hjl]
        simp only [bind_ok]
        exact wr_ok (by have := hlt j hjl; omega)
      · intro k hk hkj
        rw [List.getElem?_set]
        by_cases he : fwd[j] = fwd[k]
        · rw [if_pos he]
          have := (List.Nodup.getElem_inj_iff hnd).1 he
          subst this
          have := hlt j hjl
          rw [if_pos (by omega)]
        · rw [if_neg he]
          refine hm k hk ?_
          rcases Nat.lt_succ_iff_lt_or_eq.1 hkj with h | h
          · exact h
          · exact absurd (by simp [h]) he)
  exact ⟨m, h1, h2, fun i hi => ⟨by omega, h3 i (by omega) hi⟩⟩

/-- What `Initialize` produces. -/
theorem initialize_spec (rand : RandGen) (s : LocalShuffler) (n : Nat) (hn : n < 2 ^ 32) :
    ∃ s', s.initialize rand n = .ok s' ∧ s'.seed = s.seed ∧ s'.forward.Perm (List.range n) ∧
      shuffle (rand s.seed) (List.range n) n = .ok s'.forward ∧
      s'.backward.length = n ∧
      (∀ i j : Nat, s'.forward[i]? = some j ↔ s'.backward[j]? = some i) := by
  obtain ⟨fwd, hf, hp⟩ := shuffle_perm (rand s.seed) (List.range n) (by simpa using hn)
  rw [List.length_range] at hf
  obtain ⟨bwd, hb, hbl, hinv⟩ := fillInverse n fwd hp
  have hlen : fwd.length = n := by simpa using hp.length_eq
  have hnd : fwd.Nodup := hp.nodup_iff.2 List.nodup_range
  have hsurj : ∀ j, j < n → ∃ i, i < n ∧ fwd[i]? = some j := by
    intro j hj
    have : j ∈ fwd := hp.mem_iff.2 (by simpa using hj)
    obtain ⟨i, hi, he⟩ := List.getElem_of_mem this
    exact ⟨i, by omega, by simp [hi, he]⟩
  refine ⟨{ s with forward := fwd, backward := bwd }, ?_, rfl, hp, hf, hbl, ?_⟩
  · unfold LocalShuffler.initialize
    rw [fillId]
    simp only [bind_ok, hf, hb]
  · intro i j
    constructor
    · intro h
      have h : fwd[i]? = some j := h
      obtain ⟨hi, he⟩ := List.getElem?_eq_some_iff.1 h
      obtain ⟨_, h3⟩ := hinv i (by omega)
      rw [he] at h3
      exact h3
    · intro h
      have h : bwd[j]? = some i := h
      have hj : j < n := by
        have := (List.getElem?_eq_some_iff.1 h).1
        omega
      obtain ⟨i', hi', he'⟩ := hsurj j hj
      obtain ⟨hi2, he2⟩ := List.getElem?_eq_some_iff.1 he'
      obtain ⟨_, h3⟩ := hinv i' hi'
      rw [he2, h] at h3
      have := Option.some.inj h3
      subst this
      exact he'

/-- Invariant of the defective shuffle: before the step with counter `i`, every
position below `i` holds its own index or one that is at least `i`; positions
from `i` on are never fixed points. -/
theorem shuffleLoop_no_fixpoint (rng : Nat → Nat) (hr : ∀ k, rng k ≤ randMax) (k i : Nat)
    (arr : List Nat) (hi : i ≤ arr.length) (h2 : 2 ≤ arr.length) (h32 : i < 2 ^ 32) (hnd : arr.Nodup)
    (hlow : ∀ q (h : q < arr.length), q < i → arr[q] = q ∨ i ≤ arr[q])
    (hhigh : ∀ q (h : q < arr.length), i ≤ q → arr[q] ≠ q)
    (hone : i = 1 → ∀ h : 0 < arr.length, arr[0] ≠ 0) :
    ∀ out, shuffleLoop rng k i arr = .ok out → ∀ q (h : q < out.length), out[q] ≠ q := by
  induction i using Nat.strong_induction_on generalizing k arr with
  | _ i ih =>
    match i, hi, h32, hlow, hhigh, hone with
    | 0, _, _, _, hh, _ =>
      intro out ho q hq
      have := Except.ok.inj ho
      subst this
      exact hh q hq (Nat.zero_le _)
    | 1, _, _, hl, hh, h1 =>
      intro out ho q hq
      have := Except.ok.inj ho
      subst this
      rcases Nat.eq_zero_or_pos q with rfl | h0
      · exact h1 rfl hq
      · exact hh q hq h0
    | i + 2, hi, h32, hl, hh, _ =>
      intro out ho
      have hp := (randomBounded_half (rng k) (i + 2) (hr k) h32).2 (by omega)
      simp only [shuffleLoop] at ho
      generalize randomBounded (rng k) (i + 2) = p at hp ho
      have hp1 : p < i + 1 := by omega
      rw [swap_ok _ _ _ (by omega) (by omega)] at ho
      simp only [bind_ok] at ho
      have hpl : p < arr.length := by omega
      have hil : i + 1 < arr.length := by omega
      -- facts about the new array
      have hget : ∀ q (h : q < ((arr.set (i + 1) arr[p]).set p arr[i + 1]).length),
          ((arr.set (i + 1) arr[p]).set p arr[i + 1])[q] =
            if q = p then arr[i + 1] else if q = i + 1 then arr[p] else arr[q]'(by simpa using h) := by
        intro q h
        rw [List.getElem_set, List.getElem_set]
        by_cases h1 : p = q
        · rw [if_pos h1, if_pos h1.symm]
        · rw [if_neg h1, if_neg (Ne.symm h1)]
          by_cases h3 : i + 1 = q
          · rw [if_pos h3, if_pos h3.symm]
          · rw [if_neg h3, if_neg (Ne.symm h3)]
      have hpi : arr[p] ≠ i + 1 := by
        rcases hl p hpl (by omega) with h | h <;> omega
      have hip : i + 1 ≤ arr[i + 1] := by
        rcases hl (i + 1) hil (by omega) with h | h <;> omega
      apply ih (i + 1) (by omega) (k + 1) _ (by simp; omega) (by simpa using h2) (by omega)
        ((swap_perm arr (i + 1) p hil hpl).nodup_iff.2 hnd) ?_ ?_ ?_ out ho
      · intro q hq hqi
        rw [hget q hq]
        by_cases h1 : q = p
        · rw [if_pos h1]; right; exact hip
        · rw [if_neg h1, if_neg (by omega)]
          rcases hl q (by simpa using hq) (by omega) with h | h
          · left; exact h
          · right; omega
      · intro q hq hqi
        rw [hget q hq]
        by_cases h1 : q = p
        · omega
        · rw [if_neg h1]
          by_cases h3 : q = i + 1
          · rw [if_pos h3, h3]; exact hpi
          · rw [if_neg h3]
            exact hh q (by simpa using hq) (by omega)
      · intro h1 h0
        have hi0 : i = 0 := by omega
        subst hi0
        rw [hget 0 h0]
        have hp0 : p = 0 := by omega
        rw [if_pos hp0.symm]
        omega

theorem shuffleLoop_congr {α : Type} (rng rng' : Nat → Nat) (k i : Nat) (arr : List α)
    (h : ∀ j, k ≤ j → rng j = rng' j) : shuffleLoop rng k i arr = shuffleLoop rng' k i arr := by
  induction i using Nat.strong_induction_on generalizing k arr with
  | _ i ih =>
    match i with
    | 0 => rfl
    | 1 => rfl
    | i + 2 =>
      simp only [shuffleLoop]
      rw [h k (Nat.le_refl _)]
      cases swap arr (i + 1) (randomBounded (rng' k) (i + 2)) with
      | error e => rfl
      | ok a =>
        simp only [bind_ok]
        exact ih (i + 1) (by omega) (k + 1) a (fun j hj => h j (by omega))

/-- Every value below the range is produced by some 32-bit draw. -/
theorem randomBounded_surj (i p : Nat) (hp : p < i) (h : i < 2 ^ 32) :
    ∃ raw, raw ≤ 2 ^ 32 - 1 ∧ randomBounded raw i = p := by
  have hi : 0 < i := by omega
  have hdm := Nat.div_add_mod (p * 2 ^ 32 + (i - 1)) i
  have hml := Nat.mod_lt (p * 2 ^ 32 + (i - 1)) hi
  generalize hraw : (p * 2 ^ 32 + (i - 1)) / i = raw at *
  generalize (p * 2 ^ 32 + (i - 1)) % i = r at *
  have hlo : p * 2 ^ 32 ≤ i * raw := by omega
  have hhi : i * raw < (p + 1) * 2 ^ 32 := by
    have : (p + 1) * 2 ^ 32 = p * 2 ^ 32 + 2 ^ 32 := by ring
    omega
  have hlt : raw < 2 ^ 32 := by
    by_contra hc
    have h1 : i * 2 ^ 32 ≤ i * raw := Nat.mul_le_mul_left _ (by omega)
    have h2 : (p + 1) * 2 ^ 32 ≤ i * 2 ^ 32 := Nat.mul_le_mul_right _ hp
    omega
  refine ⟨raw, by omega, ?_⟩
  unfold randomBounded wrap32 wrap64
  simp only
  rw [Nat.mod_eq_of_lt hlt, Nat.mod_eq_of_lt h, mul_comm raw i]
  have h64 : i * raw < 2 ^ 64 := by
    have : (p + 1) * 2 ^ 32 ≤ 2 ^ 32 * 2 ^ 32 := Nat.mul_le_mul_right _ (by omega)
    omega
  rw [Nat.mod_eq_of_lt h64]
  have hd : i * raw / 2 ^ 32 = p := by
    rw [Nat.div_eq_iff (by decide)]
    have : (p + 1) * 2 ^ 32 = p * 2 ^ 32 + 2 ^ 32 := by ring
    omega
  rw [hd, Nat.mod_eq_of_lt (by omega)]

/-- With draws from the full 32-bit range the loop reaches every arrangement. -/
theorem shuffleLoop_surj (k i : Nat) (arr out : List Nat) (hi : i ≤ arr.length) (h32 : i < 2 ^ 32)
    (hnd : arr.Nodup) (hp : out.Perm arr)
    (hagree : ∀ q, i ≤ q → out[q]? = arr[q]?) :
    ∃ rng : Nat → Nat, (∀ j, rng j ≤ 2 ^ 32 - 1) ∧ shuffleLoop rng k i arr = .ok out := by
  induction i using Nat.strong_induction_on generalizing k arr with
  | _ i ih =>
    match i, hi, h32, hagree with
    | 0, _, _, ha =>
      refine ⟨fun _ => 0, by simp, ?_⟩
      have : out = arr := List.ext_getElem? (fun q => ha q (Nat.zero_le _))
      rw [this]; rfl
    | 1, _, _, ha =>
      refine ⟨fun _ => 0, by simp, ?_⟩
      have : out = arr := by
        have htl : out.tail = arr.tail := by
          apply List.ext_getElem?
          intro q
          rw [List.getElem?_tail, List.getElem?_tail]
          exact ha (q + 1) (by omega)
        match arr, out with
        | [], o => exact List.perm_nil.1 hp
        | a :: l, [] => exact absurd hp.length_eq (by simp)
        | a :: l, b :: l' =>
          simp only [List.tail_cons] at htl
          subst htl
          have := (List.perm_cons_append_cons (l₁ := []) (l₂ := l') b (List.Perm.refl l'))
          have hmem : b ∈ a :: l' := hp.mem_iff.1 List.mem_cons_self
          rcases List.mem_cons.1 hmem with h | h
          · rw [h]
          · have hnd' : (b :: l').Nodup := hp.nodup_iff.2 hnd
            exact absurd h (List.nodup_cons.1 hnd').1
      rw [this]; rfl
    | i + 2, hi, h32, ha =>
      have hlen : out.length = arr.length := hp.length_eq
      have hndo : out.Nodup := hp.nodup_iff.2 hnd
      have hio : i + 1 < out.length := by omega
      obtain ⟨p, hpl, hpe⟩ := List.getElem_of_mem (hp.mem_iff.1 (List.getElem_mem hio))
      have hple : p < i + 2 := by
        by_contra hc
        have h1 := ha p (by omega)
        rw [List.getElem?_eq_getElem (by omega), List.getElem?_eq_getElem hpl] at h1
        have h2 := Option.some.inj h1
        rw [hpe] at h2
        have := (List.Nodup.getElem_inj_iff hndo).1 h2
        omega
      obtain ⟨raw, hraw, hrb⟩ := randomBounded_surj (i + 2) p hple h32
      have hil : i + 1 < arr.length := by omega
      have hsw := swap_perm arr (i + 1) p hil hpl
      obtain ⟨rng, hr1, hr2⟩ := ih (i + 1) (by omega) (k + 1)
        ((arr.set (i + 1) arr[p]).set p arr[i + 1]) (by simp; omega) (by omega)
        (hsw.nodup_iff.2 hnd) (hp.trans hsw.symm) (by
          intro q hq
          by_cases hqe : q = i + 1
          · subst hqe
            rw [List.getElem?_eq_getElem hio, List.getElem?_set, List.getElem?_set, ← hpe]
            by_cases hpi : p = i + 1
            · subst hpi; simp [hpl]
            · simp [hpi, hil]
          · rw [ha q (by omega), List.getElem?_set_ne (by omega), List.getElem?_set_ne (by omega)])
      refine ⟨fun j => if j = k then raw else rng j, ?_, ?_⟩
      · intro j
        show (if j = k then raw else rng j) ≤ _
        split
        · exact hraw
        · exact hr1 j
      · simp only [shuffleLoop, if_true]
        rw [hrb, swap_ok _ _ _ hil hpl]
        simp only [bind_ok]
        rw [← hr2]
        apply shuffleLoop_congr
        intro j hj
        rw [if_neg (by omega)]

end DPPIR.Shuffle
