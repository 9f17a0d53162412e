import Verif.Spec.Sharing
import Verif.Proofs.Incremental

namespace DPPIR.Props
open DPPIR.Incremental DPPIR.Spec

theorem p_eq : p = incrementalPrime := rfl

theorem _root_.DPPIR.Spec.IsShare.xok {s : Share} (h : IsShare s) : XOk s := h.1

theorem _root_.DPPIR.Spec.IsShare.not_dvd {s : Share} (h : IsShare s) : ¬ incrementalPrime ∣ s.y.toNat := by
  intro hd
  have := Nat.le_of_dvd h.2.1 hd
  have := h.2.2
  rw [p_eq] at this
  omega

theorem _root_.DPPIR.Spec.IsShare.y_ne {s : Share} (h : IsShare s) : fld s.y ≠ 0 := by
  intro hz
  apply h.not_dvd
  exact (ZMod.natCast_eq_zero_iff _ _).1 hz

/-- Everything `PreIncrementalSecretShares` returns is a valid share. -/
theorem preShares_valid (rng : Nat → Nat) (n : Nat) :
    ∀ s ∈ preIncrementalSecretShares rng n, IsShare s := by
  unfold preIncrementalSecretShares
  generalize 0 = i
  induction n generalizing i with
  | zero => simp [preSharesFrom]
  | succ n ih =>
    intro s hs
    simp only [preSharesFrom, List.mem_cons] at hs
    rcases hs with rfl | hs
    · have hm1 : rng (2 * i) % incrementalPrime < incrementalPrime := Nat.mod_lt _ (by decide)
      have hm2 : rng (2 * i + 1) % (incrementalPrime - 1) < incrementalPrime - 1 :=
        Nat.mod_lt _ (by decide)
      have hp : incrementalPrime = 2147483647 := rfl
      simp only [IsShare, randombytesUniform, BitVec.toNat_ofNat, p_eq]
      rw [if_neg (by decide), if_neg (by decide)]
      rw [hp] at *
      omega
    · exact ih _ s hs

theorem preShares_length (rng : Nat → Nat) (n : Nat) :
    (preIncrementalSecretShares rng n).length = n := by
  unfold preIncrementalSecretShares
  generalize 0 = i
  induction n generalizing i with
  | zero => rfl
  | succ n ih => simp [preSharesFrom, ih]

/-- The `i`-th share as a function of the draws. -/
def shareOf (rng : Nat → Nat) (i : Nat) : Share :=
  { x := BitVec.ofNat 32 (rng (2 * i) % p), y := BitVec.ofNat 32 (rng (2 * i + 1) % (p - 1) + 1) }

theorem preShares_eq (rng : Nat → Nat) (n : Nat) : preIncrementalSecretShares rng n = (List.range' 0 n).map (shareOf rng) := by
  unfold preIncrementalSecretShares
  generalize 0 = i
  induction n generalizing i with
  | zero => rfl
  | succ n ih =>
    rw [preSharesFrom, ih, List.range'_succ, List.map_cons]
    rfl

theorem preShares_split (rng : Nat → Nat) (n k : Nat) (hk : k < n) : preIncrementalSecretShares rng n =
    (List.range' 0 k).map (shareOf rng) ++ shareOf rng k :: (List.range' (k + 1) (n - k - 1)).map (shareOf rng) := by
  rw [preShares_eq, show n = k + (n - k - 1 + 1) by omega, ← List.range'_append_1, List.map_append, Nat.zero_add, List.range'_succ, List.map_cons]
  congr 4
  omega

theorem shareOf_valid (rng : Nat → Nat) (i : Nat) : IsShare (shareOf rng i) := by
  have := preShares_valid rng (i + 1)
  apply this
  rw [preShares_split rng (i + 1) i (by omega)]
  simp

theorem preShares_update_x (rng : Nat → Nat) (n k : Nat) (hk : k < n) : ∃ before after y, before.length = k ∧
    (∀ s ∈ before, IsShare s) ∧ (∀ s ∈ after, IsShare s) ∧ (0 < y.toNat ∧ y.toNat < p) ∧
    ∀ d, d < p → preIncrementalSecretShares (Function.update rng (2 * k) d) n = before ++ ⟨BitVec.ofNat 32 d, y⟩ :: after := by
  refine ⟨(List.range' 0 k).map (shareOf rng), (List.range' (k + 1) (n - k - 1)).map (shareOf rng), (shareOf rng k).y, by simp, ?_, ?_,
    (shareOf_valid rng k).2, ?_⟩
  · simp only [List.mem_map]; rintro s ⟨i, -, rfl⟩; exact shareOf_valid rng i
  · simp only [List.mem_map]; rintro s ⟨i, -, rfl⟩; exact shareOf_valid rng i
  · intro d hd
    have hoff : ∀ i, i ≠ k → shareOf (Function.update rng (2 * k) d) i = shareOf rng i := by
      intro i hi
      unfold shareOf
      rw [Function.update_of_ne (by omega), Function.update_of_ne (by omega)]
    rw [preShares_split _ n k hk]
    congr 1
    · apply List.map_congr_left
      intro i hi
      simp only [List.mem_range'_1] at hi
      exact hoff i (by omega)
    · congr 1
      · unfold shareOf
        rw [Function.update_self, Nat.mod_eq_of_lt hd, Function.update_of_ne (by omega)]
      · apply List.map_congr_left
        intro i hi
        simp only [List.mem_range'_1] at hi
        exact hoff i (by omega)

theorem preShares_update_mod (rng : Nat → Nat) (n k d : Nat) (hk : k < n) :
    preIncrementalSecretShares (Function.update rng (2 * k) d) n = preIncrementalSecretShares (Function.update rng (2 * k) (d % p)) n := by
  rw [preShares_eq, preShares_eq]
  apply List.map_congr_left
  intro i _
  unfold shareOf
  by_cases h : i = k
  · subst h
    rw [Function.update_self, Function.update_self, Function.update_of_ne (by omega), Function.update_of_ne (by omega), Nat.mod_mod]
  · rw [Function.update_of_ne (by omega), Function.update_of_ne (by omega), Function.update_of_ne (by omega), Function.update_of_ne (by omega)]

theorem preShares_update_y (rng : Nat → Nat) (n k : Nat) (hk : k < n) : ∃ before after x,
    (∀ s ∈ before, IsShare s) ∧ (∀ s ∈ after, IsShare s) ∧
    ∀ e, e < p - 1 → preIncrementalSecretShares (Function.update rng (2 * k + 1) e) n = before ++ ⟨x, BitVec.ofNat 32 (e + 1)⟩ :: after := by
  refine ⟨(List.range' 0 k).map (shareOf rng), (List.range' (k + 1) (n - k - 1)).map (shareOf rng), (shareOf rng k).x, ?_, ?_, ?_⟩
  · simp only [List.mem_map]; rintro s ⟨i, -, rfl⟩; exact shareOf_valid rng i
  · simp only [List.mem_map]; rintro s ⟨i, -, rfl⟩; exact shareOf_valid rng i
  · intro d hd
    have hoff : ∀ i, i ≠ k → shareOf (Function.update rng (2 * k + 1) d) i = shareOf rng i := by
      intro i hi
      unfold shareOf
      rw [Function.update_of_ne (by omega), Function.update_of_ne (by omega)]
    rw [preShares_split _ n k hk]
    congr 1
    · apply List.map_congr_left
      intro i hi
      simp only [List.mem_range'_1] at hi
      exact hoff i (by omega)
    · congr 1
      · unfold shareOf
        rw [Function.update_self, Nat.mod_eq_of_lt hd, Function.update_of_ne (by omega)]
      · apply List.map_congr_left
        intro i hi
        simp only [List.mem_range'_1] at hi
        exact hoff i (by omega)

/-- Any list of valid shares is a possible result of
`PreIncrementalSecretShares`. -/
theorem preShares_surjective (shares : List Share) (h : ∀ s ∈ shares, IsShare s) :
    ∃ rng, preIncrementalSecretShares rng shares.length = shares := by
  have hp : incrementalPrime = 2147483647 := rfl
  refine ⟨fun k => match shares[k / 2]? with
    | some s => if k % 2 = 0 then s.x.toNat else s.y.toNat - 1
    | none => 0, ?_⟩
  unfold preIncrementalSecretShares
  suffices H : ∀ (done todo : List Share), shares = done ++ todo →
      preSharesFrom (fun k => match shares[k / 2]? with
        | some s => if k % 2 = 0 then s.x.toNat else s.y.toNat - 1
        | none => 0) done.length todo.length = todo by
    simpa using H [] shares rfl
  intro done todo
  induction todo generalizing done with
  | nil => intro _; rfl
  | cons s rest ih =>
    intro he
    have hs : IsShare s := h s (by rw [he]; simp)
    have hget : shares[done.length]? = some s := by rw [he]; simp
    simp only [List.length_cons, preSharesFrom]
    have e1 : (2 * done.length) / 2 = done.length := by omega
    have e2 : (2 * done.length + 1) / 2 = done.length := by omega
    rw [e1, e2, hget]
    have ih' := ih (done ++ [s]) (by rw [he]; simp)
    simp only [List.length_append, List.length_cons, List.length_nil, zero_add] at ih'
    rw [ih']
    congr 1
    obtain ⟨h1, h2, h3⟩ := hs
    rw [p_eq, hp] at h1 h3
    have m1 : (2 * done.length) % 2 = 0 := by omega
    have m2 : ¬ (2 * done.length + 1) % 2 = 0 := by omega
    cases s with
    | mk x y =>
      simp only [m1, m2, if_true, if_false, randombytesUniform, hp] at *
      rw [if_neg (by decide), if_neg (by decide)]
      rw [Nat.mod_eq_of_lt h1, Nat.mod_eq_of_lt (by omega), Nat.sub_add_cancel h2]
      simp

theorem roundtrip_aux (query : BitVec 32) (shares : List Share) (hs : ∀ s ∈ shares, IsShare s)
    (hne : shares ≠ []) :
    ∃ tally, generateIncrementalTally query shares = .ok tally ∧ tally.toNat < p ∧
      (applyAll shares tally).toNat = query.toNat % p := by
  induction shares with
  | nil => exact absurd rfl hne
  | cons s rest ih =>
    obtain ⟨t, t', h1, h2, hlt, hnil, hcons, hz⟩ := generate_cons query s rest (fun u hu => (hs u hu).xok)
    have hz := hz (hs s List.mem_cons_self).not_dvd
    refine ⟨t, h1, hlt, ?_⟩
    have hf : fld (incrementalReconstruct t s) = fld t' := by rw [fld_reconstruct, hz]
    by_cases hr : rest = []
    · subst hr
      have ht := hnil rfl
      subst ht
      show (incrementalReconstruct t s).toNat = _
      unfold fld at hf
      rw [ZMod.natCast_eq_natCast_iff'] at hf
      rw [Nat.mod_eq_of_lt (reconstruct_lt t s)] at hf
      exact hf
    · have : incrementalReconstruct t s = t' := fld_inj (reconstruct_lt t s) (hcons hr) hf
      obtain ⟨t2, g1, -, g2⟩ := ih (fun u hu => hs u (List.mem_cons_of_mem _ hu)) hr
      rw [h2] at g1
      have := Except.ok.inj g1
      subst this
      show (applyAll rest (incrementalReconstruct t s)).toNat = _
      rw [‹incrementalReconstruct t s = t'›]
      exact g2

/-- Valid words as a field: every field element is a word below the prime. -/
theorem exists_word (z : ZMod incrementalPrime) :
    ∃ b : BitVec 32, b.toNat < incrementalPrime ∧ fld b = z := by
  have h : z.val < incrementalPrime := ZMod.val_lt z
  have h32 : incrementalPrime < 2 ^ 32 := by decide
  refine ⟨BitVec.ofNat 32 z.val, ?_, ?_⟩
  · rw [BitVec.toNat_ofNat, Nat.mod_eq_of_lt (by omega)]; exact h
  · unfold fld
    rw [BitVec.toNat_ofNat, Nat.mod_eq_of_lt (by omega)]
    simp

/-- The tally as a function of the additive share at one position is an affine
bijection with coefficients that do not depend on that share. -/
theorem tally_affine (q : BitVec 32) (pre post : List Share) (y : BitVec 32)
    (hpre : ∀ s ∈ pre, IsShare s) (hpost : ∀ s ∈ post, IsShare s)
    (hy : 0 < y.toNat ∧ y.toNat < p) :
    ∃ a b : ZMod incrementalPrime, a ≠ 0 ∧ ∀ x : BitVec 32, x.toNat < p →
      ∃ t, generateIncrementalTally q (pre ++ ⟨x, y⟩ :: post) = .ok t ∧ t.toNat < p ∧
        fld t = a * fld x + b := by
  induction pre with
  | nil =>
    have hyne : fld y ≠ 0 := by
      intro hz
      have := Nat.le_of_dvd hy.1 ((ZMod.natCast_eq_zero_iff _ _).1 hz)
      have := hy.2
      rw [p_eq] at this
      omega
    have hsx : ∀ x : BitVec 32, x.toNat < p → ∀ u ∈ (⟨x, y⟩ : Share) :: post, IsShare u := by
      intro x hx u hu
      simp only [List.mem_cons] at hu
      rcases hu with rfl | hu
      · exact ⟨hx, hy⟩
      · exact hpost u hu
    obtain ⟨_, t', -, ht', -⟩ := generate_cons q ⟨0, y⟩ post
      (fun u hu => (hsx 0 (by decide) u hu).xok)
    refine ⟨-(fld y)⁻¹, fld t' * (fld y)⁻¹, neg_ne_zero.2 (inv_ne_zero hyne), ?_⟩
    intro x hx
    obtain ⟨t, t2, g1, g2, g3, -, -, g4⟩ := generate_cons q ⟨x, y⟩ post
      (fun u hu => (hsx x hx u hu).xok)
    rw [ht'] at g2
    have := Except.ok.inj g2
    subst this
    have g4 := g4 (hsx x hx _ List.mem_cons_self).not_dvd
    refine ⟨t, g1, g3, ?_⟩
    have : fld t * fld y = fld t' - fld x := by rw [← g4]; ring
    calc fld t = fld t * fld y * (fld y)⁻¹ := by rw [mul_assoc, mul_inv_cancel₀ hyne, mul_one]
      _ = _ := by rw [this]; ring
  | cons s pre ih =>
    have hsv := hpre s List.mem_cons_self
    obtain ⟨a, b, ha, hab⟩ := ih (fun u hu => hpre u (List.mem_cons_of_mem _ hu))
    refine ⟨a * (fld s.y)⁻¹, (b - fld s.x) * (fld s.y)⁻¹, mul_ne_zero ha (inv_ne_zero hsv.y_ne), ?_⟩
    intro x hx
    obtain ⟨t1, ht1, -, hf⟩ := hab x hx
    have hall : ∀ u ∈ s :: (pre ++ ⟨x, y⟩ :: post), XOk u := by
      intro u hu
      simp only [List.mem_cons, List.mem_append] at hu
      rcases hu with rfl | hu | rfl | hu
      · exact hsv.xok
      · exact (hpre u (List.mem_cons_of_mem _ hu)).xok
      · exact hx
      · exact (hpost u hu).xok
    obtain ⟨t, t2, g1, g2, g3, -, -, g4⟩ := generate_cons q s (pre ++ ⟨x, y⟩ :: post) hall
    rw [ht1] at g2
    have := Except.ok.inj g2
    subst this
    have g4 := g4 hsv.not_dvd
    refine ⟨t, g1, g3, ?_⟩
    have hyne := hsv.y_ne
    have : fld t * fld s.y = fld t1 - fld s.x := by rw [← g4]; ring
    calc fld t = fld t * fld s.y * (fld s.y)⁻¹ := by rw [mul_assoc, mul_inv_cancel₀ hyne, mul_one]
      _ = _ := by rw [this, hf]; ring

theorem applyAll_sub (shares : List Share) (t t' : BitVec 32) :
    fld (applyAll shares t') - fld (applyAll shares t) =
      (fld t' - fld t) * (shares.map (fun s => fld s.y)).prod := by
  induction shares generalizing t t' with
  | nil => simp [applyAll]
  | cons s rest ih =>
    show fld (applyAll rest (incrementalReconstruct t' s)) -
      fld (applyAll rest (incrementalReconstruct t s)) = _
    rw [ih, fld_reconstruct, fld_reconstruct, List.map_cons, List.prod_cons]
    ring

theorem applyAll_lt (shares : List Share) (t : BitVec 32) (ht : t.toNat < p) :
    (applyAll shares t).toNat < p := by
  induction shares generalizing t with
  | nil => exact ht
  | cons s rest ih => exact ih _ (reconstruct_lt t s)

theorem prod_ne_zero (shares : List Share) (hs : ∀ s ∈ shares, IsShare s) :
    (shares.map (fun s => fld s.y)).prod ≠ 0 := by
  induction shares with
  | nil => simp
  | cons s rest ih =>
    rw [List.map_cons, List.prod_cons]
    exact mul_ne_zero (hs s List.mem_cons_self).y_ne (ih (fun u hu => hs u (List.mem_cons_of_mem _ hu)))

end DPPIR.Props
