
import Verif.Spec.Sharing
import Verif.Proofs.Sharing
import Mathlib.SetTheory.Cardinal.Finite

/-!
# C01 - C04: incremental secret sharing of queries
-/

namespace DPPIR.Props
open DPPIR.Incremental DPPIR.Spec

/-- **C01.** Round trip: for every key below the prime and every outcome of the
random draws, the tally exists and passing it through all parties gives back the
key. -/
theorem C01_query_sharing_roundtrip (query : BitVec 32) (hq : query.toNat < p)
    (rng : Nat → Nat) (n : Nat) :
    ∃ tally, generateIncrementalTally query (preIncrementalSecretShares rng n) = .ok tally ∧
      applyAll (preIncrementalSecretShares rng n) tally = query := by
  by_cases hne : preIncrementalSecretShares rng n = []
  · rw [hne]; exact ⟨query, generate_nil query, rfl⟩
  · obtain ⟨t, h1, -, h2⟩ := roundtrip_aux query _ (preShares_valid rng n) hne
    refine ⟨t, h1, BitVec.eq_of_toNat_eq ?_⟩
    rw [h2, Nat.mod_eq_of_lt hq]

/-- **C01**, for arbitrary valid shares rather than freshly drawn ones. -/
theorem C01_query_sharing_roundtrip_any_shares (query : BitVec 32) (hq : query.toNat < p)
    (shares : List Share) (hs : ∀ s ∈ shares, IsShare s) :
    ∃ tally, generateIncrementalTally query shares = .ok tally ∧
      applyAll shares tally = query := by
  obtain ⟨rng, h⟩ := preShares_surjective shares hs
  rw [← h]
  exact C01_query_sharing_roundtrip query hq rng _

/-- **C01**, all keys: the parties compute the key modulo the prime. -/
theorem C01_query_sharing_mod_p (query : BitVec 32) (shares : List Share)
    (hs : ∀ s ∈ shares, IsShare s) (hne : shares ≠ []) :
    ∃ tally, generateIncrementalTally query shares = .ok tally ∧
      (applyAll shares tally).toNat = query.toNat % p := by
  obtain ⟨t, h1, -, h2⟩ := roundtrip_aux query shares hs hne
  exact ⟨t, h1, h2⟩

/-- **C01**, the boundary is sharp: for *every* key at or above the prime, every
sharing among at least one party loses the key. -/
theorem C01_fails_at_or_above_prime (query : BitVec 32) (hq : p ≤ query.toNat)
    (shares : List Share) (hs : ∀ s ∈ shares, IsShare s) (hne : shares ≠ []) :
    ∃ tally, generateIncrementalTally query shares = .ok tally ∧
      applyAll shares tally ≠ query := by
  obtain ⟨t, h1, h2⟩ := C01_query_sharing_mod_p query shares hs hne
  refine ⟨t, h1, fun h => ?_⟩
  rw [h] at h2
  have := Nat.mod_lt query.toNat (show 0 < p by decide)
  omega

/-- Non-vacuity of C01: three drawn shares that differ, and a large key. -/
example : (2147483646#32).toNat < p ∧
    preIncrementalSecretShares (fun k => 5 * k + 7) 3 =
      [⟨7, 13⟩, ⟨17, 23⟩, ⟨27, 33⟩] ∧ (∀ s ∈ [(⟨7, 13⟩ : Share), ⟨17, 23⟩, ⟨27, 33⟩], IsShare s) ∧
    p ≤ (2147483650#32).toNat := by
  refine ⟨by decide, by rfl, ?_, by decide⟩
  intro s hs
  simp only [List.mem_cons, List.not_mem_nil, or_false] at hs
  rcases hs with rfl | rfl | rfl <;> unfold IsShare <;> decide

/-- **C02.** No overflow in the extended Euclid: for all 32-bit arguments every
signed 64-bit intermediate is in range (no undefined behaviour), the
coefficients are bounded by the arguments, and they satisfy Bezout's identity. -/
theorem C02_euclid_no_overflow (a b : BitVec 32) :
    ∃ x y : Int, gcdExtended a.toNat b.toNat = .ok (x, y) ∧
      |x| ≤ max (b.toNat : Int) 1 ∧ |y| ≤ max (a.toNat : Int) 1 ∧
      a.toNat * x + b.toNat * y = (Nat.gcd a.toNat b.toNat : Int) := by
  obtain ⟨x, y, h1, h2, h3, h4⟩ := gcdExtended_spec a.toNat b.toNat a.isLt b.isLt
  exact ⟨x, y, h1, h3, h4, h2⟩

/-- **C02.** The modular inverse is one, and in range. -/
theorem C02_mod_inverse (y : BitVec 32) (hy : ¬ p ∣ y.toNat) :
    ∃ i, modInverse y.toNat incrementalPrime = .ok i ∧ i < p ∧ y.toNat * i % p = 1 := by
  obtain ⟨i, h1, h2, h3⟩ := modInverse_spec y.toNat y.isLt
  refine ⟨i, h1, h2, ?_⟩
  have := h3 hy
  have h4 : ((y.toNat * i : Nat) : ZMod incrementalPrime) = (1 : Nat) := by push_cast; exact this
  rw [ZMod.natCast_eq_natCast_iff'] at h4
  rw [p_eq, h4]; rfl

/-- **C02.** 64-bit machine arithmetic equals exact integer arithmetic when
making a tally, for every 32-bit key and all shares with `x` below the prime. -/
theorem C02_tally_no_overflow (query : BitVec 32) (shares : List Share)
    (hs : ∀ s ∈ shares, s.x.toNat < p) :
    (∃ t, generateIncrementalTallyWith machine query shares = .ok t) ∧
    generateIncrementalTallyWith machine query shares =
      generateIncrementalTallyWith exact query shares := by
  obtain ⟨t, h1, h2, -, -⟩ := tallyLoop_spec query shares hs
  unfold generateIncrementalTallyWith
  rw [h1, h2]
  exact ⟨⟨_, rfl⟩, rfl⟩

/-- **C02.** The same for reconstruction, for every 32-bit tally and share. -/
theorem C02_reconstruct_no_overflow (tally : BitVec 32) (s : Share) :
    incrementalReconstructWith machine tally s = incrementalReconstructWith exact tally s ∧
    (incrementalReconstruct tally s).toNat = (tally.toNat * s.y.toNat + s.x.toNat) % p :=
  ⟨(reconstruct_toNat tally s).2, (reconstruct_toNat tally s).1⟩

/-- Non-vacuity of C02. -/
example : (¬ p ∣ (2147483646#32).toNat) ∧
    (∀ s ∈ [(⟨2147483646#32, 0xffffffff#32⟩ : Share)], s.x.toNat < p) := by decide

/-! ### Hiding -/

/-- **C03.** Hiding: fix the key, the shares of all parties but one, the missing
party's multiplier, and any possible tally.  Exactly one additive share of the
missing party leads to that tally.  Hence, with that share uniform, the tally is
uniform on `[0,p)` whatever the key is. -/
theorem C03_query_hiding (query : BitVec 32) (before after : List Share) (y tally : BitVec 32)
    (hb : ∀ s ∈ before, IsShare s) (ha : ∀ s ∈ after, IsShare s)
    (hy : 0 < y.toNat ∧ y.toNat < p) (ht : tally.toNat < p) :
    ∃! x : BitVec 32, x.toNat < p ∧
      generateIncrementalTally query (before ++ ⟨x, y⟩ :: after) = .ok tally := by
  obtain ⟨a, b, hane, hab⟩ := tally_affine query before after y hb ha hy
  obtain ⟨x, hx, hfx⟩ := exists_word ((fld tally - b) * a⁻¹)
  refine ⟨x, ⟨hx, ?_⟩, ?_⟩
  · obtain ⟨t, h1, h2, h3⟩ := hab x hx
    rw [hfx] at h3
    have : fld t = fld tally := by
      rw [h3, mul_comm, mul_assoc, inv_mul_cancel₀ hane]; ring
    rw [h1, fld_inj h2 ht this]
  · rintro x' ⟨hx', hg⟩
    obtain ⟨t, h1, h2, h3⟩ := hab x' hx'
    rw [h1] at hg
    have := Except.ok.inj hg
    subst this
    apply fld_inj hx' hx
    rw [hfx, h3]
    field_simp
    ring

/-- **C03**, counting form: whatever the key, exactly `p - 1` of the
`p * (p - 1)` valid shares of the missing party lead to a given tally; the
number does not depend on the key. -/
theorem C03_query_hiding_count (query : BitVec 32) (before after : List Share)
    (tally : BitVec 32) (hb : ∀ s ∈ before, IsShare s) (ha : ∀ s ∈ after, IsShare s)
    (ht : tally.toNat < p) :
    Nat.card {s : Share // IsShare s ∧
      generateIncrementalTally query (before ++ s :: after) = .ok tally} = p - 1 := by
  let f : {s : Share // IsShare s ∧
      generateIncrementalTally query (before ++ s :: after) = .ok tally} → Fin (p - 1) :=
    fun s => ⟨s.1.y.toNat - 1, by have := s.2.1.2; omega⟩
  have hf : Function.Bijective f := by
    constructor
    · rintro ⟨s, hs, hg⟩ ⟨s', hs', hg'⟩ h
      have hyy : s.y = s'.y := by
        apply BitVec.eq_of_toNat_eq
        have : s.y.toNat - 1 = s'.y.toNat - 1 := congrArg Fin.val h
        have h1 := hs.2.1
        have h2 := hs'.2.1
        omega
      obtain ⟨x0, -, hu⟩ := C03_query_hiding query before after s.y tally hb ha hs.2 ht
      have e1 := hu s.x ⟨hs.1, hg⟩
      have e2 := hu s'.x ⟨hs'.1, by rw [hyy]; exact hg'⟩
      apply Subtype.ext
      cases s; cases s'
      simp only at hyy e1 e2
      subst hyy; subst e1; subst e2; rfl
    · intro k
      have hk := k.isLt
      have hp : p = 2147483647 := rfl
      have hyv : (BitVec.ofNat 32 (k.val + 1)).toNat = k.val + 1 := by
        rw [BitVec.toNat_ofNat]; apply Nat.mod_eq_of_lt; omega
      obtain ⟨x0, ⟨h1, h2⟩, -⟩ := C03_query_hiding query before after (BitVec.ofNat 32 (k.val + 1)) tally hb ha
        (by rw [hyv]; omega) ht
      refine ⟨⟨⟨x0, BitVec.ofNat 32 (k.val + 1)⟩, ⟨h1, by show 0 < (BitVec.ofNat 32 (k.val + 1)).toNat; omega, by show (BitVec.ofNat 32 (k.val + 1)).toNat < p; omega⟩, h2⟩, ?_⟩
      apply Fin.ext
      show (BitVec.ofNat 32 (k.val + 1)).toNat - 1 = k.val
      omega
  rw [Nat.card_congr (Equiv.ofBijective f hf), Nat.card_eq_fintype_card, Fintype.card_fin]

/-- **C03** in terms of the generator's draws: whatever the key, the number of parties,
and all draws but the one for party `k`'s additive share, a tally below `p` comes from
exactly one result of `randombytes_uniform(p)` for that draw, and no other share depends
on it.  So if that draw is uniform the tally is uniform given all other shares. -/
theorem C03_query_hiding_draws (query : BitVec 32) (rng : Nat → Nat) (n k : Nat) (hk : k < n) (tally : BitVec 32)
    (ht : tally.toNat < p) :
    (∃! d : Nat, d < p ∧
      generateIncrementalTally query (preIncrementalSecretShares (Function.update rng (2 * k) d) n) = .ok tally) ∧
    ∀ d, (preIncrementalSecretShares (Function.update rng (2 * k) d) n).eraseIdx k =
      (preIncrementalSecretShares rng n).eraseIdx k := by
  obtain ⟨before, after, y, h1, h2, h3, h4, h5⟩ := preShares_update_x rng n k hk
  refine ⟨?_, ?_⟩
  · obtain ⟨x, ⟨hx, hg⟩, hu⟩ := C03_query_hiding query before after y tally h2 h3 h4 ht
    refine ⟨x.toNat, ⟨hx, ?_⟩, ?_⟩
    · show generateIncrementalTally _ (preIncrementalSecretShares _ _) = _
      rw [h5 x.toNat hx, BitVec.ofNat_toNat, BitVec.setWidth_eq]
      exact hg
    · rintro d ⟨hd, hg'⟩
      rw [h5 d hd] at hg'
      have hp : p = 2147483647 := rfl
      have hdn : (BitVec.ofNat 32 d).toNat = d := by
        rw [BitVec.toNat_ofNat]; exact Nat.mod_eq_of_lt (by omega)
      have := hu (BitVec.ofNat 32 d) ⟨by rw [hdn]; exact hd, hg'⟩
      rw [← this, hdn]
  · intro d
    have e : ∀ d, (preIncrementalSecretShares (Function.update rng (2 * k) d) n).eraseIdx k = before ++ after := by
      intro d
      rw [preShares_update_mod rng n k d hk, h5 _ (Nat.mod_lt _ (by decide)), ← h1]
      simp [List.eraseIdx_append_of_length_le]
    rw [e]
    have := e (rng (2 * k))
    rw [Function.update_eq_self] at this
    exact this.symm

/-- Non-vacuity of C03: party 1 of 3 is honest. -/
example : (∀ s ∈ [(⟨7, 13⟩ : Share)], IsShare s) ∧ (∀ s ∈ [(⟨27, 33⟩ : Share)], IsShare s) ∧
    (0 < (5#32).toNat ∧ (5#32).toNat < p) ∧ (123456#32).toNat < p := by
  refine ⟨?_, ?_, by decide, by decide⟩ <;> intro s hs <;>
    simp only [List.mem_cons, List.not_mem_nil, or_false] at hs <;> subst hs <;>
    unfold IsShare <;> decide

/-! ### Non-malleability -/

/-- **C04.** Changing the tally anywhere on the way changes the reconstructed
key. -/
theorem C04_tampering_changes_key (shares : List Share) (hs : ∀ s ∈ shares, IsShare s)
    (tally tampered : BitVec 32) (h1 : tally.toNat < p) (h2 : tampered.toNat < p)
    (hne : tampered ≠ tally) :
    applyAll shares tampered ≠ applyAll shares tally := by
  intro h
  have := applyAll_sub shares tally tampered
  rw [h, sub_self] at this
  rcases mul_eq_zero.1 this.symm with h0 | h0
  · exact hne (fld_inj h2 h1 (sub_eq_zero.1 h0))
  · exact prod_ne_zero shares hs h0

/-- **C04.** An attacker that does not know one honest party's multiplier cannot
steer the displacement of the key: for a fixed tampering and fixed other shares,
every non-zero displacement `d` modulo `p` is produced by exactly one multiplier
`y` in `[1, p)`. -/
theorem C04_displacement_uniform (before after : List Share) (x : BitVec 32)
    (hb : ∀ s ∈ before, IsShare s) (ha : ∀ s ∈ after, IsShare s)
    (tally tampered : BitVec 32) (h1 : tally.toNat < p) (h2 : tampered.toNat < p)
    (hne : tampered ≠ tally) (d : Nat) (hd : 0 < d ∧ d < p) :
    ∃! y : BitVec 32, (0 < y.toNat ∧ y.toNat < p) ∧
      (applyAll (before ++ ⟨x, y⟩ :: after) tampered).toNat % p =
        ((applyAll (before ++ ⟨x, y⟩ :: after) tally).toNat + d) % p := by
  have hdz : (d : ZMod incrementalPrime) ≠ 0 := by
    intro hz
    have h := Nat.le_of_dvd hd.1 ((ZMod.natCast_eq_zero_iff _ _).1 hz)
    have := hd.2
    rw [p_eq] at this
    omega
  have hdt : fld tampered - fld tally ≠ 0 := by
    intro h; exact hne (fld_inj h2 h1 (sub_eq_zero.1 h))
  obtain ⟨c, hc⟩ : ∃ c, c = (fld tampered - fld tally) * ((before.map (fun s => fld s.y)).prod *
    (after.map (fun s => fld s.y)).prod) := ⟨_, rfl⟩
  have hcne : c ≠ 0 := by
    rw [hc]
    exact mul_ne_zero hdt (mul_ne_zero (prod_ne_zero _ hb) (prod_ne_zero _ ha))
  have key : ∀ y : BitVec 32,
      ((applyAll (before ++ ⟨x, y⟩ :: after) tampered).toNat % p =
        ((applyAll (before ++ ⟨x, y⟩ :: after) tally).toNat + d) % p) ↔ c * fld y = d := by
    intro y
    rw [p_eq, ← ZMod.natCast_eq_natCast_iff']
    have hsub := applyAll_sub (before ++ ⟨x, y⟩ :: after) tally tampered
    rw [List.map_append, List.map_cons, List.prod_append, List.prod_cons] at hsub
    have hsub' : fld (applyAll (before ++ ⟨x, y⟩ :: after) tampered) -
      fld (applyAll (before ++ ⟨x, y⟩ :: after) tally) = c * fld y := by
      rw [hsub, hc]; ring
    rw [← hsub']
    unfold fld
    push_cast
    constructor
    · intro h; rw [h]; ring
    · intro h; rw [← h]; ring
  obtain ⟨y, hy, hfy⟩ := exists_word ((d : ZMod incrementalPrime) * c⁻¹)
  refine ⟨y, ⟨⟨?_, hy⟩, ?_⟩, ?_⟩
  · rcases Nat.eq_zero_or_pos y.toNat with h0 | h0
    · exfalso
      have : fld y = 0 := by unfold fld; rw [h0]; simp
      rw [this] at hfy
      exact mul_ne_zero hdz (inv_ne_zero hcne) hfy.symm
    · exact h0
  · rw [key, hfy, mul_comm, mul_assoc, inv_mul_cancel₀ hcne, mul_one]
  · rintro y' ⟨⟨-, hy2⟩, hk⟩
    rw [key] at hk
    apply fld_inj hy2 hy
    rw [hfy, ← hk]
    field_simp

/-- **C04** in terms of the generator's draws: exactly one result of
`randombytes_uniform(p - 1)` for party `k`'s multiplier produces a given displacement. -/
theorem C04_displacement_draws (rng : Nat → Nat) (n k : Nat) (hk : k < n) (tally tampered : BitVec 32)
    (h1 : tally.toNat < p) (h2 : tampered.toNat < p) (hne : tampered ≠ tally) (d : Nat) (hd : 0 < d ∧ d < p) :
    ∃! e : Nat, e < p - 1 ∧
      (applyAll (preIncrementalSecretShares (Function.update rng (2 * k + 1) e) n) tampered).toNat % p =
        ((applyAll (preIncrementalSecretShares (Function.update rng (2 * k + 1) e) n) tally).toNat + d) % p := by
  obtain ⟨before, after, x, hb, ha, h5⟩ := preShares_update_y rng n k hk
  have hp : p = 2147483647 := rfl
  obtain ⟨y, ⟨⟨hy0, hy1⟩, hg⟩, hu⟩ := C04_displacement_uniform before after x hb ha tally tampered h1 h2 hne d hd
  refine ⟨y.toNat - 1, ⟨by omega, ?_⟩, ?_⟩
  · rw [h5 _ (by omega), Nat.sub_add_cancel hy0, BitVec.ofNat_toNat, BitVec.setWidth_eq]
    exact hg
  · rintro e ⟨he, hg'⟩
    rw [h5 e he] at hg'
    have hen : (BitVec.ofNat 32 (e + 1)).toNat = e + 1 := by
      rw [BitVec.toNat_ofNat]; exact Nat.mod_eq_of_lt (by omega)
    have := hu (BitVec.ofNat 32 (e + 1)) ⟨⟨by omega, by omega⟩, hg'⟩
    rw [← this, hen]
    rfl

/-- Non-vacuity of C04. -/
example : (77#32) ≠ (78#32) ∧ (77#32).toNat < p ∧ (78#32).toNat < p ∧ 0 < 5 ∧ 5 < p ∧
    (∀ s ∈ [(⟨7, 13⟩ : Share)], IsShare s) := by
  refine ⟨by decide, by decide, by decide, by decide, by decide, ?_⟩
  intro s hs
  simp only [List.mem_cons, List.not_mem_nil, or_false] at hs
  subst hs; unfold IsShare; decide

end DPPIR.Props
