import Verif.Model.Address
import Verif.Spec.Address

/-!
# `inet_pton` accepts exactly the dotted decimal texts
-/

namespace DPPIR.Connect

theorem Pton.run_append (l r : List Byte) : ∀ p : Pton, p.run (l ++ r) = (p.run l).bind (fun q => q.run r) := by
  induction l with
  | nil => intro p; rfl
  | cons b l ih =>
    intro p
    show (match p.step b with | none => none | some p => Pton.run p (l ++ r)) = _
    simp only [Pton.run]
    cases p.step b with
    | none => rfl
    | some q => exact ih q

theorem digit_toNat {d : Nat} (h : d < 10) : (BitVec.ofNat 8 (48 + d)).toNat = 48 + d := by
  rw [BitVec.toNat_ofNat]; omega

theorem Pton.step_digit (p : Pton) {d : Nat} (h : d < 10) : p.step (BitVec.ofNat 8 (48 + d)) =
    if p.sawDigit = true ∧ p.cur = 0 then none
    else if p.cur * 10 + d > 255 then none
    else if p.sawDigit = true then some { p with cur := p.cur * 10 + d }
    else if p.octets + 1 > 4 then none
    else some { p with cur := p.cur * 10 + d, sawDigit := true, octets := p.octets + 1 } := by
  unfold Pton.step
  rw [digit_toNat h, if_pos (by omega), Nat.add_sub_cancel_left]

theorem Pton.run_decimal (n : Nat) (hn : n < 256) (before : List Nat) (k : Nat) (hk : k < 4) :
    Pton.run ⟨before, 0, false, k⟩ (decimal n) = some ⟨before, n, true, k + 1⟩ := by
  have hk' : ¬ k + 1 > 4 := by omega
  unfold decimal
  split
  · simp only [Pton.run, Pton.step_digit _ (show n < 10 by assumption)]
    simp [hk', show ¬ n > 255 by omega]
  · split
    · simp only [Pton.run, Pton.step_digit _ (show n / 10 < 10 by omega), Pton.step_digit _ (show n % 10 < 10 by omega)]
      simp only [Bool.false_eq_true, false_and, if_false, Nat.zero_mul, Nat.zero_add, hk', show ¬ n / 10 > 255 by omega]
      simp only [true_and, if_true, show ¬ n / 10 = 0 by omega, if_false, show ¬ n / 10 * 10 + n % 10 > 255 by omega,
        show n / 10 * 10 + n % 10 = n by omega, show ¬ n > 255 by omega]
    · simp only [Pton.run, Pton.step_digit _ (show n / 100 < 10 by omega), Pton.step_digit _ (show n / 10 % 10 < 10 by omega),
        Pton.step_digit _ (show n % 10 < 10 by omega)]
      simp only [Bool.false_eq_true, false_and, if_false, Nat.zero_mul, Nat.zero_add, hk', show ¬ n / 100 > 255 by omega]
      simp only [true_and, if_true, show ¬ n / 100 = 0 by omega, if_false, show ¬ n / 100 * 10 + n / 10 % 10 > 255 by omega,
        show n / 100 * 10 + n / 10 % 10 = n / 10 by omega, show ¬ n / 10 > 255 by omega, show ¬ n / 10 = 0 by omega, show ¬ n / 10 * 10 + n % 10 > 255 by omega,
        show n / 10 * 10 + n % 10 = n by omega, show ¬ n > 255 by omega]

theorem Pton.step_dot (before : List Nat) (n k : Nat) (hk : k < 4) :
    Pton.run ⟨before, n, true, k⟩ [46] = some ⟨before ++ [n], 0, false, k⟩ := by
  simp [Pton.run, Pton.step, show ¬ k = 4 by omega]

/-- Every dotted text is accepted. -/
theorem inetPton_dotted {text : List Byte} {n : BitVec 32} (h : Dotted text n) (junk : BitVec 32) : inetPton junk text = (1, n) := by
  obtain ⟨a, b, c, d, ha, hb, hc, hd, rfl, hn⟩ := h
  have : Pton.run {} (decimal a ++ [46] ++ decimal b ++ [46] ++ decimal c ++ [46] ++ decimal d) = some ⟨[a, b, c], d, true, 4⟩ := by
    simp only [Pton.run_append, Pton.run_decimal _ ha _ 0 (by omega), Option.bind_some, Pton.step_dot _ _ _ (show 0 + 1 < 4 by omega),
      Pton.run_decimal _ hb _ (0 + 1) (by omega), Pton.step_dot _ _ _ (show 0 + 1 + 1 < 4 by omega),
      Pton.run_decimal _ hc _ (0 + 1 + 1) (by omega), Pton.step_dot _ _ _ (show 0 + 1 + 1 + 1 < 4 by omega),
      Pton.run_decimal _ hd _ (0 + 1 + 1 + 1) (by omega)]
    rfl
  unfold inetPton
  rw [this]
  simp only [Nat.lt_irrefl, if_false, Prod.mk.injEq, true_and]
  apply BitVec.eq_of_toNat_eq
  rw [hn]
  simp only [address, List.cons_append, List.nil_append, List.foldl_cons, List.foldl_nil, BitVec.toNat_ofNat]
  omega

/-- The text read so far. -/
def Pton.text (p : Pton) : List Byte := p.before.flatMap (fun n => decimal n ++ [46]) ++ (if p.sawDigit then decimal p.cur else [])

structure Pton.Ok (p : Pton) : Prop where
  small : ∀ n ∈ p.before, n < 256
  cur : p.cur < 256
  fresh : p.sawDigit = false → p.cur = 0
  count : p.octets = p.before.length + (if p.sawDigit then 1 else 0)
  most : p.before.length ≤ 3

theorem decimal_snoc {n d : Nat} (hd : d < 10) (h0 : n ≠ 0) (hn : n * 10 + d < 256) :
    decimal (n * 10 + d) = decimal n ++ [BitVec.ofNat 8 (48 + d)] := by
  unfold decimal
  rw [if_neg (by omega)]
  by_cases h : n < 10
  · rw [if_pos (by omega), if_pos h, show (n * 10 + d) / 10 = n by omega, show (n * 10 + d) % 10 = d by omega]
    rfl
  · rw [if_neg (by omega), if_neg h, if_pos (by omega), show (n * 10 + d) / 100 = n / 10 by omega,
      show (n * 10 + d) / 10 % 10 = n % 10 by omega, show (n * 10 + d) % 10 = d by omega]
    rfl

theorem Pton.step_ok {p q : Pton} {b : Byte} (hp : p.Ok) (h : p.step b = some q) : q.Ok ∧ q.text = p.text ++ [b] := by
  unfold Pton.step at h
  split at h
  · rename_i hb
    have hb' : BitVec.ofNat 8 (48 + (b.toNat - 48)) = b := by
      apply BitVec.eq_of_toNat_eq
      rw [BitVec.toNat_ofNat]
      omega
    have hd : b.toNat - 48 < 10 := by omega
    generalize b.toNat - 48 = d at h hb' hd
    split at h
    · cases h
    · rename_i hz
      split at h
      · cases h
      · rename_i hbig
        split at h
        · rename_i hs
          obtain rfl := Option.some.inj h
          have h0 : p.cur ≠ 0 := fun e => hz ⟨hs, e⟩
          refine ⟨⟨hp.small, by show p.cur * 10 + d < 256; omega, fun e => absurd (hs.symm.trans e) (by decide), hp.count, hp.most⟩, ?_⟩
          simp only [Pton.text, hs, if_true]
          rw [decimal_snoc hd h0 (by omega), hb', List.append_assoc]
        · rename_i hs
          have hs' : p.sawDigit = false := by simpa using hs
          split at h
          · cases h
          · rename_i h4
            obtain rfl := Option.some.inj h
            have h0 := hp.fresh hs'
            have hc := hp.count
            rw [hs'] at hc
            simp only [Bool.false_eq_true, if_false, Nat.add_zero] at hc
            refine ⟨⟨hp.small, by show p.cur * 10 + d < 256; omega, fun e => (by cases e), ?_, hp.most⟩, ?_⟩
            · show p.octets + 1 = p.before.length + 1
              omega
            · simp only [Pton.text, hs', h0, Bool.false_eq_true, if_true, if_false, Nat.zero_mul, Nat.zero_add, List.append_nil]
              unfold decimal
              rw [if_pos hd, hb']
  · split at h
    · rename_i hb
      split at h
      · cases h
      · rename_i h4
        obtain rfl := Option.some.inj h
        have hc := hp.count
        rw [hb.2] at hc
        simp only [if_true] at hc
        have hm := hp.most
        refine ⟨⟨?_, by show 0 < 256; omega, fun _ => rfl, ?_, ?_⟩, ?_⟩
        · intro n hn
          rcases List.mem_append.1 hn with hn | hn
          · exact hp.small n hn
          · rw [List.mem_singleton.1 hn]; exact hp.cur
        · show p.octets = (p.before ++ [p.cur]).length + 0
          simp [hc]
        · show (p.before ++ [p.cur]).length ≤ 3
          simp only [List.length_append, List.length_cons, List.length_nil]
          omega
        · have hb' : b = 46 := BitVec.eq_of_toNat_eq (by rw [hb.1]; rfl)
          simp only [Pton.text, hb.2, if_true, Bool.false_eq_true, if_false, List.append_nil, List.flatMap_append, List.flatMap_cons, List.flatMap_nil, hb']
          simp
    · cases h

theorem Pton.run_ok (l : List Byte) : ∀ {p q : Pton}, p.Ok → p.run l = some q → q.Ok ∧ q.text = p.text ++ l := by
  induction l with
  | nil =>
    intro p q hp h
    obtain rfl := Option.some.inj h
    exact ⟨hp, by simp⟩
  | cons b l ih =>
    intro p q hp h
    simp only [Pton.run] at h
    cases hs : p.step b with
    | none => rw [hs] at h; cases h
    | some r =>
      rw [hs] at h
      obtain ⟨h1, h2⟩ := Pton.step_ok hp hs
      obtain ⟨h3, h4⟩ := ih h1 h
      exact ⟨h3, by rw [h4, h2]; simp⟩

/-- Only dotted texts are accepted. -/
theorem inetPton_cases (junk : BitVec 32) (text : List Byte) :
    inetPton junk text = (0, junk) ∧ (∀ n, ¬ Dotted text n) ∨ ∃ n, Dotted text n ∧ inetPton junk text = (1, n) := by
  by_cases hex : ∃ n, Dotted text n
  · obtain ⟨n, hn⟩ := hex
    exact Or.inr ⟨n, hn, inetPton_dotted hn junk⟩
  · left
    have hno : ∀ n, ¬ Dotted text n := fun n hn => hex ⟨n, hn⟩
    refine ⟨?_, hno⟩
    unfold inetPton
    cases hr : Pton.run {} text with
    | none => rfl
    | some p =>
      have h0 : Pton.Ok {} := ⟨by simp, by decide, fun _ => rfl, rfl, by decide⟩
      obtain ⟨h1, h2⟩ := Pton.run_ok text h0 hr
      dsimp only
      split
      · rfl
      · rename_i h4
        exfalso
        have hc := h1.count
        have hm := h1.most
        have hs : p.sawDigit = true := by
          by_contra hs
          rw [Bool.not_eq_true] at hs
          rw [hs] at hc
          simp only [Bool.false_eq_true, if_false, Nat.add_zero] at hc
          omega
        rw [hs, if_pos rfl] at hc
        have hl : p.before.length = 3 := by omega
        obtain ⟨a, b, c, habc⟩ := List.length_eq_three.1 hl
        have hsm := h1.small
        rw [habc] at hsm
        refine hno (BitVec.ofNat 32 (a * 2 ^ 24 + b * 2 ^ 16 + c * 2 ^ 8 + p.cur))
          ⟨a, b, c, p.cur, hsm a (by simp), hsm b (by simp), hsm c (by simp), h1.cur, ?_, ?_⟩
        · have : text = p.text := by rw [h2]; simp [Pton.text]
          rw [this]
          simp only [Pton.text, habc, hs, if_true]
          simp
        · have := hsm a (by simp)
          have := hsm b (by simp)
          have := hsm c (by simp)
          have := h1.cur
          rw [BitVec.toNat_ofNat]
          omega

end DPPIR.Connect
