import Verif.Model.GenText
import Verif.Spec.GenText
import Mathlib.Data.List.TakeWhile

/-!
# The generator's conversions read numerals
-/

namespace DPPIR.Config

theorem isSpace_iff (b : Byte) : isSpace b = true ↔ Blank b := by
  simp [isSpace, Blank]
  omega

theorem isDigit_iff (b : Byte) : isDigit b = true ↔ 48 ≤ b.toNat ∧ b.toNat ≤ 57 := by simp [isDigit]

theorem digit_byte {d : Nat} (h : d < 10) : (BitVec.ofNat 8 (48 + d)).toNat = 48 + d := by
  rw [BitVec.toNat_ofNat]; omega

theorem valueOf_append (ds : List Byte) (b : Byte) : valueOf (ds ++ [b]) = valueOf ds * 10 + (b.toNat - 48) := by
  simp [valueOf]

theorem valueOf_map (ds : List Nat) (h : ∀ d ∈ ds, d < 10) :
    valueOf (ds.map (fun d => BitVec.ofNat 8 (48 + d))) = Nat.ofDigits 10 ds.reverse := by
  induction ds using List.reverseRecOn with
  | nil => rfl
  | append_singleton l a ih =>
    rw [List.map_append, List.map_singleton, valueOf_append, ih (fun d hd => h d (by simp [hd])), List.reverse_append,
      List.reverse_singleton, List.singleton_append, Nat.ofDigits_cons, digit_byte (h a (by simp))]
    omega

theorem numeral_iff (t : List Byte) (n : Nat) : Numeral t n ↔ t ≠ [] ∧ (∀ b ∈ t, isDigit b = true) ∧ n = valueOf t := by
  constructor
  · rintro ⟨ds, h1, h2, rfl, rfl⟩
    refine ⟨by simpa using h1, ?_, (valueOf_map ds h2).symm⟩
    intro b hb
    obtain ⟨d, hd, rfl⟩ := List.mem_map.mp hb
    have := h2 d hd
    rw [isDigit_iff, digit_byte this]
    omega
  · rintro ⟨h1, h2, rfl⟩
    have e : t = (t.map (fun b => b.toNat - 48)).map (fun d => BitVec.ofNat 8 (48 + d)) := by
      rw [List.map_map]
      conv_lhs => rw [← List.map_id t]
      refine List.map_congr_left fun b hb => ?_
      have := (isDigit_iff b).mp (h2 b hb)
      apply BitVec.eq_of_toNat_eq
      simp only [id, Function.comp, BitVec.toNat_ofNat]
      omega
    have hlt : ∀ d ∈ t.map (fun b => b.toNat - 48), d < 10 := by
      intro d hd
      obtain ⟨b, hb, rfl⟩ := List.mem_map.mp hd
      have := (isDigit_iff b).mp (h2 b hb)
      omega
    have hne : t.map (fun b => b.toNat - 48) ≠ [] := fun h => h1 (List.map_eq_nil_iff.mp h)
    generalize t.map (fun b => b.toNat - 48) = ds at e hlt hne
    refine ⟨ds, hne, hlt, e, ?_⟩
    rw [← valueOf_map _ hlt, ← e]

theorem noDigitNext_iff (t : List Byte) : NoDigitNext t ↔ t.takeWhile isDigit = [] := by
  cases t with
  | nil => simp [NoDigitNext]
  | cons b u =>
    simp only [NoDigitNext, List.cons.injEq, List.takeWhile_cons, ← isDigit_iff]
    constructor
    · intro h
      have := h b u ⟨rfl, rfl⟩
      simp [this]
    · rintro h _ _ ⟨rfl, rfl⟩ hb
      simp [hb] at h

theorem takeWhile_all {p : Byte → Bool} (l r : List Byte) (hl : ∀ b ∈ l, p b = true) (hr : r.takeWhile p = []) :
    (l ++ r).takeWhile p = l ∧ (l ++ r).dropWhile p = r := by
  have hd : r.dropWhile p = r := by
    have := List.takeWhile_append_dropWhile (p := p) (l := r)
    rwa [hr, List.nil_append] at this
  exact ⟨by rw [List.takeWhile_append_of_pos hl, hr, List.append_nil], by rw [List.dropWhile_append_of_pos hl, hd]⟩

theorem signOf_cons (b : Byte) (l : List Byte) :
    signOf (b :: l) = if b = 43 then (false, l) else if b = 45 then (true, l) else (false, b :: l) := rfl

/-- Reading a sign and digits. -/
theorem sign_digits {num rest : List Byte} {n : Int} (h : SignedNumeral num n) (hr : NoDigitNext rest) :
    (signOf (num ++ rest)).2.takeWhile isDigit ≠ [] ∧ (signOf (num ++ rest)).2.dropWhile isDigit = rest ∧
      signed (signOf (num ++ rest)).1 (valueOf ((signOf (num ++ rest)).2.takeWhile isDigit)) = n := by
  rw [noDigitNext_iff] at hr
  rcases h with ⟨m, hm, rfl⟩ | ⟨u, m, rfl, hm, rfl⟩ | ⟨u, m, rfl, hm, rfl⟩ <;> rw [numeral_iff] at hm <;> obtain ⟨h1, h2, rfl⟩ := hm
  · have e : signOf (num ++ rest) = (false, num ++ rest) := by
      cases num with
      | nil => exact absurd rfl h1
      | cons b u =>
        have := (isDigit_iff b).mp (h2 b (by simp))
        have n1 : b ≠ 43 := by rintro rfl; simp at this
        have n2 : b ≠ 45 := by rintro rfl; simp at this
        rw [List.cons_append, signOf_cons, if_neg n1, if_neg n2]
    obtain ⟨a, b⟩ := takeWhile_all num rest h2 hr
    rw [e]
    dsimp only
    rw [a, b]
    exact ⟨h1, rfl, by simp [signed]⟩
  · obtain ⟨a, b⟩ := takeWhile_all u rest h2 hr
    rw [List.cons_append, signOf_cons, if_pos rfl]
    dsimp only
    rw [a, b]
    exact ⟨h1, rfl, by simp [signed]⟩
  · obtain ⟨a, b⟩ := takeWhile_all u rest h2 hr
    rw [List.cons_append, signOf_cons, if_neg (by decide), if_pos rfl]
    dsimp only
    rw [a, b]
    exact ⟨h1, rfl, by simp [signed]⟩

/-- Where digits were read, a numeral was. -/
theorem sign_digits_conv (t : List Byte) (h : (signOf t).2.takeWhile isDigit ≠ []) :
    ∃ num, t = num ++ (signOf t).2.dropWhile isDigit ∧
      SignedNumeral num (signed (signOf t).1 (valueOf ((signOf t).2.takeWhile isDigit))) ∧
      NoDigitNext ((signOf t).2.dropWhile isDigit) := by
  have hn : NoDigitNext ((signOf t).2.dropWhile isDigit) := by
    rw [noDigitNext_iff]
    generalize (signOf t).2 = l
    induction l with
    | nil => rfl
    | cons b l ih =>
      rw [List.dropWhile_cons]
      split
      · exact ih
      · rename_i hb
        rw [List.takeWhile_cons, if_neg hb]
  have hnum : Numeral ((signOf t).2.takeWhile isDigit) (valueOf ((signOf t).2.takeWhile isDigit)) :=
    (numeral_iff _ _).mpr ⟨h, fun b hb => List.mem_takeWhile_imp hb, rfl⟩
  have hsplit := List.takeWhile_append_dropWhile (p := isDigit) (l := (signOf t).2)
  cases t with
  | nil => simp [signOf] at h
  | cons b l =>
    by_cases hb : b = 43
    · subst hb
      rw [signOf_cons, if_pos rfl] at *
      exact ⟨43 :: l.takeWhile isDigit, by rw [List.cons_append, hsplit], Or.inr (Or.inl ⟨_, _, rfl, hnum, rfl⟩), hn⟩
    · by_cases hb' : b = 45
      · subst hb'
        rw [signOf_cons, if_neg hb, if_pos rfl] at *
        exact ⟨45 :: l.takeWhile isDigit, by rw [List.cons_append, hsplit], Or.inr (Or.inr ⟨_, _, rfl, hnum, rfl⟩), hn⟩
      · rw [signOf_cons, if_neg hb, if_neg hb'] at *
        exact ⟨(b :: l).takeWhile isDigit, hsplit.symm, Or.inl ⟨_, hnum, rfl⟩, hn⟩

/-- A signed numeral starts with no blank. -/
theorem signedNumeral_head {num : List Byte} {n : Int} (h : SignedNumeral num n) :
    num ≠ [] ∧ ∀ rest, (num ++ rest).takeWhile isSpace = [] := by
  have key : ∀ (b : Byte) (u : List Byte), isSpace b = false → num = b :: u → num ≠ [] ∧ ∀ rest, (num ++ rest).takeWhile isSpace = [] := by
    rintro b u hb rfl
    exact ⟨by simp, fun rest => by simp [hb]⟩
  rcases h with ⟨m, hm, -⟩ | ⟨u, m, rfl, -, -⟩ | ⟨u, m, rfl, -, -⟩
  · rw [numeral_iff] at hm
    cases num with
    | nil => exact absurd rfl hm.1
    | cons b u =>
      refine key b u ?_ rfl
      have := (isDigit_iff b).mp (hm.2.1 b (by simp))
      rw [← Bool.not_eq_true, isSpace_iff]
      simp [Blank]
      omega
  · exact key 43 u (by decide) rfl
  · exact key 45 u (by decide) rfl

theorem skip_blanks {ws num rest : List Byte} {n : Int} (hw : ∀ b ∈ ws, Blank b) (h : SignedNumeral num n) :
    (ws ++ num ++ rest).dropWhile isSpace = num ++ rest := by
  rw [List.append_assoc]
  exact (takeWhile_all ws (num ++ rest) (fun b hb => (isSpace_iff b).mpr (hw b hb)) ((signedNumeral_head h).2 rest)).2

theorem stoi_eq {t : List Byte} {n : Int} {rest : List Byte} (h : StartsWith t n rest) :
    stoi t = if -2 ^ 31 ≤ n ∧ n < 2 ^ 31 then .ok n else .error .exception := by
  obtain ⟨ws, num, rfl, hw, hn, hr⟩ := h
  obtain ⟨h1, -, h3⟩ := sign_digits hn hr
  unfold stoi
  simp only [skip_blanks hw hn]
  rw [if_neg h1, h3]

theorem stoi_reads {t : List Byte} (h : (signOf (t.dropWhile isSpace)).2.takeWhile isDigit ≠ []) :
    ∃ n rest, StartsWith t n rest := by
  obtain ⟨num, h1, h2, h3⟩ := sign_digits_conv _ h
  refine ⟨_, _, t.takeWhile isSpace, num, ?_, fun b hb => (isSpace_iff b).mp (List.mem_takeWhile_imp hb), h2, h3⟩
  rw [List.append_assoc, ← h1, List.takeWhile_append_dropWhile]

/-! ## The terminal -/

theorem extract_num {α : Type} (scan : List Byte → (α × Bool) × List Byte) (v : α) {ws num rest : List Byte} {n : Int}
    (hw : ∀ b ∈ ws, Blank b) (hn : SignedNumeral num n) (hs : scan (num ++ rest) = ((v, true), rest)) :
    Cin.extract scan ⟨ws ++ num ++ rest, true⟩ = (some v, ⟨rest, !rest.isEmpty⟩) := by
  unfold Cin.extract
  have hne : num ++ rest ≠ [] := by
    have := (signedNumeral_head hn).1
    simp [this]
  simp only [skip_blanks hw hn, Bool.true_eq_false, if_false, hne, hs, Bool.true_and]

theorem scanInt_num {num rest : List Byte} {n : Int} (hn : SignedNumeral num n) (hr : NoDigitNext rest) (h1 : -2 ^ 31 ≤ n)
    (h2 : n < 2 ^ 31) : scanInt (num ++ rest) = ((n, true), rest) := by
  obtain ⟨a, b, c⟩ := sign_digits hn hr
  unfold scanInt
  simp only [a, if_false, b, c]
  rw [if_neg (by omega), if_neg (by omega)]

theorem scanIndex_num {num rest : List Byte} {n : Nat} (hn : Numeral num n) (hr : NoDigitNext rest) (h : n < 2 ^ 32) :
    scanIndex (num ++ rest) = ((BitVec.ofNat 32 n, true), rest) := by
  obtain ⟨a, b, c⟩ := sign_digits (Or.inl ⟨n, hn, rfl⟩) hr
  have hv : valueOf ((signOf (num ++ rest)).2.takeWhile isDigit) = n := by
    unfold signed at c
    split at c <;> omega
  unfold scanIndex
  simp only [a, if_false, b, c]
  rw [if_neg (by omega)]
  simp

theorem floatLen_digits (l r : List Byte) (h : Digits l) (dg dec sci sg : Bool) :
    floatLen dg dec sci sg (l ++ r) = l.length + floatLen true dec sci false r := by
  obtain ⟨hne, h⟩ := h
  induction l generalizing dg sg with
  | nil => exact absurd rfl hne
  | cons b u ih =>
    have hb := (isDigit_iff b).mpr (h b (by simp))
    rw [List.cons_append, floatLen, if_pos hb, List.length_cons]
    cases u with
    | nil => simp; omega
    | cons b' u' =>
      rw [ih _ _ (by simp) (fun x hx => h x (by simp [hx]))]
      omega

theorem floatLen_stop (r : List Byte) (h : ∀ b u, r = b :: u → Blank b) (dg dec sci sg : Bool) : floatLen dg dec sci sg r = 0 := by
  cases r with
  | nil => rfl
  | cons b u =>
    have hb := h b u rfl
    have h1 : isDigit b ≠ true := by
      rw [Ne, isDigit_iff]
      simp [Blank] at hb
      omega
    have ne : ∀ c : Byte, c.toNat ∉ [9, 10, 11, 12, 13, 32] → b ≠ c := by
      rintro c hc rfl
      exact hc hb
    rw [floatLen, if_neg h1, if_neg, if_neg, if_neg]
    · rintro ⟨h | h, -⟩
      · exact ne 101 (by decide) h
      · exact ne 69 (by decide) h
    · rintro ⟨h, -⟩
      exact ne 46 (by decide) h
    · rintro ⟨h | h, -⟩
      · exact ne 43 (by decide) h
      · exact ne 45 (by decide) h

theorem floatLen_fraction (t r : List Byte) (ht : Fraction t) (hr : ∀ b u, r = b :: u → Blank b) :
    floatLen false false false true (t ++ r) = t.length := by
  obtain ⟨whole, point, power, rfl, hw, hp, he⟩ := ht
  have hpow : ∀ dec, floatLen true dec false false (power ++ r) = power.length := by
    intro dec
    rcases he with rfl | ⟨u, rfl, hu⟩ | ⟨s, u, rfl, hs, hu⟩
    · simpa using floatLen_stop r hr true dec false false
    · rw [List.cons_append, floatLen, if_neg (by decide), if_neg (by decide), if_neg (by decide +revert), if_pos (by decide), floatLen_digits u r hu,
        floatLen_stop r hr]
      rfl
    · have hd : isDigit s ≠ true := by rcases hs with rfl | rfl <;> decide
      rw [List.cons_append, floatLen, if_neg (by decide), if_neg (by decide), if_neg (by decide +revert), if_pos (by decide), List.cons_append,
        floatLen, if_neg hd, if_pos ⟨hs, rfl⟩, floatLen_digits u r hu, floatLen_stop r hr]
      rfl
  rw [List.append_assoc, List.append_assoc, floatLen_digits whole _ hw]
  rcases hp with rfl | ⟨u, rfl, hu⟩
  · rw [List.nil_append, hpow]
    simp
  · rw [List.cons_append, floatLen, if_neg (by decide), if_neg (by decide), if_pos (by decide), floatLen_digits u _ hu, hpow]
    simp

theorem fraction_head {t : List Byte} (ht : Fraction t) : t ≠ [] ∧ ∀ rest, (t ++ rest).takeWhile isSpace = [] := by
  obtain ⟨whole, point, power, rfl, ⟨hne, hd⟩, -⟩ := ht
  cases whole with
  | nil => exact absurd rfl hne
  | cons b u =>
    have hb := hd b (by simp)
    have : isSpace b = false := by
      rw [← Bool.not_eq_true, isSpace_iff]
      simp [Blank]
      omega
    exact ⟨by simp, fun rest => by simp [this]⟩

theorem extract_fraction (value : List Byte → Option (BitVec 64)) (v : BitVec 64) {ws t rest : List Byte} (hw : ∀ b ∈ ws, Blank b)
    (ht : Fraction t) (hr : ∀ b u, rest = b :: u → Blank b) (hv : value t = some v) :
    Cin.extract (scanDouble value) ⟨ws ++ t ++ rest, true⟩ = (some v, ⟨rest, !rest.isEmpty⟩) := by
  have hd : (ws ++ t ++ rest).dropWhile isSpace = t ++ rest := by
    rw [List.append_assoc]
    exact (takeWhile_all ws (t ++ rest) (fun b hb => (isSpace_iff b).mpr (hw b hb)) ((fraction_head ht).2 rest)).2
  have hs : scanDouble value (t ++ rest) = ((v, true), rest) := by
    unfold scanDouble
    simp only [floatLen_fraction t rest ht hr, List.take_left', List.drop_left', hv]
  unfold Cin.extract
  have hne : t ++ rest ≠ [] := by
    have := (fraction_head ht).1
    simp [this]
  simp only [hd, Bool.true_eq_false, if_false, hne, hs, Bool.true_and]

theorem getline_line (l rest : List Byte) (h : Line l) : Cin.getline ⟨l ++ [10] ++ rest, true⟩ = (l, ⟨rest, true⟩) := by
  have hl : ∀ b ∈ l, (fun b : Byte => decide (b ≠ 10)) b = true := by
    intro b hb
    have : b ≠ 10 := by rintro rfl; exact h hb
    simpa using this
  obtain ⟨a, b⟩ := takeWhile_all (p := fun b : Byte => decide (b ≠ 10)) l ([10] ++ rest) hl (by simp)
  unfold Cin.getline
  rw [List.append_assoc]
  simp only [Bool.true_eq_false, if_false, a, b]
  simp

theorem line_bad (k : Nat) (t : List Byte) : Cin.line ⟨t, false⟩ k = [] := by
  induction k with
  | zero => rfl
  | succ k ih => exact ih

theorem line_eq (lines : List (List Byte)) (h : ∀ l ∈ lines, Line l) (k : Nat) :
    Cin.line ⟨(lines.map (· ++ [10])).flatten, true⟩ k = lines.getD k [] := by
  induction lines generalizing k with
  | nil =>
    cases k with
    | zero => rfl
    | succ k => exact line_bad k []
  | cons l ls ih =>
    have := getline_line l ((ls.map (· ++ [10])).flatten) (h l (by simp))
    rw [List.map_cons, List.flatten_cons]
    cases k with
    | zero => rw [Cin.line, this]; rfl
    | succ k =>
      rw [Cin.line, this, ih (fun l hl => h l (by simp [hl]))]
      rfl

theorem blank_head {w rest : List Byte} (hne : w ≠ []) (hw : ∀ b ∈ w, Blank b) : ∀ b u, w ++ rest = b :: u → Blank b := by
  intro b u h
  cases w with
  | nil => exact absurd rfl hne
  | cons c w =>
    cases h
    exact hw _ (by simp)

theorem blank_noDigit {r : List Byte} (h : ∀ b u, r = b :: u → Blank b) : NoDigitNext r := by
  intro b u e hd
  have := h b u e
  simp [Blank] at this
  omega

/-- What is typed in as asked for is read as meant. -/
theorem interactiveText_eq (keys : Nat → (Fin keySize → Byte) × (Fin keySize → Byte)) (value : List Byte → Option (BitVec 64))
    {typed : List Byte} {n P S : Nat} {e d : List Byte} {lines : List (List Byte)} (h : TypedIn typed n P S e d lines)
    (hn : n < 2 ^ 32) (hP : P < 256) (hS : S < 256) {ve vd : BitVec 64} (he : value e = some ve) (hd : value d = some vd) :
    interactiveText keys value typed =
      interactive keys (BitVec.ofNat 32 n) ve vd P S (fun i j => lines.getD (i * S + j) []) := by
  obtain ⟨w1, w2, w3, w4, w5, w6, tn, tP, tS, rfl, hw, n2, n3, n4, n5, hw6, h1, h2, h3, h4, h5, hl⟩ := h
  have b := fun w hm => hw w hm
  have q6 := blank_head (rest := (lines.map (· ++ [10])).flatten) (w := w6 ++ [10]) (by simp) (by
    intro c hc
    rcases List.mem_append.mp hc with hc | hc
    · exact b w6 (by simp) c hc
    · rw [List.mem_singleton] at hc; subst hc; simp [Blank])
  generalize hL : (lines.map (· ++ [10])).flatten = L at q6
  have sn : ∀ {t : List Byte} {m : Nat}, Numeral t m → SignedNumeral t m := fun h => Or.inl ⟨_, h, rfl⟩
  have q5 := blank_head (rest := tS ++ (w6 ++ [10] ++ L)) n5 (b w5 (by simp))
  have q4 := blank_head (rest := tP ++ (w5 ++ (tS ++ (w6 ++ [10] ++ L)))) n4 (b w4 (by simp))
  have q3 := blank_head (rest := d ++ (w4 ++ (tP ++ (w5 ++ (tS ++ (w6 ++ [10] ++ L)))))) n3 (b w3 (by simp))
  have q2 := blank_head (rest := e ++ (w3 ++ (d ++ (w4 ++ (tP ++ (w5 ++ (tS ++ (w6 ++ [10] ++ L)))))))) n2 (b w2 (by simp))
  have x1 := extract_num scanIndex _ (b w1 (by simp)) (sn h1) (scanIndex_num h1 (blank_noDigit q2) hn)
  have x2 := extract_fraction value ve (b w2 (by simp)) h4 q3 he
  have x3 := extract_fraction value vd (b w3 (by simp)) h5 q4 hd
  have x4 := extract_num scanInt _ (b w4 (by simp)) (sn h2) (scanInt_num (sn h2) (blank_noDigit q5) (by omega) (by omega))
  have x5 := extract_num scanInt _ (b w5 (by simp)) (sn h3) (scanInt_num (sn h3) (blank_noDigit q6) (by omega) (by omega))
  have x6 := getline_line w6 L hw6
  have g : ∀ {w r : List Byte}, w ≠ [] → (!(w ++ r).isEmpty) = true := by
    intro w r hw
    cases w with
    | nil => exact absurd rfl hw
    | cons => rfl
  simp only [List.append_assoc] at x1 x2 x3 x4 x5 x6 ⊢
  rw [g n2] at x1
  rw [g n3] at x2
  rw [g n4] at x3
  rw [g n5] at x4
  have g6 : (!(w6 ++ ([10] ++ L)).isEmpty) = true := by cases w6 <;> rfl
  rw [g6] at x5
  unfold interactiveText
  simp only [x1, x2, x3, x4, x5, x6]
  subst hL
  have hS' : (BitVec.ofInt 8 (S : Int)).toNat = S := by simp; omega
  simp only [line_eq lines hl, assigned]
  show interactive keys _ ve vd P S (fun i j => lines.getD (i * (BitVec.ofInt 8 (S : Int)).toNat + j) []) = _
  simp only [hS']

/-- The generator given numbers in decimal. -/
theorem genMain_decimal (keys : Nat → (Fin keySize → Byte) × (Fin keySize → Byte)) (value : List Byte → Option (BitVec 64))
    {file tn te td tP tS : List Byte} {ips : List (List Byte)} (typed : List Byte) {n P S : Nat} {e d : BitVec 64}
    (hn : Numeral tn n) (hP : Numeral tP P) (hS : Numeral tS S) (he : value te = some e) (hd : value td = some d)
    (hn2 : n < 2 ^ 31) (hP2 : P < 2 ^ 31) (hS2 : S < 2 ^ 31) {c : Config} (hc : fromArgs keys n e d P S ips = .ok c)
    {data : List Byte} (hs : serialize c = .ok data) :
    genMain keys value (file :: tn :: te :: td :: tP :: tS :: ips) typed = .ok (some (file, data)) := by
  have r : ∀ {t : List Byte} {m : Nat}, Numeral t m → m < 2 ^ 31 → stoi t = .ok (m : Int) := fun {t m} h hm => by
    rw [stoi_eq (n := m) (rest := []) ⟨[], t, by simp, by simp, Or.inl ⟨m, h, rfl⟩, by intro b u h; cases h⟩, if_pos (by omega)]
  unfold genMain fromText stod
  simp only [r hn hn2, r hP hP2, r hS hS2, he, hd]
  show ((fromArgs keys n e d P S ips >>= _ : Res _)) = _
  rw [hc]
  show ((serialize c >>= _ : Res _)) = _
  rw [hs]
  rfl

end DPPIR.Config
