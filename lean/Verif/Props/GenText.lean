import Verif.Props.Config
import Verif.Proofs.GenText

/-!
# C67: the generator writes the numbers it is told
-/

namespace DPPIR.Props
open DPPIR.Config

/-- **C67**. How a number on the command line is read.  It is the integer the text starts
with, after blanks, whatever follows it.  A text that does not start with an integer, or
with one outside the range of `int`, ends the program with an exception. -/
theorem C67_number_read (t : List Byte) :
    (∀ n rest, StartsWith t n rest → -2 ^ 31 ≤ n ∧ n < 2 ^ 31 → stoi t = .ok n) ∧
    (∀ n rest, StartsWith t n rest → ¬ (-2 ^ 31 ≤ n ∧ n < 2 ^ 31) → stoi t = .error .exception) ∧
    ((∀ n rest, ¬ StartsWith t n rest) → stoi t = .error .exception) := by
  refine ⟨fun n rest h hr => by rw [stoi_eq h, if_pos hr], fun n rest h hr => by rw [stoi_eq h, if_neg hr], fun h => ?_⟩
  unfold stoi
  by_cases hd : (signOf (t.dropWhile isSpace)).2.takeWhile isDigit = []
  · simp only [hd, if_pos]
  · obtain ⟨n, rest, hn⟩ := stoi_reads hd
    exact absurd hn (h n rest)

private theorem stoi_ok {t : List Byte} {n : Int} (h : stoi t = .ok n) : (∃ rest, StartsWith t n rest) ∧ -2 ^ 31 ≤ n ∧ n < 2 ^ 31 := by
  obtain ⟨h1, h2, h3⟩ := C67_number_read t
  by_cases hs : ∃ m rest, StartsWith t m rest
  · obtain ⟨m, rest, hm⟩ := hs
    by_cases hr : -2 ^ 31 ≤ m ∧ m < 2 ^ 31
    · have := (h1 m rest hm hr).symm.trans h
      obtain rfl := Except.ok.inj this
      exact ⟨⟨rest, hm⟩, hr⟩
    · have := (h2 m rest hm hr).symm.trans h
      cases this
  · have := (h3 (fun m rest hm => hs ⟨m, rest, hm⟩)).symm.trans h
    cases this

private theorem bind_ok_inv {α β : Type} {x : Res α} {f : α → Res β} {b : β} (h : (x >>= f) = .ok b) : ∃ a, x = .ok a ∧ f a = .ok b := by
  cases x with
  | error e => cases h
  | ok a => exact ⟨a, rfl, h⟩

private theorem stod_ok {value : List Byte → Option (BitVec 64)} {t : List Byte} {v : BitVec 64} (h : stod value t = .ok v) : value t = some v := by
  unfold stod at h
  split at h
  · cases h
  · obtain rfl := Except.ok.inj h
    assumption

/-- The addresses on the command line: the given ones, or 127.0.0.1 for all. -/
def givenIp (ips : List (List Byte)) (S i j : Nat) : List Byte :=
  if ips = [] then [49, 50, 55, 46, 48, 46, 48, 46, 49] else ips.getD (i * S + j) []

private theorem generated_says (keys : Nat → (Fin keySize → Byte) × (Fin keySize → Byte)) (db : Int) (e d : BitVec 64)
    (P S : Int) (ips : List (List Byte)) (hnul : ∀ ip ∈ ips, (0 : Byte) ∉ ip) (c : Config)
    (hc : fromArgs keys db e d P S ips = .ok c) (data : List Byte) (hs : serialize c = .ok data) (hlen : data.length < 2 ^ 63) :
    readFile (some data) = .ok c ∧
      Says c (db % 2 ^ 32).toNat e d (P % 256).toNat (S % 256).toNat (givenIp ips (S % 256).toNat) := by
  have e8 : ∀ z : Int, BitVec.ofInt 8 z = BitVec.ofInt 8 (((z % 256).toNat : Nat) : Int) := by
    intro z
    apply BitVec.eq_of_toInt_eq
    rw [BitVec.toInt_ofInt, BitVec.toInt_ofInt, Int.toNat_of_nonneg (by omega)]
    exact (Int.emod_bmod (x := z) (n := 256)).symm
  have hc' : fromArgs keys db e d ((P % 256).toNat : Nat) ((S % 256).toNat : Nat) ips = .ok c := by
    rw [← hc]
    unfold fromArgs
    rw [← e8 P, ← e8 S]
  have hP : (P % 256).toNat < 256 := by omega
  have hS : (S % 256).toNat < 256 := by omega
  generalize (P % 256).toNat = P' at *
  generalize (S % 256).toNat = S' at *
  have hips : ips.length = P' * S' ∨ ips = [] := by
    have h := hc'
    unfold fromArgs at h
    simp only [BitVec.ofInt_natCast, BitVec.toNat_ofNat, Nat.reducePow, Nat.mod_eq_of_lt hP, Nat.mod_eq_of_lt hS] at h
    split at h
    · rename_i hh
      exact hh.imp id List.length_eq_zero_iff.mp
    · cases h
  obtain ⟨f, hf, hip⟩ := fromArgs_eq keys db e d P' S' hP hS ips hips
  obtain ⟨c', h1, -, -, -, hnf, -⟩ := C34_from_args keys db e d P' S' hP hS ips hips hnul
  obtain rfl := Except.ok.inj (h1.symm.trans hc')
  obtain rfl := Except.ok.inj (hf.symm.trans hc')
  refine ⟨C32_round_trip _ hnf data hs hlen, ?_, rfl, rfl, ?_, ?_, ?_, ?_⟩
  · show (BitVec.ofInt 32 db).toNat = _
    rw [BitVec.toNat_ofInt]
    norm_num
  · show (BitVec.ofNat 8 P').toNat = _
    simp; omega
  · show (BitVec.ofNat 8 S').toNat = _
    simp; omega
  · simp [generated]
  · intro i hi
    refine ⟨_, by simp only [generated, List.getElem?_map, List.getElem?_range hi, Option.map_some]; rfl, by simp, fun j hj => ?_⟩
    refine ⟨_, by simp only [List.getElem?_map, List.getElem?_range hj, Option.map_some]; rfl, ?_⟩
    show f i j = _
    unfold givenIp
    by_cases hi' : ips = []
    · rw [if_pos hi', (hip i j hi hj).1 hi']
      rfl
    · rw [if_neg hi', List.getD_eq_getElem?_getD, (hip i j hi hj).2 hi']
      rfl

/-- **C67**. Whatever the generator writes when its parameters are given as arguments: the
file can be read back, and says what the arguments start with, the number of rows modulo
2^32 and the counts modulo 256. -/
theorem C67_written (keys : Nat → (Fin keySize → Byte) × (Fin keySize → Byte)) (value : List Byte → Option (BitVec 64))
    (file tn te td tP tS : List Byte) (ips : List (List Byte)) (hnul : ∀ ip ∈ ips, (0 : Byte) ∉ ip) (typed f data : List Byte)
    (h : genMain keys value (file :: tn :: te :: td :: tP :: tS :: ips) typed = .ok (some (f, data))) (hlen : data.length < 2 ^ 63) :
    f = file ∧ ∃ (n P S : Int) (r₁ r₂ r₃ : List Byte) (e d : BitVec 64) (c : Config),
      StartsWith tn n r₁ ∧ StartsWith tP P r₂ ∧ StartsWith tS S r₃ ∧ value te = some e ∧ value td = some d ∧
      readFile (some data) = .ok c ∧
      Says c (n % 2 ^ 32).toNat e d (P % 256).toNat (S % 256).toNat (givenIp ips (S % 256).toNat) := by
  unfold genMain at h
  obtain ⟨c, h1, h⟩ := bind_ok_inv h
  obtain ⟨data', h2, h⟩ := bind_ok_inv h
  cases h
  unfold fromText at h1
  obtain ⟨n, hn, h1⟩ := bind_ok_inv h1
  obtain ⟨e, he, h1⟩ := bind_ok_inv h1
  obtain ⟨d, hd, h1⟩ := bind_ok_inv h1
  obtain ⟨P, hP, h1⟩ := bind_ok_inv h1
  obtain ⟨S, hS, h1⟩ := bind_ok_inv h1
  obtain ⟨⟨r₁, a1⟩, -⟩ := stoi_ok hn
  obtain ⟨⟨r₂, a2⟩, -⟩ := stoi_ok hP
  obtain ⟨⟨r₃, a3⟩, -⟩ := stoi_ok hS
  obtain ⟨b1, b2⟩ := generated_says keys n e d P S ips hnul c h1 _ h2 hlen
  exact ⟨rfl, n, P, S, r₁, r₂, r₃, e, d, c, a1, a2, a3, stod_ok he, stod_ok hd, b1, b2⟩

private theorem numeral_starts {t : List Byte} {n : Nat} (h : Numeral t n) : StartsWith t n [] :=
  ⟨[], t, by simp, by simp, Or.inl ⟨n, h, rfl⟩, by intro b u h; cases h⟩

/-- **C67** (arguments).  Numbers given in decimal, of rows below 2^31 and of parties and
servers below 256, with no address or one per server: the generator writes a file that is
read back as the configuration asked for. -/
theorem C67_args_partial (keys : Nat → (Fin keySize → Byte) × (Fin keySize → Byte)) (value : List Byte → Option (BitVec 64))
    (file tn te td tP tS : List Byte) (ips : List (List Byte)) (typed : List Byte) (n P S : Nat) (e d : BitVec 64)
    (hn : Numeral tn n) (hP : Numeral tP P) (hS : Numeral tS S) (he : value te = some e) (hd : value td = some d)
    (hn2 : n < 2 ^ 31) (hP2 : P < 256) (hS2 : S < 256) (hips : ips.length = P * S ∨ ips = []) (hnul : ∀ ip ∈ ips, (0 : Byte) ∉ ip) :
    ∃ data, genMain keys value (file :: tn :: te :: td :: tP :: tS :: ips) typed = .ok (some (file, data)) ∧
      (data.length < 2 ^ 63 → ∃ c, readFile (some data) = .ok c ∧ Says c n e d P S (givenIp ips S)) := by
  obtain ⟨c, h1, -, -, hcons, hnf, -⟩ := C34_from_args keys n e d P S hP2 hS2 ips hips hnul
  obtain ⟨data, hs⟩ := (C32_serialize_iff c).1 hcons
  refine ⟨data, genMain_decimal keys value typed hn hP hS he hd hn2 (by omega) (by omega) h1 hs, fun hlen => ?_⟩
  obtain ⟨a, b⟩ := generated_says keys n e d P S ips hnul c h1 data hs hlen
  refine ⟨c, a, ?_⟩
  have e1 : ((n : Int) % 2 ^ 32).toNat = n := by omega
  have e2 : ((P : Int) % 256).toNat = P := by omega
  have e3 : ((S : Int) % 256).toNat = S := by omega
  rwa [e1, e2, e3] at b

/-- **C67**. Without an argument nothing is written; with a file and one to four further
arguments the program stops. -/
theorem C67_too_few (keys : Nat → (Fin keySize → Byte) × (Fin keySize → Byte)) (value : List Byte → Option (BitVec 64)) (typed : List Byte) :
    genMain keys value [] typed = .ok none ∧
    ∀ (file : List Byte) (rest : List (List Byte)), 1 ≤ rest.length → rest.length < 5 →
      genMain keys value (file :: rest) typed = .error .assertFail := by
  refine ⟨rfl, fun file rest h1 h2 => ?_⟩
  match rest, h1, h2 with
  | [_], _, _ => rfl
  | [_, _], _, _ => rfl
  | [_, _, _], _, _ => rfl
  | [_, _, _, _], _, _ => rfl

/-- **C67**. A parameter that is not a number is never written: an argument for the number
of rows that does not start with an integer, or with one that is no `int`, ends the
program with an exception. -/
theorem C67_not_a_number (keys : Nat → (Fin keySize → Byte) × (Fin keySize → Byte)) (value : List Byte → Option (BitVec 64))
    (file tn te td tP tS : List Byte) (ips : List (List Byte)) (typed : List Byte)
    (h : ∀ n rest, StartsWith tn n rest → ¬ (-2 ^ 31 ≤ n ∧ n < 2 ^ 31)) :
    genMain keys value (file :: tn :: te :: td :: tP :: tS :: ips) typed = .error .exception := by
  have : stoi tn = .error .exception := by
    by_cases hs : ∃ n rest, StartsWith tn n rest
    · obtain ⟨n, rest, hn⟩ := hs
      exact (C67_number_read tn).2.1 n rest hn (h n rest hn)
    · exact (C67_number_read tn).2.2 (fun n rest hn => hs ⟨n, rest, hn⟩)
  unfold genMain fromText
  simp only [this]
  rfl

/-- **C67** is violated: text after a number is ignored.  Whatever follows the digits, as
in `1e6`, the file is the one for the digits alone. -/
theorem C67_rest_ignored (keys : Nat → (Fin keySize → Byte) × (Fin keySize → Byte)) (value : List Byte → Option (BitVec 64))
    (file tn rest te td tP tS : List Byte) (ips : List (List Byte)) (typed : List Byte) (n : Nat)
    (hn : Numeral tn n) (hr : NoDigitNext rest) :
    genMain keys value (file :: (tn ++ rest) :: te :: td :: tP :: tS :: ips) typed =
      genMain keys value (file :: tn :: te :: td :: tP :: tS :: ips) typed := by
  have : stoi (tn ++ rest) = stoi tn := by
    rw [stoi_eq (n := n) (rest := rest) ⟨[], tn, by simp, by simp, Or.inl ⟨n, hn, rfl⟩, hr⟩, stoi_eq (numeral_starts hn)]
  unfold genMain fromText
  simp only [this]

/-! ## Typed in -/

private theorem interactive_fields {keys : Nat → (Fin keySize → Byte) × (Fin keySize → Byte)} {db : BitVec 32} {e d : BitVec 64}
    {P S : Int} {lines : Nat → Nat → List Byte} {c : Config} (h : interactive keys db e d P S lines = .ok c) :
    c.dbSize = db ∧ c.epsilon = e ∧ c.delta = d ∧ c.partyCount = BitVec.ofInt 8 P ∧ c.serverCount = BitVec.ofInt 8 S := by
  unfold interactive at h
  obtain ⟨v, -, h⟩ := bind_ok_inv h
  obtain ⟨ps, -, h⟩ := bind_ok_inv h
  cases h
  exact ⟨rfl, rfl, rfl, rfl, rfl⟩

/-- **C67** (typed in).  Numbers typed in decimal, of rows below 2^32 and of parties and
servers below 256, then one line per server: the generator writes a file that is read back
as the configuration asked for, an empty line standing for 127.0.0.1. -/
theorem C67_typed_partial (keys : Nat → (Fin keySize → Byte) × (Fin keySize → Byte)) (value : List Byte → Option (BitVec 64))
    (file typed : List Byte) (n P S : Nat) (te td : List Byte) (lines : List (List Byte)) (e d : BitVec 64)
    (h : TypedIn typed n P S te td lines) (he : value te = some e) (hd : value td = some d)
    (hn : n < 2 ^ 32) (hP : P < 256) (hS : S < 256) (hnul : ∀ l ∈ lines, (0 : Byte) ∉ l) :
    ∃ data, genMain keys value [file] typed = .ok (some (file, data)) ∧
      (data.length < 2 ^ 63 → ∃ c, readFile (some data) = .ok c ∧
        Says c n e d P S (fun i j => if lines.getD (i * S + j) [] = [] then [49, 50, 55, 46, 48, 46, 48, 46, 49]
          else lines.getD (i * S + j) [])) := by
  obtain ⟨c, h1, hcons, hend⟩ := C34_interactive keys (BitVec.ofNat 32 n) e d P S hP hS (fun i j => lines.getD (i * S + j) [])
  obtain ⟨data, hs⟩ := (C32_serialize_iff c).1 hcons
  obtain ⟨f1, f2, f3, f4, f5⟩ := interactive_fields h1
  have hP' : c.partyCount.toNat = P := by rw [f4]; simp; omega
  have hS' : c.serverCount.toNat = S := by rw [f5]; simp; omega
  refine ⟨data, ?_, fun hlen => ⟨c, ?_, ?_⟩⟩
  · show ((interactiveText keys value typed >>= _ : Res _)) = _
    rw [interactiveText_eq keys value h hn hP hS he hd, h1]
    show ((serialize c >>= _ : Res _)) = _
    rw [hs]
    rfl
  · refine C32_round_trip c ?_ data hs hlen
    intro p hp s hsv
    obtain ⟨i, hi⟩ := List.getElem?_of_mem hp
    obtain ⟨j, hj⟩ := List.getElem?_of_mem hsv
    have hiP : i < P := by have := (List.getElem?_eq_some_iff.mp hi).1; have := hcons.1; omega
    have hjS : j < S := by
      have := (List.getElem?_eq_some_iff.mp hj).1
      have := hcons.2 p hp
      omega
    obtain ⟨p', hp', hs'⟩ := hend i j hiP hjS
    obtain rfl := Option.some.inj (hi.symm.trans hp')
    obtain rfl := Option.some.inj (hj.symm.trans hs')
    show (0 : Byte) ∉ typedIp _
    unfold typedIp
    split
    · decide
    · rename_i hne
      rw [List.getD_eq_getElem?_getD] at hne ⊢
      cases hl : lines[i * S + j]? with
      | none => rw [hl] at hne; exact absurd rfl hne
      | some l => exact hnul l (List.mem_of_getElem? hl)
  · refine ⟨by rw [f1]; simp; omega, f2, f3, hP', hS', by rw [hcons.1, hP'], fun i hi => ?_⟩
    obtain ⟨p, hp⟩ : ∃ p, c.parties[i]? = some p := ⟨_, List.getElem?_eq_getElem (by rw [hcons.1]; omega)⟩
    refine ⟨p, hp, by rw [hcons.2 p (List.mem_of_getElem? hp), hS'], fun j hj => ?_⟩
    obtain ⟨p', hp', hs'⟩ := hend i j hi hj
    obtain rfl := Option.some.inj (hp.symm.trans hp')
    exact ⟨_, hs', rfl⟩

private theorem extract_bad {α : Type} (scan : List Byte → (α × Bool) × List Byte) (st : Cin) (h : st.good = false) :
    Cin.extract scan st = (none, st) := by
  unfold Cin.extract
  rw [if_pos h]

/-- **C67** is violated: if what is typed does not start with a number, the program goes
on with variables nothing was assigned to, which is undefined behaviour. -/
theorem C67_typed_undefined (keys : Nat → (Fin keySize → Byte) × (Fin keySize → Byte)) (value : List Byte → Option (BitVec 64))
    (file typed : List Byte) (h : ∀ n rest, ¬ StartsWith typed n rest) : genMain keys value [file] typed = .error .ub := by
  have hd : (signOf (typed.dropWhile isSpace)).2.takeWhile isDigit = [] := by
    by_contra hd
    obtain ⟨n, rest, hn⟩ := stoi_reads hd
    exact h n rest hn
  have h1 : (Cin.extract scanIndex ⟨typed, true⟩).2.good = false := by
    unfold Cin.extract
    simp only [Bool.true_eq_false, if_false]
    split
    · rfl
    · unfold scanIndex
      simp only [hd, if_pos, Bool.false_and]
  show ((interactiveText keys value typed >>= _ : Res _)) = _
  have : interactiveText keys value typed = .error .ub := by
    unfold interactiveText
    simp only [extract_bad _ _ h1, assigned]
    rfl
  rw [this]
  rfl

/-! ## Examples and counterexamples -/

section Example

/-- Keys that are all zero. -/
private def noKeys : Nat → (Fin keySize → Byte) × (Fin keySize → Byte) := fun _ => (fun _ => 0, fun _ => 0)

/-- Values of two floating point texts, `0.5` and `1e-6`, as bit patterns. -/
private def someValue (t : List Byte) : Option (BitVec 64) :=
  if t = [48, 46, 53] then some 0x3FE0000000000000#64 else if t = [49, 101, 45, 54] then some 0x3EB0C6F7A0B5ED8D#64 else none

/-- The file written for the given first, fourth and fifth number, if any, and the
configuration read from it. -/
private def rowsWritten (tn tP tS : List Byte) : Option (Nat × Nat × Nat) :=
  match genMain noKeys someValue [[102], tn, [48, 46, 53], [49, 101, 45, 54], tP, tS] [] with
  | .ok (some (_, data)) => match readFile (some data) with
    | .ok c => some (c.dbSize.toNat, c.partyCount.toNat, c.serverCount.toNat)
    | .error _ => none
  | _ => none

private theorem rowsWritten_some {tn tP tS : List Byte} {r : Nat × Nat × Nat} (h : rowsWritten tn tP tS = some r) :
    ∃ data c, genMain noKeys someValue [[102], tn, [48, 46, 53], [49, 101, 45, 54], tP, tS] [] = .ok (some ([102], data)) ∧
      readFile (some data) = .ok c ∧ c.dbSize.toNat = r.1 ∧ c.partyCount.toNat = r.2.1 ∧ c.serverCount.toNat = r.2.2 := by
  unfold rowsWritten at h
  split at h
  · rename_i f data hg
    split at h
    · rename_i c hc
      cases h
      have hf : f = [102] := by
        unfold genMain at hg
        obtain ⟨_, -, hg⟩ := bind_ok_inv hg
        obtain ⟨_, -, hg⟩ := bind_ok_inv hg
        cases hg
        rfl
      subst hf
      exact ⟨data, c, hg, hc, rfl, rfl, rfl⟩
    · cases h
  · cases h

/-- **C67** is violated: asked for `1e6` rows, the generator writes a configuration with one
row. -/
theorem C67_violated_exponent : ∃ keys value data c,
    genMain keys value [[102], [49, 101, 54], [48, 46, 53], [49, 101, 45, 54], [50], [49]] [] = .ok (some ([102], data)) ∧
      readFile (some data) = .ok c ∧ c.dbSize.toNat = 1 := by
  obtain ⟨data, c, h1, h2, h3, -⟩ := rowsWritten_some (tn := [49, 101, 54]) (tP := [50]) (tS := [49]) (r := (1, 2, 1)) (by decide +kernel)
  exact ⟨_, _, data, c, h1, h2, h3⟩

/-- **C67** is violated: asked for -1 rows, the generator writes a configuration with
4294967295 rows. -/
theorem C67_violated_negative : ∃ keys value data c,
    genMain keys value [[102], [45, 49], [48, 46, 53], [49, 101, 45, 54], [50], [49]] [] = .ok (some ([102], data)) ∧
      readFile (some data) = .ok c ∧ c.dbSize.toNat = 4294967295 := by
  obtain ⟨data, c, h1, h2, h3, -⟩ := rowsWritten_some (tn := [45, 49]) (tP := [50]) (tS := [49]) (r := (4294967295, 2, 1)) (by decide +kernel)
  exact ⟨_, _, data, c, h1, h2, h3⟩

/-- **C67** is violated: asked for 258 parties, the generator writes a configuration with
two. -/
theorem C67_violated_count : ∃ keys value data c,
    genMain keys value [[102], [57], [48, 46, 53], [49, 101, 45, 54], [50, 53, 56], [49]] [] = .ok (some ([102], data)) ∧
      readFile (some data) = .ok c ∧ c.partyCount.toNat = 2 := by
  obtain ⟨data, c, h1, h2, -, h3, -⟩ := rowsWritten_some (tn := [57]) (tP := [50, 53, 56]) (tS := [49]) (r := (9, 2, 1)) (by decide +kernel)
  exact ⟨_, _, data, c, h1, h2, h3⟩

/-- What is typed: `9 0.5 1e-6 2 x` and the end of the line. -/
private def noServers : List Byte := [57, 32, 48, 46, 53, 32, 49, 101, 45, 54, 32, 50, 32, 120, 10]

/-- **C67** is violated: with `x` typed for the number of servers, the generator writes a
configuration of two parties without servers. -/
theorem C67_violated_typed : ∃ keys value data c,
    genMain keys value [[102]] [57, 32, 48, 46, 53, 32, 49, 101, 45, 54, 32, 50, 32, 120, 10] = .ok (some ([102], data)) ∧
      readFile (some data) = .ok c ∧ c.partyCount.toNat = 2 ∧ c.serverCount.toNat = 0 := by
  have h : (match genMain noKeys someValue [[102]] noServers with
    | .ok (some (f, data)) => match readFile (some data) with
      | .ok c => decide (f = [102] ∧ c.partyCount.toNat = 2 ∧ c.serverCount.toNat = 0)
      | .error _ => false
    | _ => false) = true := by decide +kernel
  split at h
  · rename_i f data hg
    split at h
    · rename_i c hc
      obtain ⟨rfl, h1, h2⟩ := of_decide_eq_true h
      exact ⟨_, _, data, c, hg, hc, h1, h2⟩
    · cases h
  · cases h

private theorem numeral_50 : Numeral [53, 48] 50 := ⟨[5, 0], by decide, by decide, rfl, rfl⟩
private theorem numeral_3 : Numeral [51] 3 := ⟨[3], by decide, by decide, rfl, rfl⟩
private theorem numeral_2 : Numeral [50] 2 := ⟨[2], by decide, by decide, rfl, rfl⟩

/-- Fifty rows, three parties of two servers, on the command line. -/
example : ∃ data, genMain noKeys someValue [[102], [53, 48], [48, 46, 53], [49, 101, 45, 54], [51], [50]] [] = .ok (some ([102], data)) ∧
    (data.length < 2 ^ 63 → ∃ c, readFile (some data) = .ok c ∧
      Says c 50 0x3FE0000000000000#64 0x3EB0C6F7A0B5ED8D#64 3 2 (givenIp [] 2)) :=
  C67_args_partial noKeys someValue [102] [53, 48] [48, 46, 53] [49, 101, 45, 54] [51] [50] [] [] 50 3 2 _ _ numeral_50 numeral_3 numeral_2
    rfl rfl (by omega) (by omega) (by omega) (Or.inr rfl) (by simp)

/-- `50 0.5 1e-6 3 2`, an empty line, `10.0.0.1` and four more empty lines. -/
example : TypedIn ([53, 48, 32, 48, 46, 53, 32, 49, 101, 45, 54, 32, 51, 32, 50, 10] ++ [10] ++ [49, 48, 46, 48, 46, 48, 46, 49, 10] ++ [10, 10, 10, 10])
    50 3 2 [48, 46, 53] [49, 101, 45, 54] [[], [49, 48, 46, 48, 46, 48, 46, 49], [], [], [], []] := by
  refine ⟨[], [32], [32], [32], [32], [], [53, 48], [51], [50], rfl, ?_, by decide, by decide, by decide, by decide, by simp [Line],
    numeral_50, numeral_3, numeral_2, ⟨[48], [46, 53], [], rfl, ⟨by decide, by decide⟩, Or.inr ⟨[53], rfl, by decide, by decide⟩, Or.inl rfl⟩,
    ⟨[49], [], [101, 45, 54], rfl, ⟨by decide, by decide⟩, Or.inl rfl, Or.inr (Or.inr ⟨45, [54], rfl, Or.inr rfl, by decide, by decide⟩)⟩, ?_⟩
  · intro w hw b hb
    simp only [List.mem_cons, List.not_mem_nil, or_false] at hw
    rcases hw with rfl | rfl | rfl | rfl | rfl | rfl <;> simp at hb <;> subst hb <;> simp [Blank]
  · unfold Line; decide

/-- A text that does not start with a number. -/
example : ∀ n rest, ¬ StartsWith [120] n rest := by
  intro n rest h
  obtain ⟨ws, num, e, hw, hn, hr⟩ := h
  have hd := skip_blanks (rest := rest) hw hn
  rw [← e] at hd
  obtain ⟨a, -, -⟩ := sign_digits hn hr
  rw [← hd] at a
  exact a (by decide)

end Example

end DPPIR.Props
