import Verif.Model.GenConfig

/-!
# From text to numbers in the configuration generator (`DPPIR/config/gen_config.cc`)

The generator reads its numbers from the command line by `std::stoi` and `std::stod`, or
from the terminal by `std::cin >>`.  The integer conversions of the C++ library are
modelled after libstdc++ in the "C" locale; the value of a floating point text is a
parameter.
-/

namespace DPPIR.Config

/-- `isspace` in the "C" locale: tab, newline, vertical tab, form feed, carriage return
and blank (skipped by `std::stoi` at gen_config.cc:65-71 and `std::cin >>` at
gen_config.cc:16-27). -/
def isSpace (b : Byte) : Bool := (9 ≤ b.toNat && b.toNat ≤ 13) || b.toNat == 32

/-- `isdigit`, for the conversions at gen_config.cc:16-27, 65-71. -/
def isDigit (b : Byte) : Bool := 48 ≤ b.toNat && b.toNat ≤ 57

/-- The value of decimal digits (conversions at gen_config.cc:16-27, 65-71). -/
def valueOf (ds : List Byte) : Nat := ds.foldl (fun v b => v * 10 + (b.toNat - 48)) 0

/-- An optional sign (conversions at gen_config.cc:16-27, 65-71): whether it is a minus,
and what follows it. -/
def signOf : List Byte → Bool × List Byte
  | [] => (false, [])
  | b :: l => if b = 43 then (false, l) else if b = 45 then (true, l) else (false, b :: l)

/-- Sign and magnitude of a number (conversions at gen_config.cc:16-27, 65-71). -/
def signed (negative : Bool) (n : Nat) : Int := if negative = true then -(n : Int) else n

/-! ## The command line -/

/-- `std::stoi(text)` (gen_config.cc:65, 70, 71): leading spaces, an optional sign, and as
many digits as there are; what follows is ignored.  Without a digit it throws
`invalid_argument`, for a number that is not an `int` it throws `out_of_range`. -/
def stoi (text : List Byte) : Res Int :=
  let s := signOf (text.dropWhile isSpace)
  let ds := s.2.takeWhile isDigit
  if ds = [] then .error .exception
  else if -2 ^ 31 ≤ signed s.1 (valueOf ds) ∧ signed s.1 (valueOf ds) < 2 ^ 31 then .ok (signed s.1 (valueOf ds))
  else .error .exception

/-- `std::stod(text)` (gen_config.cc:67-68): `value text` is the result, `none` where it
throws. -/
def stod (value : List Byte → Option (BitVec 64)) (text : List Byte) : Res (BitVec 64) :=
  match value text with
  | none => .error .exception
  | some v => .ok v

/-- `FromArgs(argc, argv)` (gen_config.cc:61-100) from the texts `argv[1]`, `argv[2]`, …;
the part after the conversions is `fromArgs`. -/
def fromText (keys : Nat → (Fin keySize → Byte) × (Fin keySize → Byte)) (value : List Byte → Option (BitVec 64)) :
    List (List Byte) → Res Config
  | db :: eps :: del :: parties :: servers :: ips => do
    let db ← stoi db
    let eps ← stod value eps
    let del ← stod value del
    let parties ← stoi parties
    let servers ← stoi servers
    fromArgs keys db eps del parties servers ips
  | _ => .error .assertFail

/-! ## The terminal -/

/-- `std::cin` (gen_config.cc:16-49): the text not yet read, and whether the stream is
still good, that is, no extraction failed and none reached the end of the text. -/
structure Cin where
  rest : List Byte
  good : Bool := true

/-- `std::cin >> x` (gen_config.cc:16-27).  Nothing is assigned (`none`) if the stream is
not good or has only spaces left.  `scan` gives the value assigned, whether the
extraction succeeded, and the text after it. -/
def Cin.extract {α : Type} (scan : List Byte → (α × Bool) × List Byte) (st : Cin) : Option α × Cin :=
  if st.good = false then (none, st)
  else if st.rest.dropWhile isSpace = [] then (none, ⟨[], false⟩)
  else
    let r := scan (st.rest.dropWhile isSpace)
    (some r.1.1, ⟨r.2, r.1.2 && !r.2.isEmpty⟩)

/-- Extraction of an `int` (gen_config.cc:26-27): 0 and failure without a digit, the
nearest `int` and failure for a number that is none. -/
def scanInt (t : List Byte) : (Int × Bool) × List Byte :=
  let s := signOf t
  let ds := s.2.takeWhile isDigit
  let n := signed s.1 (valueOf ds)
  (if ds = [] then (0, false) else if n < -2 ^ 31 then (-2 ^ 31, false) else if 2 ^ 31 ≤ n then (2 ^ 31 - 1, false)
    else (n, true), s.2.dropWhile isDigit)

/-- Extraction of an `index_t` (gen_config.cc:16), an unsigned 32-bit number: a minus
sign is accepted and negates modulo 2^32. -/
def scanIndex (t : List Byte) : (BitVec 32 × Bool) × List Byte :=
  let s := signOf t
  let ds := s.2.takeWhile isDigit
  (if ds = [] then (0, false) else if 2 ^ 32 ≤ valueOf ds then (BitVec.ofNat 32 (2 ^ 32 - 1), false)
    else (BitVec.ofInt 32 (signed s.1 (valueOf ds)), true), s.2.dropWhile isDigit)

/-- How many characters the extraction of a `double` (gen_config.cc:20-21) takes: `digit`,
`dec`, `sci` say whether a digit, a decimal point, an exponent have been read, `sign`
whether a sign may come now. -/
def floatLen (digit dec sci sign : Bool) : List Byte → Nat
  | [] => 0
  | b :: l =>
    if isDigit b = true then floatLen true dec sci false l + 1
    else if (b = 43 ∨ b = 45) ∧ sign = true then floatLen digit dec sci false l + 1
    else if b = 46 ∧ dec = false ∧ sci = false then floatLen digit true sci false l + 1
    else if (b = 101 ∨ b = 69) ∧ digit = true ∧ sci = false then floatLen digit dec true true l + 1
    else 0

/-- Extraction of a `double` (gen_config.cc:20-21): `value` of the characters taken, a
failure where it is `none`.  The value assigned on failure is simplified to 0; it is
never used, see `interactiveText`. -/
def scanDouble (value : List Byte → Option (BitVec 64)) (t : List Byte) : (BitVec 64 × Bool) × List Byte :=
  let k := floatLen false false false true t
  (match value (t.take k) with
    | none => (0, false)
    | some v => (v, true), t.drop k)

/-- `std::getline(std::cin, line)` for an empty `line` (gen_config.cc:30, 49): nothing is
read if the stream is not good; the newline is removed but not part of the line. -/
def Cin.getline (st : Cin) : List Byte × Cin :=
  if st.good = false then ([], st)
  else
    let l := st.rest.takeWhile (fun b => b ≠ 10)
    match st.rest.dropWhile (fun b => b ≠ 10) with
    | [] => (l, ⟨[], false⟩)
    | _ :: rest => (l, ⟨rest, true⟩)

/-- The line read by the `k`-th of several `getline`s (gen_config.cc:49). -/
def Cin.line (st : Cin) : Nat → List Byte
  | 0 => st.getline.1
  | k + 1 => st.getline.2.line k

/-- The value of a variable without initialiser (gen_config.cc:12, 25); undefined
behaviour if nothing was assigned to it. -/
def assigned {α : Type} : Option α → Res α
  | none => .error .ub
  | some a => .ok a

/-- `Interactive` (gen_config.cc:11-59) on the text typed; the part after the conversions
is `interactive`.  The lines are read in the order of the loops (gen_config.cc:35-49).
The counts are used first (gen_config.cc:32-33), and when they have been assigned so
have the other variables. -/
def interactiveText (keys : Nat → (Fin keySize → Byte) × (Fin keySize → Byte)) (value : List Byte → Option (BitVec 64))
    (typed : List Byte) : Res Config :=
  let db := Cin.extract scanIndex ⟨typed, true⟩
  let eps := Cin.extract (scanDouble value) db.2
  let del := Cin.extract (scanDouble value) eps.2
  let parties := Cin.extract scanInt del.2
  let servers := Cin.extract scanInt parties.2
  let lines := servers.2.getline.2
  do
    let P ← assigned parties.1
    let S ← assigned servers.1
    let n ← assigned db.1
    let e ← assigned eps.1
    let d ← assigned del.1
    interactive keys n e d P S (fun i j => lines.line (i * (BitVec.ofInt 8 S).toNat + j))

/-! ## The program -/

/-- `main` of the generator (gen_config.cc:105-125) on the arguments after the program
name: the file written and its content, or nothing.  `typed` is the input.  The opening
of the file is taken to succeed. -/
def genMain (keys : Nat → (Fin keySize → Byte) × (Fin keySize → Byte)) (value : List Byte → Option (BitVec 64))
    (args : List (List Byte)) (typed : List Byte) : Res (Option (List Byte × List Byte)) :=
  match args with
  | [] => .ok none
  | [file] => do
    let c ← interactiveText keys value typed
    let data ← serialize c
    .ok (some (file, data))
  | file :: rest => do
    let c ← fromText keys value rest
    let data ← serialize c
    .ok (some (file, data))

end DPPIR.Config
