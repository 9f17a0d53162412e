import Verif.Props.Start
import Verif.Props.GenText

/-!
# C61: from the numbers on the generator's command line to the answers
-/

namespace DPPIR.Props
open DPPIR.Config DPPIR.Noise DPPIR.Protocol DPPIR.Onion DPPIR.Main DPPIR.Spec

variable {box : SealedBox}

/-- **C61.** Call the generator with numbers in decimal, for one server per party.  It
writes a file; start a client and all parties with that file, and the client gets the rows
it asks for. -/
theorem C61_command_line (w : World box) (hw : w.Sane) (hA : SoundRounding w.arith)
    (keys : Nat → (Fin keySize → Byte) × (Fin keySize → Byte))
    (hkeys : ∀ i, box.IsPair (w.pkey (keys i).1) (w.skey (keys i).2)) (value : List Byte → Option (BitVec 64))
    (out tn te td tP tS : List Byte) (ips : List (List Byte)) (rows P : Nat) (e δ : BitVec 64)
    (hn : Numeral tn rows) (he : value te = some e) (hδ : value td = some δ) (htP : Numeral tP P) (htS : Numeral tS 1)
    (hP : 2 ≤ P ∧ P ≤ 255) (hrows : 1 ≤ rows ∧ rows ≤ 2 ^ 31 - 1)
    (hips : ips.length = P ∨ ips = []) (hnul : ∀ ip ∈ ips, (0 : Byte) ∉ ip)
    (d : Dist) (hd : Dist.new w.arith (Dbl.ofBits e) (Dbl.ofBits δ) = .ok d) (hrep : Representable w.arith d.cutoff)
    (x : ℝ) (hx : d.cutoff = .fin x) (q : Nat) (hq : q + (P - 1) * (rows * ⌊2 * x⌋.toNat) < 2 ^ 32) (typed : List Byte) :
    ∃ data, genMain keys value (out :: tn :: te :: td :: tP :: tS :: ips) typed = .ok (some (out, data)) ∧
      (data.length < 2 ^ 63 → ∀ (file : String → Option (List Byte)) (path stage : String), path ≠ "" → file path = some data →
        stage = "online" ∨ stage = "all" →
        Answers (launch w file path stage P q) (fun a b => Linked P 1 (a, 0) (b, 0)) 1 1 (fun _ => 0) (fun _ => q) rows
          (fun _ j => (w.clientRand 0).row j % rows)) := by
  obtain ⟨c, hc, -, -, hcons, -⟩ := C34_from_args keys rows e δ P 1 (by omega) (by omega) ips (by simpa using hips) hnul
  obtain ⟨data, hs⟩ := (C32_serialize_iff c).1 hcons
  exact ⟨data, genMain_decimal keys value typed hn htP htS he hδ (by omega) (by omega) (by omega) hc hs,
    fun hlen file path stage hpath hfile hst =>
      C61_generated w hw hA keys hkeys rows P e δ hP hrows ips hips hnul d hd hrep x hx q hq c hc data hs hlen file path stage hpath hfile hst⟩

/-- **C61.** The same with several servers per party. -/
theorem C61_command_line_many (w : World box) (hw : w.Sane) (hA : SoundRounding w.arith)
    (keys : Nat → (Fin keySize → Byte) × (Fin keySize → Byte))
    (hkeys : ∀ i, box.IsPair (w.pkey (keys i).1) (w.skey (keys i).2)) (value : List Byte → Option (BitVec 64))
    (out tn te td tP tS : List Byte) (ips : List (List Byte)) (rows P S : Nat) (e δ : BitVec 64)
    (hn : Numeral tn rows) (he : value te = some e) (hδ : value td = some δ) (htP : Numeral tP P) (htS : Numeral tS S)
    (hP : 2 ≤ P ∧ P ≤ 255) (hS : 2 ≤ S ∧ S ≤ 254) (hrows : S ≤ rows ∧ rows ≤ 2 ^ 31 - 1)
    (hshare : (S - 1) * ((rows + S - 1) / S) ≤ rows)
    (hips : ips.length = P * S ∨ ips = []) (hnul : ∀ ip ∈ ips, (0 : Byte) ∉ ip)
    (d : Dist) (hd : Dist.new w.arith (Dbl.ofBits e) (Dbl.ofBits δ) = .ok d) (hrep : Representable w.arith d.cutoff)
    (x : ℝ) (hx : d.cutoff = .fin x) (q : Nat → Nat)
    (hq : ((List.range S).map q).sum + (P - 1) * (rows * ⌊2 * x⌋.toNat) < 2 ^ 32) (typed : List Byte) :
    ∃ data, genMain keys value (out :: tn :: te :: td :: tP :: tS :: ips) typed = .ok (some (out, data)) ∧
      (data.length < 2 ^ 63 → ∀ (file : String → Option (List Byte)) (path stage : String), path ≠ "" → file path = some data →
        stage = "online" ∨ stage = "all" → (stage = "all" → w.sampling = false ∧ ∃ q0, ∀ s < S, q s = q0) →
        Answers (launchMany w file path stage P S q) (Linked P S)
          (4 + 124 * P * (((List.range S).map q).sum + (P - 1) * (rows * ⌊2 * x⌋.toNat)))
          S (fun s => (0, s)) q rows (fun s j => (w.clientRand s).row j % rows)) := by
  obtain ⟨c, hc, -, -, hcons, -⟩ := C34_from_args keys rows e δ P S (by omega) (by omega) ips hips hnul
  obtain ⟨data, hs⟩ := (C32_serialize_iff c).1 hcons
  exact ⟨data, genMain_decimal keys value typed hn htP htS he hδ (by omega) (by omega) (by omega) hc hs,
    fun hlen file path stage hpath hfile hst hall =>
      C61_generated_many w hw hA keys hkeys rows P S e δ hP hS hrows hshare ips hips hnul d hd hrep x hx q hq c hc data hs hlen file path
        stage hpath hfile hst hall⟩

namespace Example

/-- `gen_config f 5 1 0.1 3 2`, with `1` and `0.1` read as in the example configuration. -/
theorem generated_text : ∃ data, genMain generatedKeys
      (fun t => if t = [49] then some exampleConfig.epsilon else if t = [48, 46, 49] then some exampleConfig.delta else none)
      [[102], [53], [49], [48, 46, 49], [51], [50]] [] = .ok (some ([102], data)) ∧ data = generatedFile := by
  have hs : serialize generatedConfig = .ok generatedFile := by
    have h : (serialize generatedConfig).isOk = true := by decide +kernel
    unfold generatedFile
    revert h
    cases serialize generatedConfig
    · intro h; cases h
    · intro _; rfl
  have num : ∀ k : Nat, k < 10 → Numeral [BitVec.ofNat 8 (48 + k)] k := fun k hk => ⟨[k], by simp, by simpa using hk, by simp, by simp⟩
  exact ⟨generatedFile, genMain_decimal generatedKeys _ [] (num 5 (by omega)) (num 3 (by omega)) (num 2 (by omega)) rfl rfl (by omega)
    (by omega) (by omega) generated_args hs, rfl⟩

end Example

end DPPIR.Props
