import Verif.Proofs.Start
import Verif.Proofs.GenConfig
import Verif.Props.Loops
import Verif.Props.Config
import Verif.Props.Noise

/-!
# C61: from the command line to the answers
-/

namespace DPPIR.Props
open DPPIR.Config DPPIR.Noise DPPIR.Protocol DPPIR.Onion DPPIR.Main DPPIR.Spec

variable {box : SealedBox}

/-- **C61.** One server per party: start a client with `--queries=q` and all parties, with
the same usable configuration file and `--stage=all` or `--stage=online`, and the client
gets the rows it asks for; as long as the client's queries and the largest number of noise
queries fit 32 bits. -/
theorem C61_one_server (w : World box) (hw : w.Sane) (c : Config) (d : Dist) (h : Usable w c d) (hS : c.serverCount.toNat = 1)
    (file : String → Option (List Byte)) (path stage : String) (hpath : path ≠ "") (hst : stage = "online" ∨ stage = "all")
    (hc : readFile (file path) = .ok c) (N : Nat) (hN : w.SamplesUpTo d N) (q : Nat)
    (hq : q + (c.partyCount.toNat - 1) * (c.dbSize.toNat * N) < 2 ^ 32) :
    Answers (launch w file path stage c.partyCount.toNat q) (fun a b => Linked c.partyCount.toNat 1 (a, 0) (b, 0)) 1 1 (fun _ => 0) (fun _ => q) c.dbSize.toNat
      (fun _ j => (w.clientRand 0).row j % c.dbSize.toNat) := by
  intro cap hcap
  rw [launch_eq w c d h hN hS file path stage hpath hst hc q (by omega)]
  obtain ⟨h1, h2⟩ := C60_receive_loops (chainOf w c d q) (chain_valid hw h hN hq) (stage == "all") cap
    (fun k hk => ⟨hcap k (k + 1) ⟨hk.le, one_pos, hk, one_pos, .inl ⟨rfl, .inl rfl⟩⟩, hcap (k + 1) k ⟨hk, one_pos, hk.le, one_pos, .inl ⟨rfl, .inr rfl⟩⟩⟩)
  refine ⟨fun n hn => ?_, h2⟩
  obtain ⟨a1, a2, a3⟩ := h1 n hn
  refine ⟨a1, fun _ => a2, fun _ _ db hdb => ?_⟩
  obtain ⟨-, b2, b3⟩ := a3 db hdb
  have e : ((List.range (chainOf w c d q).count).map (chainOf w c d q).wanted).map db.lookup =
      (List.range q).map (fun j => db.lookup ((w.clientRand 0).row j % c.dbSize.toNat)) := by
    rw [List.map_map]
    apply List.map_congr_left
    intro j _
    simp only [Function.comp, chain_wanted h]
  rw [← e]
  exact ⟨b2, fun hr => by rw [(b3 hr).2, (b3 hr).1]⟩

/-- **C61.** The same with 2 to 254 servers per party and as many clients: with
`--stage=online` always, with `--stage=all` if the program was built without
`DPPIR_SAMPLE` and all clients have the same `--queries`.  There must be rows for every
server to make noise for. -/
theorem C61_many_servers (w : World box) (hw : w.Sane) (c : Config) (d : Dist) (h : Usable w c d)
    (hS : 2 ≤ c.serverCount.toNat ∧ c.serverCount.toNat ≤ 254) (hrows : c.serverCount.toNat ≤ c.dbSize.toNat)
    (hshare : (c.serverCount.toNat - 1) * ((c.dbSize.toNat + c.serverCount.toNat - 1) / c.serverCount.toNat) ≤ c.dbSize.toNat)
    (file : String → Option (List Byte)) (path stage : String) (hpath : path ≠ "") (hst : stage = "online" ∨ stage = "all")
    (hc : readFile (file path) = .ok c) (N : Nat) (hN : w.SamplesUpTo d N) (q : Nat → Nat)
    (hall : stage = "all" → w.sampling = false ∧ ∃ q0, ∀ s < c.serverCount.toNat, q s = q0)
    (hq : ((List.range c.serverCount.toNat).map q).sum + (c.partyCount.toNat - 1) * (c.dbSize.toNat * N) < 2 ^ 32) :
    Answers (launchMany w file path stage c.partyCount.toNat c.serverCount.toNat q) (Linked c.partyCount.toNat c.serverCount.toNat)
      (4 + 124 * c.partyCount.toNat *
        (((List.range c.serverCount.toNat).map q).sum + (c.partyCount.toNat - 1) * (c.dbSize.toNat * N)))
      c.serverCount.toNat (fun s => (0, s)) q c.dbSize.toNat (fun s j => (w.clientRand s).row j % c.dbSize.toNat) := by
  intro cap hcap
  have hqs : ∀ s < c.serverCount.toNat, q s < 2 ^ 32 := fun s hs => by
    have : q s ≤ ((List.range c.serverCount.toNat).map q).sum := le_preSum hs
    omega
  have hv := grid_valid hw h hN (q := q) hS hrows hshare hq
  rw [launchMany_eq w c d h hN (by omega) file path stage hpath hst hc q hqs]
  obtain ⟨h1, h2⟩ := C60_receive_loops_parallel (gridOf w c d q) hv (stage == "all")
    (fun hs => Grid.distinct_even hv (hall (by simpa using hs)).2 (grid_even (hall (by simpa using hs)).1 q)) cap
  refine ⟨fun n hn => ?_, h2⟩
  obtain ⟨a1, a2, a3⟩ := h1 n hn
  refine ⟨a1, fun hroom => a2 (grid_roomy h.parties.1 (by show 0 < c.serverCount.toNat; omega)
    (grid_total_le hN (by omega) hshare _) hroom), fun s hs db hdb => ?_⟩
  obtain ⟨-, b2, b3⟩ := a3 s hs db hdb
  have e : ((List.range ((gridOf w c d q).count s)).map ((gridOf w c d q).wanted s)).map db.lookup =
      (List.range (q s)).map (fun j => db.lookup ((w.clientRand s).row j % c.dbSize.toNat)) := by
    rw [List.map_map]
    apply List.map_congr_left
    intro j _
    simp only [Function.comp, grid_wanted h]
  rw [← e]
  exact ⟨b2, fun hr => by rw [(b3 hr).2, (b3 hr).1]⟩

/-- **C61.** If `NoiseDistribution` accepts the parameters, all samples are numbers up to
twice the cutoff, in both builds and for all results of `rand()`. -/
theorem C61_samples (w : World box) (hA : SoundRounding w.arith) (c : Config) (d : Dist) (hd : w.distribution c = .ok d)
    (hrep : Representable w.arith d.cutoff) : ∃ x : ℝ, d.cutoff = .fin x ∧ w.SamplesUpTo d ⌊2 * x⌋.toNat := by
  obtain ⟨x, h1, h2, h3, h4, h5⟩ := C17_domain w.arith hA _ _ d hd hrep
  refine ⟨x, h1, fun k s i => ?_⟩
  unfold World.sample
  split
  · obtain ⟨n, h6, h7⟩ := h5 (randUniform w.arith (w.draw k s i).1) (randUniform w.arith (w.draw k s i).2)
    exact ⟨n, h7, h6⟩
  · exact ⟨_, Int.toNat_le_toNat (Int.floor_le_floor (by linarith)), h4⟩

/-- What the generator makes of good arguments and good keys is usable. -/
theorem generated_usable (w : World box) (keys : Nat → (Fin keySize → Byte) × (Fin keySize → Byte))
    (hkeys : ∀ i, box.IsPair (w.pkey (keys i).1) (w.skey (keys i).2)) (rows P S : Nat) (e δ : BitVec 64)
    (hP : 2 ≤ P ∧ P ≤ 255) (hS : S ≤ 255) (hrows : 1 ≤ rows ∧ rows ≤ 2 ^ 31 - 1) (ips : List (List Byte))
    (hips : ips.length = P * S ∨ ips = []) (d : Dist) (hd : Dist.new w.arith (Dbl.ofBits e) (Dbl.ofBits δ) = .ok d)
    (c : Config) (hc : fromArgs keys rows e δ P S ips = .ok c) :
    Usable w c d ∧ c.partyCount.toNat = P ∧ c.serverCount.toNat = S ∧ c.dbSize.toNat = rows := by
  obtain ⟨f, hf, -⟩ := fromArgs_eq keys rows e δ P S (by omega) (by omega) ips hips
  rw [hf] at hc
  injection hc with hc
  subst hc
  have hPn : (BitVec.ofNat 8 P).toNat = P := toNat8 (by omega)
  have hSn : (BitVec.ofNat 8 S).toNat = S := toNat8 (by omega)
  have hrn : (BitVec.ofInt 32 (rows : Int)).toNat = rows := by simp; omega
  refine ⟨⟨?_, ?_, ?_, ?_, hd⟩, hPn, hSn, hrn⟩
  · simp only [generated, hPn, List.length_map, List.length_range]
    exact ⟨hP.1, trivial⟩
  · intro p hp
    simp only [generated, List.mem_map] at hp
    obtain ⟨i, -, rfl⟩ := hp
    simp [generated, hSn]
  · simp only [generated, hrn]
    exact hrows
  · intro p hp
    simp only [generated, List.mem_map] at hp
    obtain ⟨i, -, rfl⟩ := hp
    exact hkeys i

/-- **C61.** Generate a configuration for one server per party, write it to a file, start
everything: the client gets its rows. -/
theorem C61_generated (w : World box) (hw : w.Sane) (hA : SoundRounding w.arith)
    (keys : Nat → (Fin keySize → Byte) × (Fin keySize → Byte))
    (hkeys : ∀ i, box.IsPair (w.pkey (keys i).1) (w.skey (keys i).2)) (rows P : Nat) (e δ : BitVec 64)
    (hP : 2 ≤ P ∧ P ≤ 255) (hrows : 1 ≤ rows ∧ rows ≤ 2 ^ 31 - 1) (ips : List (List Byte))
    (hips : ips.length = P ∨ ips = []) (hnul : ∀ ip ∈ ips, (0 : Byte) ∉ ip)
    (d : Dist) (hd : Dist.new w.arith (Dbl.ofBits e) (Dbl.ofBits δ) = .ok d) (hrep : Representable w.arith d.cutoff)
    (x : ℝ) (hx : d.cutoff = .fin x) (q : Nat) (hq : q + (P - 1) * (rows * ⌊2 * x⌋.toNat) < 2 ^ 32)
    (c : Config) (hc : fromArgs keys rows e δ P 1 ips = .ok c) (data : List Byte) (hs : serialize c = .ok data)
    (hlen : data.length < 2 ^ 63) (file : String → Option (List Byte)) (path stage : String) (hpath : path ≠ "")
    (hfile : file path = some data) (hst : stage = "online" ∨ stage = "all") :
    Answers (launch w file path stage P q) (fun a b => Linked P 1 (a, 0) (b, 0)) 1 1 (fun _ => 0) (fun _ => q) rows (fun _ j => (w.clientRand 0).row j % rows) := by
  obtain ⟨hu, rfl, h1, rfl⟩ := generated_usable w keys hkeys rows P 1 e δ hP (by omega) hrows ips (by simpa using hips) d hd c hc
  obtain ⟨c', hc', -, -, -, hnf, -⟩ := C34_from_args keys c.dbSize.toNat e δ c.partyCount.toNat 1 (by omega) (by omega) ips
    (by simpa using hips) hnul
  have ec : c' = c := Except.ok.inj (hc'.symm.trans hc)
  subst ec
  obtain ⟨x', hx', hN⟩ := C61_samples w hA c' d hu.noise hrep
  have ex : x' = x := by rw [hx] at hx'; injection hx' with hx'; exact hx'.symm
  subst ex
  refine C61_one_server w hw c' d hu h1 file path stage hpath hst ?_ _ hN q hq
  rw [hfile]
  exact C32_round_trip c' hnf data hs hlen

/-- **C61.** The same with several servers per party. -/
theorem C61_generated_many (w : World box) (hw : w.Sane) (hA : SoundRounding w.arith)
    (keys : Nat → (Fin keySize → Byte) × (Fin keySize → Byte))
    (hkeys : ∀ i, box.IsPair (w.pkey (keys i).1) (w.skey (keys i).2)) (rows P S : Nat) (e δ : BitVec 64)
    (hP : 2 ≤ P ∧ P ≤ 255) (hS : 2 ≤ S ∧ S ≤ 254) (hrows : S ≤ rows ∧ rows ≤ 2 ^ 31 - 1)
    (hshare : (S - 1) * ((rows + S - 1) / S) ≤ rows) (ips : List (List Byte))
    (hips : ips.length = P * S ∨ ips = []) (hnul : ∀ ip ∈ ips, (0 : Byte) ∉ ip)
    (d : Dist) (hd : Dist.new w.arith (Dbl.ofBits e) (Dbl.ofBits δ) = .ok d) (hrep : Representable w.arith d.cutoff)
    (x : ℝ) (hx : d.cutoff = .fin x) (q : Nat → Nat)
    (hq : ((List.range S).map q).sum + (P - 1) * (rows * ⌊2 * x⌋.toNat) < 2 ^ 32)
    (c : Config) (hc : fromArgs keys rows e δ P S ips = .ok c) (data : List Byte) (hs : serialize c = .ok data)
    (hlen : data.length < 2 ^ 63) (file : String → Option (List Byte)) (path stage : String) (hpath : path ≠ "")
    (hfile : file path = some data) (hst : stage = "online" ∨ stage = "all")
    (hall : stage = "all" → w.sampling = false ∧ ∃ q0, ∀ s < S, q s = q0) :
    Answers (launchMany w file path stage P S q) (Linked P S)
      (4 + 124 * P * (((List.range S).map q).sum + (P - 1) * (rows * ⌊2 * x⌋.toNat)))
      S (fun s => (0, s)) q rows (fun s j => (w.clientRand s).row j % rows) := by
  obtain ⟨hu, rfl, rfl, rfl⟩ := generated_usable w keys hkeys rows P S e δ hP (by omega) (by omega) ips hips d hd c hc
  obtain ⟨c', hc', -, -, -, hnf, -⟩ := C34_from_args keys c.dbSize.toNat e δ c.partyCount.toNat c.serverCount.toNat
    (by omega) (by omega) ips hips hnul
  have ec : c' = c := Except.ok.inj (hc'.symm.trans hc)
  subst ec
  obtain ⟨x', hx', hN⟩ := C61_samples w hA c' d hu.noise hrep
  have ex : x' = x := by rw [hx] at hx'; injection hx' with hx'; exact hx'.symm
  subst ex
  refine C61_many_servers w hw c' d hu hS hrows.1 hshare file path stage hpath hst ?_ _ hN q hall hq
  rw [hfile]
  exact C32_round_trip c' hnf data hs hlen

/-! ### Example: the commands of the README with the example configuration -/

namespace Example

/-- `config/example.txt`. -/
def exampleFile : List Byte := [
  100, 0, 0, 0, 0, 0, 0, 0, 0, 0, 240, 63, 154, 153, 153, 153, 153, 153, 185, 63, 2, 0, 0, 0,
  1, 0, 0, 0, 232, 3, 0, 0, 98, 251, 10, 235, 238, 0, 113, 122, 222, 178, 101, 238, 246, 137, 3, 21,
  186, 0, 53, 140, 47, 73, 236, 164, 221, 251, 239, 239, 195, 99, 120, 29, 97, 67, 167, 149, 67, 114, 12, 75,
  31, 57, 37, 195, 10, 85, 51, 126, 16, 62, 14, 24, 89, 149, 231, 208, 121, 73, 113, 54, 247, 113, 112, 5,
  0, 0, 0, 0, 184, 11, 0, 0, 160, 15, 0, 0, 49, 50, 55, 46, 48, 46, 48, 46, 49, 0, 233, 3,
  0, 0, 254, 2, 85, 92, 221, 79, 228, 132, 202, 120, 82, 169, 216, 35, 0, 105, 184, 176, 193, 54, 207, 29,
  49, 29, 172, 144, 184, 13, 104, 189, 183, 33, 51, 81, 40, 72, 81, 146, 196, 101, 186, 118, 246, 115, 13, 68,
  255, 250, 163, 169, 232, 160, 198, 94, 253, 247, 223, 209, 88, 124, 69, 186, 176, 74, 1, 0, 0, 0, 185, 11,
  0, 0, 161, 15, 0, 0, 49, 50, 55, 46, 48, 46, 48, 46, 49, 0]

def exampleConfig : Config := match deserialize exampleFile with
  | .ok c => c
  | .error _ => ⟨0, 0, 0, 0, 0, []⟩

theorem exampleFile_reads : deserialize exampleFile = .ok exampleConfig := by
  have h : (deserialize exampleFile).isOk = true := by decide +kernel
  unfold exampleConfig
  revert h
  cases deserialize exampleFile
  · intro h; cases h
  · intro _; rfl

/-- A world with exact arithmetic; a toy key is a byte, here found in the first byte of
the file's keys. -/
noncomputable def exampleWorld (sampling : Bool) : World toyBox where
  pkey b := b 0
  skey b := if b 0 = 97 then (98 : Byte) else (254 : Byte)
  arith := .exact
  division := id
  rand := fun s i => s.toNat + 3 * i
  sampling := sampling
  draw k s i := (k + 3 * i, s + 5 * i)
  clientRand s := { secret := fun i => ⟨fun j => 3 * i + j, fun j _ => BitVec.ofNat 8 (7 * j), fun _ => (5 : Byte), fun _ => 0, fun _ => 0⟩
                    row := fun j => 7 * j + s }
  secret k s i := ⟨fun j => i + j, fun j _ => BitVec.ofNat 8 (k + s + j), fun _ => (5 : Byte), fun _ => 0, fun _ => 0⟩
  order _ _ := id
  backendOrder _ := id
  junk := Database.row 0

theorem exampleWorld_sane (sampling : Bool) : (exampleWorld sampling).Sane :=
  ⟨⟨monotone_id, fun _ _ => rfl⟩, fun _ _ _ => List.Perm.refl _, fun _ _ => List.Perm.refl _⟩

theorem pow_split (a b : Nat) : (2 : ℝ) ^ a / 2 ^ (a + b) = 1 / 2 ^ b := by
  rw [pow_add, div_mul_eq_div_div, div_self (by positivity)]

/-- The bit pattern in the file stands for 1. -/
theorem example_epsilon : Dbl.ofBits exampleConfig.epsilon = .fin 1 := by
  have e : exampleConfig.epsilon = 0x3ff0000000000000#64 := by decide +kernel
  have h1 : (0x3ff0000000000000#64).msb = false := by decide
  rw [e]
  unfold Dbl.ofBits
  rw [h1]
  norm_num
  rw [mul_div_assoc, pow_split 1023 52]
  norm_num

/-- The bit pattern in the file stands for the double next to 0.1. -/
theorem example_delta : ∃ δ : ℝ, Dbl.ofBits exampleConfig.delta = .fin δ ∧ 1 / 11 < δ ∧ δ < 1 / 9 := by
  have e : exampleConfig.delta = 0x3fb999999999999a#64 := by decide +kernel
  have h1 : (0x3fb999999999999a#64).msb = false := by decide
  rw [e]
  unfold Dbl.ofBits
  rw [h1]
  refine ⟨7205759403792794 / 2 ^ 56, ?_, by norm_num, by norm_num⟩
  norm_num
  rw [mul_div_assoc, pow_split 1019 56]
  norm_num

theorem example_dist : ∃ d x, Dist.new .exact (Dbl.ofBits exampleConfig.epsilon) (Dbl.ofBits exampleConfig.delta) = .ok d ∧
    d.cutoff = .fin x ∧ ⌊2 * x⌋.toNat ≤ 40 := by
  obtain ⟨δ, h1, h2, h3⟩ := example_delta
  have hp : 0 < δ := by linarith
  have hl0 : 0 ≤ Real.log (1 / δ) := Real.log_nonneg (by rw [le_div_iff₀ hp]; linarith)
  have hl1 : Real.log (1 / δ) < 10 := by
    have := Real.log_le_sub_one_of_pos (show 0 < 1 / δ by positivity)
    have h4 : 1 / δ < 11 := by rw [div_lt_iff₀ hp]; linarith
    linarith
  have hfl : ⌊2 * (2 / 1 * Real.log (1 / δ))⌋.toNat ≤ 40 := by
    rw [Int.toNat_le]
    apply Int.floor_le_iff.mpr
    push_cast
    linarith
  have hf := fields_exact 1 δ one_pos hp (by linarith)
  refine ⟨_, _, ?_, (rfl : Dist.cutoff ⟨false, .fin (2 / 1), .fin (2 / 1 * Real.log (1 / δ))⟩ = _), hfl⟩
  rw [h1, example_epsilon]
  unfold Dist.new
  simp only [hf]
  unfold domainCheck
  have hm : Dbl.mul .exact (.fin 2) (.fin (2 / 1 * Real.log (1 / δ))) = .fin (2 * (2 / 1 * Real.log (1 / δ))) := rfl
  rw [hm, toU32_ok (by linarith) (by norm_num at hl1 ⊢; linarith), bind_ok, if_neg (by
    rw [not_not, wrap32_of_lt (by omega)]), bind_ok]

theorem exact_sound : SoundRounding .exact := ⟨fun _ _ h => h, rfl, fun _ => ⟨rfl, rfl⟩⟩

/-- The README's deployment, in both builds: two parties, a client with 100 queries. -/
theorem readme (sampling : Bool) : Answers (launch (exampleWorld sampling) (fun _ => some exampleFile) "config/example.txt" "all" 2 100)
    (fun a b => Linked 2 1 (a, 0) (b, 0)) 1 1 (fun _ => 0) (fun _ => 100) 100 (fun _ j => (7 * j + 0) % 100) := by
  obtain ⟨d, x, h1, h2, h3⟩ := example_dist
  obtain ⟨x', h4, hN⟩ := C61_samples (exampleWorld sampling) exact_sound exampleConfig d h1 (by rw [h2]; rfl)
  have e : x' = x := by rw [h2] at h4; injection h4 with h4; exact h4.symm
  subst e
  have e1 : exampleConfig.partyCount.toNat = 2 := by decide +kernel
  have e2 : exampleConfig.dbSize.toNat = 100 := by decide +kernel
  have h5 : ∀ p ∈ exampleConfig.parties, p.pkey 0 = if p.skey 0 = 97 then (98 : Byte) else (254 : Byte) := by decide +kernel
  have := C61_one_server (exampleWorld sampling) (exampleWorld_sane sampling) exampleConfig d
    ⟨by decide +kernel, by decide +kernel, by decide +kernel, h5, h1⟩ (by decide +kernel) (fun _ => some exampleFile)
    "config/example.txt" "all" (by decide) (Or.inr rfl) exampleFile_reads _ hN 100 (by rw [e1, e2]; omega)
  rw [e1, e2] at this
  exact this

noncomputable def generatedWorld : World toyBox := { exampleWorld false with skey := fun b => b 0 }

def generatedKeys (i : Nat) : (Fin keySize → Byte) × (Fin keySize → Byte) :=
  (fun _ => BitVec.ofNat 8 i, fun _ => BitVec.ofNat 8 i)

def generatedConfig : Config :=
  match fromArgs generatedKeys 5 exampleConfig.epsilon exampleConfig.delta 3 2 [] with
  | .ok c => c
  | .error _ => ⟨0, 0, 0, 0, 0, []⟩

def generatedFile : List Byte := match serialize generatedConfig with
  | .ok data => data
  | .error _ => []

theorem generated_args : fromArgs generatedKeys (5 : Nat) exampleConfig.epsilon exampleConfig.delta (3 : Nat) (2 : Nat) [] = .ok generatedConfig := by
  have h : (fromArgs generatedKeys 5 exampleConfig.epsilon exampleConfig.delta 3 2 []).isOk = true := by decide +kernel
  unfold generatedConfig
  revert h
  show _ → fromArgs generatedKeys 5 exampleConfig.epsilon exampleConfig.delta 3 2 [] = _
  cases fromArgs generatedKeys 5 exampleConfig.epsilon exampleConfig.delta 3 2 []
  · intro h; cases h
  · intro _; rfl

/-- A generated configuration for three parties of two servers. -/
theorem generated : Answers (launchMany generatedWorld (fun _ => some generatedFile) "f" "all" 3 2 (fun _ => 7)) (Linked 3 2)
    (4 + 124 * 3 * (14 + 2 * (5 * 40))) 2 (fun s => (0, s)) (fun _ => 7) 5 (fun s j => (7 * j + s) % 5) := by
  obtain ⟨d, x, h1, h2, h3⟩ := example_dist
  have hc := generated_args
  have hs : serialize generatedConfig = .ok generatedFile := by
    have h : (serialize generatedConfig).isOk = true := by decide +kernel
    unfold generatedFile
    revert h
    cases serialize generatedConfig
    · intro h; cases h
    · intro _; rfl
  intro cap hcap
  have := C61_generated_many generatedWorld
    ⟨(exampleWorld_sane false).division, (exampleWorld_sane false).order, (exampleWorld_sane false).backendOrder⟩ exact_sound
    generatedKeys (fun _ => rfl) 5 3 2 exampleConfig.epsilon exampleConfig.delta (by omega) (by omega) (by omega) (by norm_num) []
    (Or.inr rfl) (by simp) d h1 (by rw [h2]; rfl) x h2 (fun _ => 7) (by simp [List.range_succ]; omega) _ hc _ hs
    (by decide +kernel) (fun _ => some generatedFile) "f" "all" (by decide) rfl (Or.inr rfl) (fun _ => ⟨rfl, 7, fun _ _ => rfl⟩) cap hcap
  refine ⟨fun n hn => ?_, this.2⟩
  obtain ⟨a1, a2, a3⟩ := this.1 n hn
  refine ⟨a1, fun hr => a2 (fun a b hl => le_trans ?_ (hr a b hl)), a3⟩
  simp [List.range_succ]
  omega

end Example

end DPPIR.Props
