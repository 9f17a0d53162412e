import Verif.Spec.Grid
import Verif.Spec.ParallelShuffle

/-!
# Vocabulary for what a process hears

Which bytes a process has read from each of the others, and what the servers of one
party tell each other in these bytes.
-/

namespace DPPIR

namespace PNet
variable {ι O α : Type} [DecidableEq ι]

/-- The steps of `PNet.Reach`, together with the bytes process `i` read from each
process on the way. -/
inductive Hears (cap : ι × ι → Nat) (i : ι) (n : PNet ι O α) : PNet ι O α → (ι → List Byte) → Prop where
  | refl : Hears cap i n n (fun _ => [])
  /-- a step of another process -/
  | other {m m' : PNet ι O α} {L : ι → List Byte} {j : ι} (h : Hears cap i n m L) (s : Step cap j m m') (hj : j ≠ i) :
      Hears cap i n m' L
  /-- a step in which process `i` reads nothing -/
  | quiet {m m' : PNet ι O α} {L : ι → List Byte} (h : Hears cap i n m L) (s : Step cap i m m')
      (hq : (∀ src k, m.proc i ≠ .recv src k) ∧ ∀ src l k, m.proc i ≠ .read src l k) : Hears cap i n m' L
  /-- process `i` reads one byte -/
  | recv {m : PNet ι O α} {L : ι → List Byte} {src : ι} {k : Byte → PProc ι O α} {b : Byte} {rest : List Byte}
      (h : Hears cap i n m L) (hp : m.proc i = .recv src k) (data : m.chan (src, i) = b :: rest) :
      Hears cap i n { m with proc := Function.update m.proc i (k b)
                             chan := Function.update m.chan (src, i) rest }
        (Function.update L src (L src ++ [b]))
  /-- process `i` reads some bytes -/
  | read {m : PNet ι O α} {L : ι → List Byte} {src : ι} {l : Nat} {k : List Byte → PProc ι O α} {c rest : List Byte}
      (h : Hears cap i n m L) (hp : m.proc i = .read src l k) (some : c ≠ []) (fits : c.length ≤ l)
      (data : m.chan (src, i) = c ++ rest) :
      Hears cap i n { m with proc := Function.update m.proc i (k c)
                             chan := Function.update m.chan (src, i) rest }
        (Function.update L src (L src ++ c))

/-- Nothing but a way to look at runs: what can be reached is reached while hearing
something. -/
theorem hears_iff_reach (cap : ι × ι → Nat) (i : ι) (n m : PNet ι O α) : Reach cap n m ↔ ∃ L, Hears cap i n m L := by
  constructor
  · intro h
    induction h with
    | refl => exact ⟨_, .refl⟩
    | @step m m' j _ st ih =>
      obtain ⟨L, hL⟩ := ih
      by_cases hj : j = i
      · subst hj
        cases st with
        | send hp room => exact ⟨L, .quiet hL (.send hp room) ⟨by simp [hp], by simp [hp]⟩⟩
        | recv hp data => exact ⟨_, .recv hL hp data⟩
        | obs hp => exact ⟨L, .quiet hL (.obs hp) ⟨by simp [hp], by simp [hp]⟩⟩
        | poll ready hp sound some => exact ⟨L, .quiet hL (.poll ready hp sound some) ⟨by simp [hp], by simp [hp]⟩⟩
        | read hp some fits data => exact ⟨_, .read hL hp some fits data⟩
      · exact ⟨L, .other hL st hj⟩
  · rintro ⟨L, h⟩
    induction h with
    | refl => exact .refl
    | other _ s _ ih => exact .step ih s
    | quiet _ s _ ih => exact .step ih s
    | recv _ hp data ih => exact .step ih (.recv hp data)
    | read _ hp some fits data ih => exact .step ih (.read hp some fits data)

end PNet

namespace Protocol

/-- The number in the four bytes at a position of a stream. -/
def numberAt (pos : Nat) (l : List Byte) : Nat := natOfLE ((l.drop pos).take 4)

/-- The secrets at a position of a stream: their number, then the secrets. -/
def secretsAt (pos : Nat) (l : List Byte) : List OfflineSecret :=
  (List.range (numberAt pos l)).map (fun i => OfflineSecret.decode ((l.drop (pos + 4 + secretSize * i)).take secretSize))

/-- A sum over all servers of a party but one. -/
def sumOthers (servers me : Nat) (f : Nat → Nat) : Nat := (((List.range servers).filter (fun s => s ≠ me)).map f).sum

/-- The numbers of messages of the servers of a party: that of this server, and those the
siblings announce first. -/
def toldCounts (servers me own : Nat) (heard : Nat → List Byte) : List Nat :=
  (List.range servers).map (fun t => if t = me then own else numberAt 0 (heard t))

/-- The number of noise messages for this server that a sibling announces last.  In an
offline stage it follows the number of all messages (4 bytes), two ready messages (1
byte each), the number of noise messages (4 bytes), the ciphers (`bytes`), another ready
message and the secrets; else it follows the number of all messages. -/
def noiseTold (offline : Bool) (bytes : Nat) (l : List Byte) : Nat :=
  if offline then numberAt (15 + bytes + secretSize * numberAt (11 + bytes) l) l else numberAt 4 l

/-- The siblings (`heard`) and the neighbours (`seen`) mislead a server of a party: the
announced messages of all servers do not fit the 32-bit counters; or a sibling announces
more noise messages for this server than messages, by the plan that all servers follow;
or, in an offline stage, the siblings announce 2^32 or more secrets together, or this
server reads a query with a tag that neither it nor a sibling has a secret for.  `noise`
is the number of noise messages of this server, and ciphers have `unit` bytes. -/
def Misled (rand : Shuffle.RandGen) (seed : Int) (servers me noise unit : Nat) (offline : Bool) (heard : Nat → List Byte) (seen : List Obs) : Prop :=
  ∃ n ∈ countsRead seen,
    2 ^ 32 ≤ n.toNat + noise + sumOthers servers me (fun t => numberAt 0 (heard t)) ∨
    ∃ (plan : Shuffle.ParallelShuffler) (count : Nat → Nat),
      Spec.IsPlan rand seed (toldCounts servers me (n.toNat + noise) heard) me noise plan ∧
      (∀ t < servers, plan.countFrom t = .ok (count t)) ∧
      ((∃ t < servers, t ≠ me ∧ count t < noiseTold offline (count t * unit) (heard t)) ∨
        offline = true ∧ (2 ^ 32 ≤ sumOthers servers me (fun t => numberAt (11 + count t * unit) (heard t)) ∨
          ∃ q ∈ queriesRead seen, q.tag ∉ (stores seen).map OfflineSecret.tag ∧
            ∀ t < servers, t ≠ me → q.tag ∉ (secretsAt (11 + count t * unit) (heard t)).map OfflineSecret.tag))

end Protocol

end DPPIR
