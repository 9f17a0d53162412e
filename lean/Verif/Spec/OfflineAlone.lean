import Verif.Spec.Joint
import Verif.Spec.Preparation

/-!
# What it means that the offline stage runs alone
-/

namespace DPPIR.Main
open DPPIR.Protocol DPPIR.Onion DPPIR.Config

variable {ι : Type} [DecidableEq ι] {box : SealedBox}

/-- What the clients (0), the parties (1, 2, ...) and the backend (`P`) have seen at the end
of the offline stage for `q` queries at each of the `S` chains; `opened k` opens what is
sealed for party `k`.  The client has announced `q`; every other process has read the count
that the one before has sent, and the ciphers it has sent, in order; these are as many as
announced; from each it has installed the secret it finds inside; and the servers of a
party together have sent on what is inside behind the secret, of every cipher, in another
order and with ciphers of their own (`noise`). -/
structure OfflineDone (opened : Nat → List Byte → Option (List Byte)) (P S q : Nat) (seen : Nat → Nat → List Obs) : Prop where
  asked : ∀ s < S, countsSent (seen 0 s) = [BitVec.ofNat 32 q]
  counts : ∀ k < P, ∀ s < S, countsRead (seen (k + 1) s) = countsSent (seen k s)
  ciphers : ∀ k < P, ∀ s < S, ciphersRead (seen (k + 1) s) = ciphersSent (seen k s)
  announced : ∀ k < P, ∀ s < S, (ciphersSent (seen k s)).length = ((countsSent (seen k s)).map BitVec.toNat).sum
  installed : ∀ k < P, ∀ s < S, List.Forall₂
    (fun cipher secret => ∃ plain, opened k cipher = some plain ∧ secret = OfflineSecret.decode (plain.take secretSize))
    (ciphersRead (seen (k + 1) s)) (stores (seen (k + 1) s))
  forwarded : ∀ k, k + 1 < P → ∃ noise, List.Perm
    ((List.range S).flatMap fun s => ciphersSent (seen (k + 1) s))
    (noise ++ (List.range S).flatMap fun s =>
      (ciphersRead (seen (k + 1) s)).filterMap fun cipher => (opened k cipher).map (List.drop secretSize))

/-- Opens what is sealed for party `k`, with the keys in the configuration. -/
def opens (w : World box) (c : Config) (k : Nat) (cipher : List Byte) : Option (List Byte) :=
  c.parties[k]?.bind fun p => box.openMsg (w.pkey p.pkey) (w.skey p.skey) cipher

/-- The processes `prog`, of which `chain k s` is the client (`k = 0`) or the server
(`k = 1, 2, ...`) of chain `s`, prepare for `q` queries each and do nothing else.  Whatever
the capacities of the connections (at least a byte), the schedule, and what each `read` and
`poll` returns: no process ever stops abnormally; no process asks for a row, sends or reads
a query or a response, or looks anything up; when all have returned, all is prepared; there
is no infinite run; and if the connections are large enough, some process can move until
all have returned and all bytes are read. -/
def PreparesOnly (prog : ι → PProg ι Unit) (link : ι → ι → Prop) (capacity : Nat)
    (opened : Nat → List Byte → Option (List Byte)) (P S : Nat) (chain : Nat → Nat → ι) (q : Nat) : Prop :=
  ∀ cap : ι × ι → Nat, (∀ a b, link a b → 0 < cap (a, b)) →
    (∀ n, PNet.Reach cap (PNet.start prog) n →
      (∀ i, ¬ n.Faulted i) ∧
      ((∀ a b, link a b → capacity ≤ cap (a, b)) → n.CanStep cap ∨ (∀ i, n.Returned i ()) ∧ ∀ x, n.chan x = []) ∧
      (∀ s < S, ∀ k, ∀ o ∈ n.seen (chain k s), o.prepares = true) ∧
      ((∀ i, n.Returned i ()) → OfflineDone opened P S q (fun k s => n.seen (chain k s)))) ∧
    ¬ ∃ f : Nat → PNet ι Obs Unit, f 0 = PNet.start prog ∧ ∀ k, ∃ i, PNet.Step cap i (f k) (f (k + 1))

end DPPIR.Main

namespace DPPIR.Joint
open DPPIR.Connect DPPIR.Protocol DPPIR.Main

variable {ι A : Type} [DecidableEq ι] [DecidableEq A]

/-- The same for processes that connect with `setup` first. -/
def ConnectsAndPreparesOnly (pos : ι → Node) (setup : Node → CProc Node A (Wiring Node)) (prog : ι → PProg ι Unit) (capacity : Nat)
    (opened : Nat → List Byte → Option (List Byte)) (P S : Nat) (chain : Nat → Nat → ι) (q : Nat) : Prop :=
  ∀ cap : Sock Node → Nat, (∀ s, 0 < cap s) →
    (∀ n, JNet.Reach pos cap (JNet.start setup prog) n →
      (∀ i, ¬ n.Faulted pos i) ∧ (∀ j, ¬ n.net.Faulted j) ∧
      ((∀ s, capacity ≤ cap s) →
        n.CanStep pos cap ∨ (∀ i, n.Returned pos i) ∧ (∀ j, ∃ w, n.net.Returned j w) ∧ ∀ s, n.net.chan s = []) ∧
      (∀ s < S, ∀ k, ∀ o ∈ n.seen (chain k s), o.prepares = true) ∧
      ((∀ i, n.Returned pos i) → OfflineDone opened P S q (fun k s => n.seen (chain k s)))) ∧
    ¬ ∃ f : Nat → JNet ι A Obs, f 0 = JNet.start setup prog ∧ ∀ k, JNet.Step pos cap (f k) (f (k + 1))

end DPPIR.Joint
