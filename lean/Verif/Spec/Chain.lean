import Verif.Model.Chain
import Verif.Spec.Rounding
import Verif.Spec.Onion
import Verif.Spec.Sharing

/-!
# Vocabulary for deployments

What a valid deployment is, how many messages each process should see, and the parts
of a process's record of calls.
-/

namespace DPPIR.Protocol
open DPPIR Proc Onion

variable {box : SealedBox}

/-- Number of noise queries party `k` samples. -/
def Chain.noise (c : Chain box) (k : Nat) : Nat :=
  ((List.range c.rows).map (fun key => ((c.partyRand k).sample key).toNat)).sum

/-- Number of queries leaving process `k` towards process `k + 1`: the client's and
the noise of the parties before. -/
def Chain.queries (c : Chain box) : Nat → Nat
  | 0 => c.count
  | k + 1 => c.queries k + c.noise k

/-- A deployment as the configuration tool makes it: 2 to 255 parties, a database
that fits the sharing modulus, matching key pairs, and a total number of queries that
fits the 32-bit counters. -/
structure Chain.Valid (c : Chain box) : Prop where
  parties : 2 ≤ c.parties ∧ c.parties ≤ 255
  rows : 1 ≤ c.rows ∧ c.rows ≤ 2 ^ 31 - 1
  keys : c.pkeys = (List.range c.parties).map c.pkey
  pairs : ∀ k < c.parties, box.IsPair (c.pkey k) (c.skey k)
  division : ∀ k, Noise.IsDivRounding (c.partyRand k).rnd
  fits : c.queries (c.parties - 1) < 2 ^ 32

/-- The key the client's `j`-th query asks for. -/
def Chain.wanted (c : Chain box) (j : Nat) : Nat :=
  if c.rows < 2 then 0 else c.clientRand.row j % c.rows

/-! ### Parts of a record of calls -/

def wants (l : List Obs) : List Nat := l.filterMap (fun | .want k => some k | _ => none)
def results (l : List Obs) : List Response := l.filterMap (fun | .result r => some r | _ => none)
def lookups (l : List Obs) : List Nat := l.filterMap (fun | .lookup k => some k | _ => none)
def stores (l : List Obs) : List OfflineSecret := l.filterMap (fun | .store s => some s | _ => none)
def queriesSent (l : List Obs) : List Query := l.filterMap (fun | .sendQuery q => some q | _ => none)
def queriesRead (l : List Obs) : List Query := l.filterMap (fun | .recvQuery q => some q | _ => none)
def responsesSent (l : List Obs) : List Response := l.filterMap (fun | .sendResponse r => some r | _ => none)
def responsesRead (l : List Obs) : List Response := l.filterMap (fun | .recvResponse r => some r | _ => none)
def ciphersSent (l : List Obs) : List (List Byte) := l.filterMap (fun | .sendCipher q => some q | _ => none)
def ciphersRead (l : List Obs) : List (List Byte) := l.filterMap (fun | .recvCipher q => some q | _ => none)
def countsSent (l : List Obs) : List (BitVec 32) := l.filterMap (fun | .sendCount q => some q | _ => none)
def countsRead (l : List Obs) : List (BitVec 32) := l.filterMap (fun | .recvCount q => some q | _ => none)

/-- What it means that a deployment serves its client: whatever the schedule, no
process ever stops abnormally, a process can move until all have returned, the number
of steps is bounded, and the responses of the client are always the rows of its keys,
in order, none missing when it has returned. -/
def Chain.Serves (c : Chain box) (offline : Bool) : Prop :=
  ∀ cap : Nat × Nat → Nat, (∀ x, 0 < cap x) → ∃ N, ∀ s n, (c.net offline true).run cap s = some n →
    s.length ≤ N ∧ (∀ i, ¬ n.Faulted i) ∧ (n.CanStep cap ∨ ∀ i, n.Finished i) ∧
    wants (n.seen 0) <+: (List.range c.count).map c.wanted ∧
    (∀ d, Database.new c.rows = .ok d →
      (results (n.seen 0)).map Except.ok <+: ((List.range c.count).map c.wanted).map d.lookup ∧
      (n.Finished 0 → wants (n.seen 0) = (List.range c.count).map c.wanted ∧
        (results (n.seen 0)).map Except.ok = (wants (n.seen 0)).map d.lookup))

end DPPIR.Protocol
