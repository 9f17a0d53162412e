import Verif.Model.Grid
import Verif.Spec.Chain

/-!
# Vocabulary for deployments with several servers per party

What a valid deployment is, how many messages each server should see, which tags are in
use, and how much the connections between siblings must hold.
-/

namespace DPPIR.Protocol
open DPPIR Proc Onion

variable {box : SealedBox}

namespace Grid
variable (g : Grid box)

/-- Rows each server but the last makes noise for: the database divided by the number of
servers, rounded up. -/
def share : Nat := (g.rows + g.servers - 1) / g.servers
/-- First row server `s` makes noise for. -/
def first (s : Nat) : Nat := s * g.share
/-- Number of rows server `s` makes noise for. -/
def width (s : Nat) : Nat := if s + 1 = g.servers then g.rows - g.first s else g.share

/-- Number of noise queries server `s` of party `k` samples. -/
def noise (k s : Nat) : Nat := ((List.range (g.width s)).map (fun i => ((g.partyRand k s).sample i).toNat)).sum

/-- Number of queries leaving all servers of level `k` towards level `k + 1`. -/
def total : Nat → Nat
  | 0 => ((List.range g.servers).map g.count).sum
  | k + 1 => total k + ((List.range g.servers).map (g.noise k)).sum

/-- Number of queries leaving server `s` of level `k`: those of all servers in equal
parts, the last one takes the rest. -/
def load : Nat → Nat → Nat
  | 0, s => g.count s
  | k + 1, s => if s + 1 = g.servers then g.total (k + 1) - (g.servers - 1) * (g.total (k + 1) / g.servers)
      else g.total (k + 1) / g.servers

/-- A deployment as the configuration tool makes it: 2 to 255 parties, 2 to 254 servers
per party, a database that fits the sharing modulus and has rows for every server to
make noise for, matching key pairs, and a total number of queries that fits the 32-bit
counters.  A hash map is traversed in some order. -/
structure Valid : Prop where
  parties : 2 ≤ g.parties ∧ g.parties ≤ 255
  servers : 2 ≤ g.servers ∧ g.servers ≤ 254
  rows : g.servers ≤ g.rows ∧ g.rows ≤ 2 ^ 31 - 1
  ranges : (g.servers - 1) * g.share ≤ g.rows
  keys : g.pkeys = (List.range g.parties).map g.pkey
  pairs : ∀ k < g.parties, box.IsPair (g.pkey k) (g.skey k)
  division : ∀ k s, Noise.IsDivRounding (g.partyRand k s).rnd
  order : ∀ k s l, ((g.partyRand k s).order l).Perm l
  backendOrder : ∀ s l, (g.backendOrder s l).Perm l
  fits : g.total (g.parties - 1) < 2 ^ 32

/-! ### Tags -/

/-- Tag of the `i`-th secret of the client of server `s` (`Client::SampleTag`). -/
def clientTag (s i : Nat) : BitVec 64 := BitVec.ofNat 64 (wrap32 (s * g.count s + i))

/-- Tag of the `i`-th noise secret of server `s` of party `k`
(`ParallelParty::SampleTag`): the total number of queries after this party, less the
noise for all rows from the first row of this server on, if every row had as much noise
as those of this server on average; `uint32_t` arithmetic for the latter. -/
def noiseTag (k s i : Nat) : BitVec 64 :=
  let perRow := g.noise k s / g.width s
  let offset := wrap32 (wrap32 (perRow * g.rows) + 2 ^ 32 - wrap32 (g.first s * perRow))
  BitVec.ofInt 64 ((g.total (k + 1) : Int) - offset + i)

/-- All tags that are ever made. -/
def allTags : List (BitVec 64) :=
  (List.range g.servers).flatMap (fun s => (List.range (g.count s)).map (g.clientTag s)) ++
  (List.range (g.parties - 1)).flatMap (fun k => (List.range g.servers).flatMap (fun s =>
    (List.range (g.noise k s)).map (g.noiseTag k s)))

/-- No two secrets have the same tag. -/
def DistinctTags : Prop := g.allTags.Nodup

/-- All clients have the same number of queries. -/
def EqualClients : Prop := ∃ q, ∀ s < g.servers, g.count s = q

/-- Every row gets the same number of noise queries, which may depend on the party. -/
def EvenNoise : Prop := ∀ k < g.parties - 1, ∃ N, ∀ s < g.servers, ∀ i < g.width s, ((g.partyRand k s).sample i).toNat = N

/-! ### Connections -/

/-- Connections that hold the messages of one exchange among the servers of a party:
four bytes of a count, all secrets that server `s` installed, all its ciphers or queries,
all its responses; and at least a byte between the servers of consecutive parties. -/
structure Roomy (cap : Node × Node → Nat) : Prop where
  link : ∀ k s, k < g.parties → s < g.servers → 0 < cap ((k, s), (k + 1, s)) ∧ 0 < cap ((k + 1, s), (k, s))
  count : ∀ k s t, k < g.parties → s < g.servers → t < g.servers → s ≠ t → 4 ≤ cap ((k + 1, s), (k + 1, t))
  secrets : ∀ k s t, k < g.parties → s < g.servers → t < g.servers → s ≠ t →
    g.load k s * secretSize ≤ cap ((k + 1, s), (k + 1, t))
  ciphers : ∀ k s t, k < g.parties - 1 → s < g.servers → t < g.servers → s ≠ t →
    (g.noise k s + g.load k s) * cipherSize (g.parties - k - 1) ≤ cap ((k + 1, s), (k + 1, t))
  queries : ∀ k s t, k < g.parties - 1 → s < g.servers → t < g.servers → s ≠ t →
    (g.noise k s + g.load k s) * querySize ≤ cap ((k + 1, s), (k + 1, t))
  responses : ∀ k s t, k < g.parties - 1 → s < g.servers → t < g.servers → s ≠ t →
    g.load (k + 1) s * responseSize ≤ cap ((k + 1, s), (k + 1, t))

/-! ### Service -/

/-- The key the `j`-th query of the client of server `s` asks for. -/
def wanted (s j : Nat) : Nat := if g.rows < 2 then 0 else (g.clientRand s).row j % g.rows

/-- What it means that a deployment serves its clients: whatever the schedule and the
connections, no process ever stops abnormally, the responses of every client are always
the rows of its keys, in order, none missing when it has returned, and no run is
infinite; if the connections hold the messages of one exchange, a process can move
until all have returned. -/
def Serves (offline : Bool) : Prop :=
  ∀ cap : Node × Node → Nat,
    (∀ n, PNet.Reach cap (g.net offline true) n →
      (∀ i, ¬ n.Faulted i) ∧
      (g.Roomy cap → n.CanStep cap ∨ ∀ i, n.Returned i ()) ∧
      ∀ s < g.servers, ∀ d, Database.new g.rows = .ok d →
        wants (n.seen (0, s)) <+: (List.range (g.count s)).map (g.wanted s) ∧
        (results (n.seen (0, s))).map Except.ok <+: ((List.range (g.count s)).map (g.wanted s)).map d.lookup ∧
        (n.Returned (0, s) () → wants (n.seen (0, s)) = (List.range (g.count s)).map (g.wanted s) ∧
          (results (n.seen (0, s))).map Except.ok = (wants (n.seen (0, s))).map d.lookup)) ∧
    ¬ ∃ f : Nat → PNet Node Obs Unit, f 0 = g.net offline true ∧ ∀ k, ∃ i, PNet.Step cap i (f k) (f (k + 1))

end Grid

end DPPIR.Protocol
