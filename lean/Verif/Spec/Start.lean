import Verif.Model.Start
import Verif.Spec.Chain
import Verif.Spec.Rounding
import Verif.Model.GenConfig

/-!
# A deployment that is started from the command line
-/

namespace DPPIR.Main
open DPPIR.Config DPPIR.Noise DPPIR.Protocol DPPIR.Onion

variable {box : SealedBox} {ι : Type} [DecidableEq ι]

/-- `--config=path --stage=stage --role=client --server_id=s --queries=q` -/
def clientFlags (path stage : String) (s q : Nat) : Flags :=
  { role := "client", stage := stage, config := path, serverId := s, partyId := -1, queries := q }

/-- `--config=path --stage=stage --role=party --party_id=k --server_id=s` -/
def partyFlags (path stage : String) (k s : Nat) : Flags :=
  { role := "party", stage := stage, config := path, serverId := s, partyId := k, queries := -1 }

/-- One client and `P` parties with one server each, all started with the same file and
stage: process 0 is the client, process `k + 1` is party `k`. -/
noncomputable def launch (w : World box) (file : String → Option (List Byte)) (path stage : String) (P q : Nat) (i : Nat) :
    PProg Nat Unit :=
  if i = 0 then w.run (fun l _ => l) file (clientFlags path stage 0 q)
  else if i ≤ P then w.run (fun l _ => l) file (partyFlags path stage (i - 1) 0)
  else .done ()

/-- `S` clients, the `s`-th with `q s` queries, and `P` parties with `S` servers each:
process `(0, s)` is a client, process `(k + 1, s)` is server `s` of party `k`. -/
noncomputable def launchMany (w : World box) (file : String → Option (List Byte)) (path stage : String) (P S : Nat)
    (q : Nat → Nat) (i : Node) : PProg Node Unit :=
  if i.2 < S then
    if i.1 = 0 then w.run Prod.mk file (clientFlags path stage i.2 (q i.2))
    else if i.1 ≤ P then w.run Prod.mk file (partyFlags path stage (i.1 - 1) i.2)
    else .done ()
  else .done ()

/-- The pairs of processes that exchange bytes: client and server of the first party, the
same server of two consecutive parties, two servers of a party. -/
def Linked (P S : Nat) (a b : Node) : Prop :=
  a.1 ≤ P ∧ a.2 < S ∧ b.1 ≤ P ∧ b.2 < S ∧
    ((a.2 = b.2 ∧ (a.1 + 1 = b.1 ∨ b.1 + 1 = a.1)) ∨ (a.1 = b.1 ∧ 0 < a.1 ∧ a.2 ≠ b.2))

/-- The processes `prog` answer the clients `client s`, `s < S`, each of which asks for the
rows `row s 0, row s 1, ..., row s (count s - 1)` of a database with the given number of
rows; `link` tells which pairs of processes are connected.  Whatever the capacities of the
connections (at least a byte), the schedule, and what each `read` and `poll` returns: no
process ever stops abnormally; the results a client has got are the rows it asked for, in
order, none missing when it has returned; there is no infinite run; and if the connections
are large enough, some process can move until all have returned and all bytes are read. -/
def Answers (prog : ι → PProg ι Unit) (link : ι → ι → Prop) (capacity : Nat) (S : Nat) (client : Nat → ι) (count : Nat → Nat)
    (rows : Nat) (row : Nat → Nat → Nat) : Prop :=
  ∀ cap : ι × ι → Nat, (∀ a b, link a b → 0 < cap (a, b)) →
    (∀ n, PNet.Reach cap (PNet.start prog) n →
      (∀ i, ¬ n.Faulted i) ∧
      ((∀ a b, link a b → capacity ≤ cap (a, b)) → n.CanStep cap ∨ (∀ i, n.Returned i ()) ∧ ∀ x, n.chan x = []) ∧
      ∀ s < S, ∀ d, Database.new rows = .ok d →
        (results (n.seen (client s))).map Except.ok <+: (List.range (count s)).map (fun j => d.lookup (row s j)) ∧
        (n.Returned (client s) () →
          (results (n.seen (client s))).map Except.ok = (List.range (count s)).map (fun j => d.lookup (row s j)))) ∧
    ¬ ∃ f : Nat → PNet ι Obs Unit, f 0 = PNet.start prog ∧ ∀ k, ∃ i, PNet.Step cap i (f k) (f (k + 1))

/-- A configuration that a deployment can be started with: at least two parties, a
database that fits the sharing modulus, the configuration of every server, keys that are
pairs, and parameters of the noise that `NoiseDistribution` accepts. -/
structure Usable (w : World box) (c : Config) (d : Dist) : Prop where
  parties : 2 ≤ c.partyCount.toNat ∧ c.parties.length = c.partyCount.toNat
  servers : ∀ p ∈ c.parties, p.servers.length = c.serverCount.toNat
  rows : 1 ≤ c.dbSize.toNat ∧ c.dbSize.toNat ≤ 2 ^ 31 - 1
  pairs : ∀ p ∈ c.parties, box.IsPair (w.pkey p.pkey) (w.skey p.skey)
  noise : w.distribution c = .ok d

/-- All samples of the noise are numbers up to `N`. -/
def World.SamplesUpTo (w : World box) (d : Dist) (N : Nat) : Prop := ∀ k s i, ∃ n ≤ N, w.sample d k s i = .ok n

/-- What is known of the machines: they round quotients of integers like doubles do, and
traverse hash maps in some order. -/
structure World.Sane (w : World box) : Prop where
  division : IsDivRounding w.division
  order : ∀ k s l, (w.order k s l).Perm l
  backendOrder : ∀ s l, (w.backendOrder s l).Perm l

end DPPIR.Main
