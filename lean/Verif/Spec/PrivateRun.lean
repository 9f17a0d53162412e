import Verif.Spec.Chain
import Verif.Spec.Grid

/-!
# Vocabulary for the privacy of whole runs
-/

namespace DPPIR.Protocol
open DPPIR Proc Onion

variable {box : SealedBox}

/-- The same deployment with other draws behind the client's keys. -/
def Chain.asking (c : Chain box) (row : Nat → Nat) : Chain box := { c with clientRand := { c.clientRand with row := row } }

/-- The same deployment when the samples of party `k` are `σ`, one per row. -/
def Chain.sampling {rows : Nat} (c : Chain box) (k : Nat) (σ : Fin rows → Nat) : Chain box :=
  { c with partyRand := Function.update c.partyRand k
            { c.partyRand k with sample := fun key => BitVec.ofNat 32 (if h : key < rows then σ ⟨key, h⟩ else 0) } }

/-- How often each row is looked up in the record `t` of the backend. -/
def lookupCounts (rows : Nat) (t : List Obs) : Fin rows → Nat := fun key => (lookups t).count key.val

/-- In some complete run, the backend looks up each row as often as `x` says. -/
def Chain.Counts {rows : Nat} (c : Chain box) (offline : Bool) (x : Fin rows → Nat) : Prop :=
  ∃ (cap : Nat × Nat → Nat) (s : List Nat) (n : Net Nat Obs), (∀ i, 0 < cap i) ∧ (c.net offline true).run cap s = some n ∧
    (∀ i, n.Finished i) ∧ lookupCounts rows (n.seen c.parties) = x

/-! ### Several servers per party -/

/-- The same deployment with other draws behind the keys of the client of server `s`. -/
def Grid.asking (g : Grid box) (s : Nat) (row : Nat → Nat) : Grid box :=
  { g with clientRand := Function.update g.clientRand s { g.clientRand s with row := row } }

/-- The same deployment when the samples of the servers of party `k` are `σ`, one per
row: server `s` samples for the rows of its share. -/
def Grid.sampling {rows : Nat} (g : Grid box) (k : Nat) (σ : Fin rows → Nat) : Grid box :=
  { g with partyRand := Function.update g.partyRand k (fun s =>
            { g.partyRand k s with sample := fun i => BitVec.ofNat 32 (if h : g.first s + i < rows then σ ⟨g.first s + i, h⟩ else 0) }) }

/-- In some complete run, the servers of the backend together look up each row as often
as `x` says. -/
def Grid.Counts {rows : Nat} (g : Grid box) (offline : Bool) (x : Fin rows → Nat) : Prop :=
  ∃ (cap : Node × Node → Nat) (n : PNet Node Obs Unit), PNet.Reach cap (g.net offline true) n ∧ (∀ i, n.Returned i ()) ∧
    lookupCounts rows ((List.range g.servers).flatMap (fun s => n.seen (g.parties, s))) = x

end DPPIR.Protocol
