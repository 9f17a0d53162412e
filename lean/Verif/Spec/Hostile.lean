import Verif.Spec.Chain
import Verif.Spec.Grid

/-!
# Vocabulary for processes among arbitrary peers
-/

namespace DPPIR.Protocol
open DPPIR Proc Onion

variable {box : SealedBox}

/-- A deployment as the configuration tool makes it, whatever the number of queries. -/
structure Chain.Configured (c : Chain box) : Prop where
  parties : 2 ≤ c.parties ∧ c.parties ≤ 255
  rows : 1 ≤ c.rows ∧ c.rows ≤ 2 ^ 31 - 1
  keys : c.pkeys = (List.range c.parties).map c.pkey
  pairs : ∀ k < c.parties, box.IsPair (c.pkey k) (c.skey k)
  division : ∀ k, Noise.IsDivRounding (c.partyRand k).rnd

/-- The same with several servers per party. -/
structure Grid.Configured (g : Grid box) : Prop where
  parties : 2 ≤ g.parties ∧ g.parties ≤ 255
  servers : 2 ≤ g.servers ∧ g.servers ≤ 254
  rows : 1 ≤ g.rows ∧ g.rows ≤ 2 ^ 31 - 1
  keys : g.pkeys = (List.range g.parties).map g.pkey
  pairs : ∀ k < g.parties, box.IsPair (g.pkey k) (g.skey k)

/-- A process was told a number of queries that, with its own noise, does not fit the
32-bit counters. -/
def TooMany (noise : Nat) (t : List Obs) : Prop := ∃ n ∈ countsRead t, 2 ^ 32 ≤ n.toNat + noise

/-- A process read a query with a tag it has stored no secret for. -/
def UnknownTag (t : List Obs) : Prop := ∃ q ∈ queriesRead t, q.tag ∉ (stores t).map OfflineSecret.tag

/-- The last call of a process is a lookup outside of the database. -/
def OutOfRange (rows : Nat) (t : List Obs) : Prop := ∃ t' key, t = t' ++ [.lookup key] ∧ rows ≤ key

end DPPIR.Protocol
