import Verif.Spec.Preparation
import Verif.Spec.Grid

/-!
# What it means that secrets serve once, and that preparations are the same
-/

namespace DPPIR.Props
open DPPIR Proc Protocol

/-- The tags of the secrets that `S` servers together have installed. -/
def secretTags (S : Nat) (seen : Nat → List Obs) : List (BitVec 64) :=
  (List.range S).flatMap fun s => (stores (seen s)).map OfflineSecret.tag

/-- The tags of the queries that `S` servers together have read. -/
def queryTags (S : Nat) (seen : Nat → List Obs) : List (BitVec 64) :=
  (List.range S).flatMap fun s => (queriesRead (seen s)).map Query.tag

/-- What the `S` clients (0), the servers of the parties (1, 2, ...) and of the backend (`P`)
have seen: the secrets that the servers of a party have installed have different tags, the
queries they have read have different tags, each of these is the tag of a secret they have
installed, and once a client has a result each secret of each party has served exactly one
query. -/
structure SecretsServeOnce (P S : Nat) (seen : Nat → Nat → List Obs) : Prop where
  secrets : ∀ k, 1 ≤ k → k ≤ P → (secretTags S (seen k)).Nodup
  queries : ∀ k, 1 ≤ k → k ≤ P → (queryTags S (seen k)).Nodup
  installed : ∀ k, 1 ≤ k → k ≤ P → queryTags S (seen k) ⊆ secretTags S (seen k)
  used : ∀ s < S, results (seen 0 s) ≠ [] → ∀ k, 1 ≤ k → k ≤ P → (queryTags S (seen k)).Perm (secretTags S (seen k))

/-- What a process has seen in two runs: the counts, ready messages, ciphers and secrets
that it has sent, read and installed are the same in both and in the same order, as far as
the runs have got; a run has got furthest once the process has done anything else in it. -/
structure SamePreparation (seen seen' : List Obs) : Prop where
  same : preparation seen <+: preparation seen' ∨ preparation seen' <+: preparation seen
  first : (∃ o ∈ seen, o.prepares = false) → preparation seen' <+: preparation seen
  second : (∃ o ∈ seen', o.prepares = false) → preparation seen <+: preparation seen'

end DPPIR.Props
