import Verif.Spec.Grid

/-!
# What it means that all secrets are installed before a query is sent
-/

namespace DPPIR.Props
open DPPIR Proc Protocol

/-- What the `S` clients (0), the servers of the parties (1, 2, ...) and of the backend (`P`)
have seen at one moment, and later: once any client has sent a query, no server of any party
or of the backend installs another secret; each of them has one for every cipher that is ever
sent to it, and reads no more queries than it has secrets. -/
structure AllInstalled (P S : Nat) (seen later : Nat → Nat → List Obs) : Prop where
  done : ∀ s < S, queriesSent (seen 0 s) ≠ [] → ∀ k < P, ∀ t < S, stores (later (k + 1) t) = stores (seen (k + 1) t)
  ciphers : ∀ s < S, queriesSent (seen 0 s) ≠ [] → ∀ k < P, ∀ t < S,
    (ciphersSent (later k t)).length ≤ (stores (seen (k + 1) t)).length
  enough : ∀ s < S, queriesSent (seen 0 s) ≠ [] → ∀ k < P, ∀ t < S,
    (queriesRead (later (k + 1) t)).length ≤ (stores (seen (k + 1) t)).length

end DPPIR.Props
