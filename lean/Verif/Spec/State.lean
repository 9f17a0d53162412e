import Verif.Model.State

/-!
# Vocabulary for the offline-state properties: sequences of API calls
-/

namespace DPPIR.Spec

/-- `Store` one after the other. -/
def storeAll (s : PartyState) : List OfflineSecret → Res PartyState
  | [] => .ok s
  | o :: os => do
    let s ← s.store o
    storeAll s os

/-- `Store` one after the other (backend). -/
def storeAllB (s : BackendState) : List OfflineSecret → Res BackendState
  | [] => .ok s
  | o :: os => do
    let s ← s.store o
    storeAllB s os

/-- What a client keeps for one query. -/
structure ClientSecret where
  tag : BitVec 64
  incrementals : List Share
  preshare : Preshare

/-- `AddSecret` one after the other. -/
def addAll (s : ClientState) : List ClientSecret → Res ClientState
  | [] => .ok s
  | c :: cs => do
    let s ← s.addSecret c.tag c.incrementals c.preshare
    addAll s cs

/-- `AddNoiseSecret` one after the other. -/
def addAllNoise (s : ClientState) : List ClientSecret → Res ClientState
  | [] => .ok s
  | c :: cs => do
    let s ← s.addNoiseSecret c.tag c.incrementals
    addAllNoise s cs

/-- `k` calls of `LoadNext`. -/
def loads : Nat → ClientState → ClientState
  | 0, s => s
  | k + 1, s => loads k s.loadNext

end DPPIR.Spec
