import Verif.Spec.Siblings

/-!
# Vocabulary for the broadcast of the secrets among the servers of a party

What a server has stored is said with `LoadSecret`: it finds an entry or it does not.
-/

namespace DPPIR.Spec
open DPPIR DPPIR.Protocol Onion

/-- A network of the servers `0, …, S - 1`, each of which runs its own program from its
own state; server `s` has the name `s`. -/
def servers {α : Type} (S : Nat) (prog : Nat → α → PProg Nat α) (p : Nat → α) : PNet Nat Obs α :=
  PNet.start (fun s => if s < S then prog s (p s) else .done (p s))

/-- After `LoadSecret(tag)` the getters of the state read `e`. -/
def CanLoad (st : PartyState) (tag : BitVec 64) (e : PartySecret) : Prop := (st.loadSecret tag).it = some e

/-- The same for the backend. -/
def CanLoadB (st : BackendState) (tag : BitVec 64) (e : BackendSecret) : Prop := (st.loadSecret tag).it = some e

/-- The servers are in the offline stage of a deployment with `S` servers per party and
have installed their secrets; the hash map of each has different keys; it is traversed in
any order; and there are less than `2 ^ 32` secrets. -/
structure Installed {box : SealedBox} (S : Nat) (p : Nat → ParallelParty box) (rand : Nat → ParallelRand box) : Prop where
  servers : 0 < S ∧ S < 255
  id : ∀ s, s < S → (p s).serverId = s ∧ (p s).serverCount = S
  offline : ∀ s, s < S → (p s).queriesState.simulated = false
  keys : ∀ s, s < S → ((p s).queriesState.secrets.map Prod.fst).Nodup
  order : ∀ s, s < S → ((rand s).order (p s).queriesState.secrets).Perm (p s).queriesState.secrets
  total : ((List.range S).map (fun s => (p s).queriesState.secrets.length)).sum < 2 ^ 32

/-- The same for the servers of the backend. -/
structure InstalledB {box : SealedBox} (S : Nat) (b : Nat → Backend box)
    (order : Nat → List (BitVec 64 × BackendSecret) → List (BitVec 64 × BackendSecret)) : Prop where
  servers : 0 < S ∧ S < 255
  offline : ∀ s, s < S → (b s).state.simulated = false
  keys : ∀ s, s < S → ((b s).state.secrets.map Prod.fst).Nodup
  order : ∀ s, s < S → (order s (b s).state.secrets).Perm (b s).state.secrets
  total : ((List.range S).map (fun s => (b s).state.secrets.length)).sum < 2 ^ 32

/-- The connections from `s` have room for all the secrets of `s`. -/
def Roomy (S : Nat) (count : Nat → Nat) (cap : Nat × Nat → Nat) : Prop :=
  ∀ s t, s < S → t < S → 4 ≤ cap (s, t) ∧ count s * secretSize ≤ cap (s, t)

end DPPIR.Spec
