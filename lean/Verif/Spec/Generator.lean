import Verif.Model.Generator
import Verif.Spec.Start

/-!
# Deployments whose processes have a generator of their own
-/

namespace DPPIR.Main
open DPPIR.Noise DPPIR.Protocol DPPIR.Onion

variable {box : SealedBox}

/-- `launch` when `rand()` is the generator of each process. -/
noncomputable def launchGen (w : World box) (file : String → Option (List Byte)) (path stage : String) (P q : Nat) (i : Nat) :
    PProg Nat Unit :=
  if i = 0 then w.runG (fun l _ => l) file (clientFlags path stage 0 q)
  else if i ≤ P then w.runG (fun l _ => l) file (partyFlags path stage (i - 1) 0)
  else .done ()

/-- `launchMany` when `rand()` is the generator of each process. -/
noncomputable def launchManyGen (w : World box) (file : String → Option (List Byte)) (path stage : String) (P S : Nat)
    (q : Nat → Nat) (i : Node) : PProg Node Unit :=
  if i.2 < S then
    if i.1 = 0 then w.runG Prod.mk file (clientFlags path stage i.2 (q i.2))
    else if i.1 ≤ P then w.runG Prod.mk file (partyFlags path stage (i.1 - 1) i.2)
    else .done ()
  else .done ()

/-- The same machines when the noise of every party comes from the numbers that `rand()`
returns after `srand(1)`: two for each sample, from the first on. -/
def World.unseeded (w : World box) : World box :=
  { w with draw := fun _ _ i => (w.rand 1 (2 * i), w.rand 1 (2 * i + 1)) }

/-- Sample `i` computed from the numbers that `rand()` returns after `srand(1)` is
`σ i`. -/
def World.FirstSamples (w : World box) (d : Dist) (σ : Nat → Nat) : Prop :=
  ∀ i, d.sampleReal w.arith (randUniform w.arith (w.rand 1 (2 * i))) (randUniform w.arith (w.rand 1 (2 * i + 1))) = .ok (σ i)

/-- The machines and the C library are the same; the random choices of libsodium, the
keys that the clients ask for, uninitialised memory may differ. -/
structure World.SameMachines (w w' : World box) : Prop where
  pkey : w'.pkey = w.pkey
  skey : w'.skey = w.skey
  arith : w'.arith = w.arith
  division : w'.division = w.division
  rand : w'.rand = w.rand
  sampling : w'.sampling = w.sampling

end DPPIR.Main
