import Verif.Spec.StartPrivate
import Verif.Spec.Hiding

/-!
# Vocabulary for hiding the keys in deployments started from the command line
-/

namespace DPPIR.Main
open DPPIR.Protocol DPPIR.Onion DPPIR.Connect DPPIR.Joint

variable {box : SealedBox} {ι A : Type} [DecidableEq ι] [DecidableEq A]

/-- The same machines when the one client chooses the rows `row` and its generator gives
the draws `x` behind its secrets. -/
def World.withDraws (w : World box) {count parties : Nat} (row : Nat → Nat) (x : Protocol.Draws count parties) : World box :=
  { w with clientRand := Function.update w.clientRand 0 ((w.clientRand 0).withDraws row x) }

/-- The same for the clients of `S` servers. -/
def World.withAllDraws (w : World box) {S parties : Nat} {count : Nat → Nat} (row : Nat → Nat → Nat)
    (x : (s : Fin S) → Protocol.Draws (count s) parties) : World box :=
  { w with clientRand := fun s => if h : s < S then (w.clientRand s).withDraws (row s) (x ⟨s, h⟩) else w.clientRand s }

/-- In some complete run of the connected processes `prog`, the processes `who` together
see `v`: all counts, queries and responses they read and send, the secrets that they find
in the ciphers and store, and the lengths of the ciphers. -/
def Sees (prog : ι → PProg ι Unit) (who : ι → Prop) (v : ι → List Obs) : Prop :=
  ∃ (cap : ι × ι → Nat) (n : PNet ι Obs Unit), PNet.Reach cap (PNet.start prog) n ∧ (∀ i, n.Returned i ()) ∧
    ∀ i, who i → (n.seen i).map Obs.sealed = v i

/-- The same for processes that connect with `setup` first. -/
def ConnectsAndSees (pos : ι → Node) (setup : Node → CProc Node A (Wiring Node)) (prog : ι → PProg ι Unit) (who : ι → Prop)
    (v : ι → List Obs) : Prop :=
  ∃ (cap : Sock Node → Nat) (n : JNet ι A Obs), JNet.Reach pos cap (JNet.start setup prog) n ∧ (∀ i, n.Returned pos i) ∧
    ∀ i, who i → (n.seen i).map Obs.sealed = v i

end DPPIR.Main
