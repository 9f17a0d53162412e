import Verif.Spec.Connect

/-!
# Connection set-up when others connect as well
-/

namespace DPPIR.Connect
open DPPIR.Config
open DPPIR.Protocol (Node)

variable {H : Type}

/-- A network in which process `i` is one of the deployment; all other processes, of the
deployment or not, run whatever programs they like. -/
def among (h : Hosts H) (c : Config) (others : Node → CProc Node (Addr H) (Wiring Node)) (i : Node) :
    CNet Node (Addr H) (Wiring Node) := CNet.start (Function.update others i (setup h c i))

/-- What process `i` can rely on about its sockets whoever else connects: towards the
next party and the higher siblings it has made the connections itself, and the others are
connections that someone made to it; of the lower siblings some may be missing. -/
structure SelfWired (c : Config) (i : Node) (w : Wiring Node) : Prop where
  back : if 0 < i.1 then ∃ x, w.back = some ⟨x, true⟩ else w.back = none
  next : if i.1 < c.partyCount.toNat then ∃ m, w.next = some ⟨(i, m), false⟩ else w.next = none
  higher : ∀ t, 0 < i.1 → i.2 < t → t < c.serverCount.toNat → ∃ m, w.sib t = some ⟨(i, m), false⟩
  lower : ∀ t, 0 < i.1 → t < i.2 → w.sib t = none ∨ ∃ x, w.sib t = some ⟨x, true⟩
  others : ∀ t, (i.1 = 0 ∨ t = i.2 ∨ c.serverCount.toNat ≤ t) → w.sib t = none

end DPPIR.Connect
