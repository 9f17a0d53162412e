import Verif.Spec.Hearing

/-!
# Vocabulary for the traffic between parallel servers
-/

namespace DPPIR.Protocol
open DPPIR Proc Onion Shuffle

variable {box : SealedBox}

/-- The plan that server `s` of party `k` makes for who gets which message: with the
shared seed, from the numbers of messages of all servers of the party, its own noise
first. -/
def Grid.Plans (g : Grid box) (k s : Nat) (plan : ParallelShuffler) : Prop :=
  Spec.IsPlan g.rand (g.sharedSeed k) ((List.range g.servers).map (fun t => g.noise k t + g.load k t)) s (g.noise k s) plan

end DPPIR.Protocol
