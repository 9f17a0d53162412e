import Verif.Spec.Chain

/-!
# Vocabulary for a client with another idea of the database
-/

namespace DPPIR.Protocol
open DPPIR Onion

variable {box : SealedBox}

/-- The deployment `c` with a client whose configuration says that the database has `rows`
rows; everything else is as in `c`. -/
def Chain.netWithClient (c : Chain box) (rows : Nat) (offline online : Bool) : Net Nat Obs :=
  Net.start (Function.update (c.prog offline online) 0 (Chain.client { c with rows := rows } offline online))

end DPPIR.Protocol
