import Verif.Spec.Foreign
import Verif.Model.Loops

/-!
# A deployment with receive loops whose client has another idea of the database
-/

namespace DPPIR.Protocol
open DPPIR Onion

variable {box : SealedBox}

/-- The deployment `c`, whose processes read with the receive loops of the code, with a
client whose configuration says that the database has `rows` rows; everything else is as
in `c`. -/
def Chain.netLoopsWithClient (c : Chain box) (rows : Nat) (offline online : Bool) : PNet Nat Obs Unit :=
  PNet.start (Function.update (c.progLoops offline online) 0 (Chain.clientLoops { c with rows := rows } offline online))

end DPPIR.Protocol
