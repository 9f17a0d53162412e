import Verif.Spec.Onion
import Verif.Spec.Start

/-!
# What somebody with the configuration file can open
-/

namespace DPPIR.Main
open DPPIR.Config DPPIR.Protocol DPPIR.Onion DPPIR.Incremental

variable {box : SealedBox}

/-- All key pairs that the configuration file has. -/
def World.keyring (w : World box) (c : Config) : List (box.PKey × box.SKey) :=
  c.parties.map (fun p => (w.pkey p.pkey, w.skey p.skey))

/-- What can be computed from the configuration file, a cipher for all parties and a
query: open all layers of the cipher, apply the shares in it to the tally. -/
def World.reveal (w : World box) (c : Config) (cipher : List Byte) (query : Query) : Option Nat :=
  match Spec.peelAll box (w.keyring c) cipher with
  | .ok secrets => some (secrets.foldl (fun tally s => incrementalReconstruct tally s.share) query.tally).toNat
  | .error _ => none

end DPPIR.Main
