import Verif.Model.Process

/-!
# A single process and its inputs
-/

namespace DPPIR.Proc
variable {ι O α : Type}

/-- What a process does when its reads are answered, in order, by the given bytes: the
calls it makes and how it ends; `none` if it waits for more input. -/
def feed : List Byte → Proc ι O α → Option (List O × Except Fault α)
  | _, .done a => some ([], .ok a)
  | _, .fault e => some ([], .error e)
  | l, .send _ _ k => feed l k
  | [], .recv _ _ => none
  | b :: l, .recv _ k => feed l (k b)
  | l, .obs o k => (feed l k).map (fun r => (o :: r.1, r.2))

end DPPIR.Proc
