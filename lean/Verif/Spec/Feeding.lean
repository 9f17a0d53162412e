import Verif.Spec.Hearing

/-!
# Feeding one program that polls
-/

namespace DPPIR.PProc
variable {ι O α : Type} [DecidableEq ι]

/-- What process `me` does when it finds, from the start, the bytes `input j` on the
connection from `j`, and every `poll` and `read` reports all there is: the calls it makes,
how it ends and the bytes that are left; `none` if it waits for more input
(or writes to itself). -/
def feed (me : ι) : (ι → List Byte) → PProc ι O α → Option (List O × Except Fault α × (ι → List Byte))
  | l, .done a => some ([], .ok a, l)
  | l, .fault e => some ([], .error e, l)
  | l, .send d _ k => if d = me then none else feed me l k
  | l, .recv s k => match l s with
    | [] => none
    | b :: r => feed me (Function.update l s r) (k b)
  | l, .obs o k => (feed me l k).map (fun r => (o :: r.1, r.2))
  | l, .poll srcs block k =>
    if block && srcs.all (fun s => (l s).isEmpty) then none
    else feed me l (k (fun j => decide (j ∈ srcs) && !(l j).isEmpty))
  | l, .read s n k =>
    if n = 0 ∨ l s = [] then none else feed me (Function.update l s ((l s).drop n)) (k ((l s).take n))

end DPPIR.PProc
