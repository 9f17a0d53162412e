import Verif.Model.Sockets

/-!
# Specification vocabulary for containers
-/

namespace DPPIR.Spec

/-- A sequence of writes `m[id] = v`. -/
def mapWrites {α : Type} (m : ServersMap α) (ws : List (Nat × α)) : Res (ServersMap α) :=
  ws.foldlM (fun m w => m.set w.1 w.2) m

/-- The last value written under `id`, or `d` if none was. -/
def lastWritten {α : Type} (d : α) (ws : List (Nat × α)) (id : Nat) : α :=
  ws.foldl (fun v w => if w.1 = id then w.2 else v) d

/-- `CreateNoiseCiphers` then `CollectCiphers`: pushing short and long ciphers. -/
def pushAll (b : CipherBatch) (shorts longs : List (List Byte)) : Res CipherBatch := do
  let b ← shorts.foldlM (fun b v => b.pushShort v) b
  longs.foldlM (fun b v => b.pushLong v) b

/-- The loop of `InstallSecrets`: while there is a long cipher, pop it and push the
short cipher `f` makes of its bytes.  Returns the long ciphers seen. `fuel` bounds
the number of rounds. -/
def popPush (f : List Byte → List Byte) : Nat → CipherBatch → List (List Byte) → Res (CipherBatch × List (List Byte))
  | 0, b, seen => if b.hasLong then .error .hang else .ok (b, seen)
  | fuel + 1, b, seen =>
    if b.hasLong then do
      let v ← slice b.popLong.1 0 b.longSize
      let b ← b.popLong.2.pushShort (f v)
      popPush f fuel b (seen ++ [v])
    else .ok (b, seen)

end DPPIR.Spec
