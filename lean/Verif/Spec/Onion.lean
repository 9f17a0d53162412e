import Verif.Model.Onion

/-!
# Vocabulary for the onion properties
-/

namespace DPPIR.Spec
open DPPIR.Onion

/-- Layered encryption, as a textbook would define it: the innermost cipher is
empty; the cipher for `(pk, s) :: rest` seals, under `pk`, the secret `s` followed
by the cipher for `rest`. -/
def layered (box : SealedBox) (coins : Nat → box.Coins) :
    Nat → List (box.PKey × OfflineSecret) → Option (List Byte)
  | _, [] => some []
  | k, (pk, s) :: rest => do
    let inner ← layered box coins (k + 1) rest
    box.sealMsg (coins k) pk (s.encode ++ inner)

/-- The parties peel the cipher one after the other, each with its own keys,
passing on what `NextLayer` gives them. -/
def peelAll (box : SealedBox) : List (box.PKey × box.SKey) → List Byte → Res (List OfflineSecret)
  | [], _ => .ok []
  | (p, s) :: rest, cipher => do
    let layer ← onionDecrypt box cipher (rest.length + 1) p s
    let m ← layer.msg
    let ms ← peelAll box rest layer.nextLayer
    .ok (m :: ms)

/-- The key material of parties `first, ..., count-1` is usable. -/
def GoodKeys (box : SealedBox) (pkeys : List box.PKey) (skeys : List box.SKey) : Prop :=
  pkeys.length = skeys.length ∧
    ∀ k (h : k < pkeys.length) (h' : k < skeys.length), box.IsPair pkeys[k] skeys[k]

/-- A concrete (insecure) instance showing the assumed laws are satisfiable: the
header holds 47 copies of the key and the coin, opening checks the key. -/
def toyBox : SealedBox where
  PKey := Byte
  SKey := Byte
  Coins := Byte
  sealMsg := fun coin pk m => some (coin :: List.replicate 47 pk ++ m)
  openMsg := fun _ sk c => if (c.drop 1).take 47 = List.replicate 47 sk then some (c.drop 48) else none
  IsPair := fun pk sk => pk = sk
  seal_open := by
    rintro coin pk sk m rfl
    refine ⟨_, rfl, by simp [sealBytes], ?_⟩
    simp
  seal_length := by
    rintro coin pk m c h
    cases h
    simp [sealBytes]
  open_length := by
    rintro pk sk c m h
    split at h
    · cases h
      rename_i h1
      have := congrArg List.length h1
      simp at this
      simp [sealBytes]
      omega
    · cases h

end DPPIR.Spec
