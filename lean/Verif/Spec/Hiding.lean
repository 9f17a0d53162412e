import Verif.Spec.Grid

/-!
# Vocabulary for hiding the keys from all parties but the backend

The random draws behind the secrets of a client, deployments with given draws and keys,
and what the parties before the backend see of a run.
-/

namespace DPPIR.Protocol
open DPPIR Proc Onion

variable {box : SealedBox}

/-- The draws of a client for one query and one party: the results of
`randombytes_uniform(p)` and `randombytes_uniform(p - 1)` behind the party's share, and
the bytes of its mask. -/
abbrev Draw := Fin Spec.p × Fin (Spec.p - 1) × Preshare

/-- The draws of a client with `count` queries, for all parties. -/
abbrev Draws (count parties : Nat) := Fin count → Fin parties → Draw

/-- The randomness of a client whose generator gives the draws `d`, and whose choices of
rows are `row`; randomness for sealing as in `r`. -/
def ClientRand.withDraws (r : ClientRand box) {count parties : Nat} (row : Nat → Nat) (d : Draws count parties) :
    ClientRand box :=
  { row := row
    secret := fun j =>
      { r.secret j with
        shares := fun i =>
          if h : j < count ∧ i / 2 < parties then
            if i % 2 = 0 then (d ⟨j, h.1⟩ ⟨i / 2, h.2⟩).1.val else (d ⟨j, h.1⟩ ⟨i / 2, h.2⟩).2.1.val
          else 0
        preshares := fun i => if h : j < count ∧ i < parties then (d ⟨j, h.1⟩ ⟨i, h.2⟩).2.2 else fun _ => 0 } }

/-- A deployment with the choices of rows `row` and the draws `d` of its client. -/
def Chain.withDraws (c : Chain box) (row : Nat → Nat) (d : Draws c.count c.parties) : Chain box :=
  { c with clientRand := c.clientRand.withDraws row d }

/-- What a call shows to somebody who cannot open sealed boxes: of a cipher, its length. -/
def Obs.sealed : Obs → Obs
  | .sendCipher c => .sendCipher (List.replicate c.length 0)
  | .recvCipher c => .recvCipher (List.replicate c.length 0)
  | o => o

/-- In some complete run of the deployment the parties before the backend together see
`v`: all counts, queries and responses they read and send, the secrets that they find in
the ciphers and store, and the lengths of the ciphers. -/
def Chain.PartiesSee (c : Chain box) (v : Nat → List Obs) : Prop :=
  ∃ cap s n, (∀ x, 0 < cap x) ∧ (c.net true true).run cap s = some n ∧ (∀ i, n.Finished i) ∧
    ∀ i, 1 ≤ i → i < c.parties → (n.seen i).map Obs.sealed = v i

/-- A deployment with several servers per party, with the choices of rows `row` and the
draws `d` of its clients. -/
def Grid.withDraws (g : Grid box) (row : Nat → Nat → Nat) (d : (s : Fin g.servers) → Draws (g.count s) g.parties) : Grid box :=
  { g with clientRand := fun s => if h : s < g.servers then (g.clientRand s).withDraws (row s) (d ⟨s, h⟩) else g.clientRand s }

/-- In some complete run of the deployment all servers of the parties before the backend
together see `v`, as for one server per party. -/
def Grid.PartiesSee (g : Grid box) (v : Node → List Obs) : Prop :=
  ∃ cap n, PNet.Reach cap (g.net true true) n ∧ (∀ i, n.Returned i ()) ∧
    ∀ i s, 1 ≤ i → i < g.parties → s < g.servers → (n.seen (i, s)).map Obs.sealed = v (i, s)

end DPPIR.Protocol
