import Verif.Proofs.ConnectNet

/-!
# Invariants of connection set-up, part 2: the processes
-/

namespace DPPIR.Connect
open DPPIR.Protocol (Node)
open Classical

variable {A : Type}

/-- How far a process is. -/
inductive St where
  | back0 | back1 | next | sib0
  /-- has accepted connections from these siblings -/
  | sibAcc (acc : List Nat)
  /-- has read the ids of these siblings, and is to read those of the others -/
  | ident (read todo : List Nat)
  /-- connects to this sibling -/
  | dial (t : Nat)
  /-- tells this sibling its id -/
  | greet (t : Nat)
  | fin

namespace St

/-- Listens for the previous party, for siblings. -/
def lis : St → Bool → Prop
  | back0, false => False
  | _, false => True
  | sibAcc _, true | ident _ _, true | dial _, true | greet _, true | fin, true => True
  | _, true => False

/-- Has accepted the connection of the previous party. -/
def accB : St → Prop
  | back0 | back1 => False
  | _ => True

/-- Has accepted the connection of sibling `t`. -/
def accS : St → Nat → Prop
  | sibAcc l, t => t ∈ l
  | ident r l, t => t ∈ r ∨ t ∈ l
  | dial _, _ | greet _, _ | fin, _ => True
  | _, _ => False

/-- Has read the id of sibling `t`. -/
def readS : St → Nat → Prop
  | ident r _, t => t ∈ r
  | dial _, _ | greet _, _ | fin, _ => True
  | _, _ => False

/-- Has connected to the next party. -/
def dialN : St → Prop
  | back0 | back1 | next => False
  | _ => True

/-- Has connected to sibling `t`. -/
def dialS : St → Nat → Prop
  | dial u, t => t < u
  | greet u, t => t ≤ u
  | fin, _ => True
  | _, _ => False

/-- Has told its id to sibling `t`. -/
def greetS : St → Nat → Prop
  | dial u, t => t < u
  | greet u, t => t < u
  | fin, _ => True
  | _, _ => False

/-! The tables, for the simplifier. -/

@[simp] theorem lis_back0_f : lis back0 false = False := rfl
@[simp] theorem lis_back0_t : lis back0 true = False := rfl
@[simp] theorem accB_back0 : accB back0 = False := rfl
@[simp] theorem dialN_back0 : dialN back0 = False := rfl
@[simp] theorem accS_back0 (t : Nat) : accS back0 t = (False) := rfl
@[simp] theorem readS_back0 (t : Nat) : readS back0 t = (False) := rfl
@[simp] theorem dialS_back0 (t : Nat) : dialS back0 t = (False) := rfl
@[simp] theorem greetS_back0 (t : Nat) : greetS back0 t = (False) := rfl
@[simp] theorem lis_back1_f : lis back1 false = True := rfl
@[simp] theorem lis_back1_t : lis back1 true = False := rfl
@[simp] theorem accB_back1 : accB back1 = False := rfl
@[simp] theorem dialN_back1 : dialN back1 = False := rfl
@[simp] theorem accS_back1 (t : Nat) : accS back1 t = (False) := rfl
@[simp] theorem readS_back1 (t : Nat) : readS back1 t = (False) := rfl
@[simp] theorem dialS_back1 (t : Nat) : dialS back1 t = (False) := rfl
@[simp] theorem greetS_back1 (t : Nat) : greetS back1 t = (False) := rfl
@[simp] theorem lis_next_f : lis next false = True := rfl
@[simp] theorem lis_next_t : lis next true = False := rfl
@[simp] theorem accB_next : accB next = True := rfl
@[simp] theorem dialN_next : dialN next = False := rfl
@[simp] theorem accS_next (t : Nat) : accS next t = (False) := rfl
@[simp] theorem readS_next (t : Nat) : readS next t = (False) := rfl
@[simp] theorem dialS_next (t : Nat) : dialS next t = (False) := rfl
@[simp] theorem greetS_next (t : Nat) : greetS next t = (False) := rfl
@[simp] theorem lis_sib0_f : lis sib0 false = True := rfl
@[simp] theorem lis_sib0_t : lis sib0 true = False := rfl
@[simp] theorem accB_sib0 : accB sib0 = True := rfl
@[simp] theorem dialN_sib0 : dialN sib0 = True := rfl
@[simp] theorem accS_sib0 (t : Nat) : accS sib0 t = (False) := rfl
@[simp] theorem readS_sib0 (t : Nat) : readS sib0 t = (False) := rfl
@[simp] theorem dialS_sib0 (t : Nat) : dialS sib0 t = (False) := rfl
@[simp] theorem greetS_sib0 (t : Nat) : greetS sib0 t = (False) := rfl
@[simp] theorem lis_sibAcc_f (l : List Nat) : lis (sibAcc l) false = True := rfl
@[simp] theorem lis_sibAcc_t (l : List Nat) : lis (sibAcc l) true = True := rfl
@[simp] theorem accB_sibAcc (l : List Nat) : accB (sibAcc l) = True := rfl
@[simp] theorem dialN_sibAcc (l : List Nat) : dialN (sibAcc l) = True := rfl
@[simp] theorem accS_sibAcc (l : List Nat) (t : Nat) : accS (sibAcc l) t = (t ∈ l) := rfl
@[simp] theorem readS_sibAcc (l : List Nat) (t : Nat) : readS (sibAcc l) t = (False) := rfl
@[simp] theorem dialS_sibAcc (l : List Nat) (t : Nat) : dialS (sibAcc l) t = (False) := rfl
@[simp] theorem greetS_sibAcc (l : List Nat) (t : Nat) : greetS (sibAcc l) t = (False) := rfl
@[simp] theorem lis_ident_f (r l : List Nat) : lis (ident r l) false = True := rfl
@[simp] theorem lis_ident_t (r l : List Nat) : lis (ident r l) true = True := rfl
@[simp] theorem accB_ident (r l : List Nat) : accB (ident r l) = True := rfl
@[simp] theorem dialN_ident (r l : List Nat) : dialN (ident r l) = True := rfl
@[simp] theorem accS_ident (r l : List Nat) (t : Nat) : accS (ident r l) t = (t ∈ r ∨ t ∈ l) := rfl
@[simp] theorem readS_ident (r l : List Nat) (t : Nat) : readS (ident r l) t = (t ∈ r) := rfl
@[simp] theorem dialS_ident (r l : List Nat) (t : Nat) : dialS (ident r l) t = (False) := rfl
@[simp] theorem greetS_ident (r l : List Nat) (t : Nat) : greetS (ident r l) t = (False) := rfl
@[simp] theorem lis_dial_f (u : Nat) : lis (dial u) false = True := rfl
@[simp] theorem lis_dial_t (u : Nat) : lis (dial u) true = True := rfl
@[simp] theorem accB_dial (u : Nat) : accB (dial u) = True := rfl
@[simp] theorem dialN_dial (u : Nat) : dialN (dial u) = True := rfl
@[simp] theorem accS_dial (u : Nat) (t : Nat) : accS (dial u) t = (True) := rfl
@[simp] theorem readS_dial (u : Nat) (t : Nat) : readS (dial u) t = (True) := rfl
@[simp] theorem dialS_dial (u : Nat) (t : Nat) : dialS (dial u) t = (t < u) := rfl
@[simp] theorem greetS_dial (u : Nat) (t : Nat) : greetS (dial u) t = (t < u) := rfl
@[simp] theorem lis_greet_f (u : Nat) : lis (greet u) false = True := rfl
@[simp] theorem lis_greet_t (u : Nat) : lis (greet u) true = True := rfl
@[simp] theorem accB_greet (u : Nat) : accB (greet u) = True := rfl
@[simp] theorem dialN_greet (u : Nat) : dialN (greet u) = True := rfl
@[simp] theorem accS_greet (u : Nat) (t : Nat) : accS (greet u) t = (True) := rfl
@[simp] theorem readS_greet (u : Nat) (t : Nat) : readS (greet u) t = (True) := rfl
@[simp] theorem dialS_greet (u : Nat) (t : Nat) : dialS (greet u) t = (t ≤ u) := rfl
@[simp] theorem greetS_greet (u : Nat) (t : Nat) : greetS (greet u) t = (t < u) := rfl
@[simp] theorem lis_fin_f : lis fin false = True := rfl
@[simp] theorem lis_fin_t : lis fin true = True := rfl
@[simp] theorem accB_fin : accB fin = True := rfl
@[simp] theorem dialN_fin : dialN fin = True := rfl
@[simp] theorem accS_fin (t : Nat) : accS fin t = (True) := rfl
@[simp] theorem readS_fin (t : Nat) : readS fin t = (True) := rfl
@[simp] theorem dialS_fin (t : Nat) : dialS fin t = (True) := rfl
@[simp] theorem greetS_fin (t : Nat) : greetS fin t = (True) := rfl

end St

/-- What all processes have done. -/
def know (st : Node → St) : Know where
  lis i k := (st i).lis k
  acc i j := if j.1 = i.1 then (st i).accS j.2 else (st i).accB
  dial j i := if j.1 = i.1 then (st j).dialS i.2 else (st j).dialN
  greet j i := j.1 = i.1 ∧ (st j).greetS i.2
  read i j := j.1 = i.1 ∧ (st i).readS j.2

namespace Plan
variable (pl : Plan A)

/-- Sockets of accepted siblings. -/
def socks (i : Node) (l : List Nat) : List (Sock Node) := l.map (fun t => ⟨pl.link (i.1, t) i, true⟩)

/-- `sockfds_` after the ids of these siblings were read. -/
def tabR (i : Node) (l : List Nat) (t : Nat) : Option (Sock Node) :=
  if t ∈ l then some ⟨pl.link (i.1, t) i, true⟩ else none

/-- `sockfds_` after connecting to the siblings below `u`. -/
def tabD (i : Node) (u t : Nat) : Option (Sock Node) :=
  if t < i.2 then some ⟨pl.link (i.1, t) i, true⟩
  else if i.2 < t ∧ t < u then some ⟨pl.link i (i.1, t), false⟩ else none

/-- The socket for the previous party. -/
def backSock (i : Node) : Option (Sock Node) := if 0 < i.1 then some ⟨pl.link (i.1 - 1, i.2) i, true⟩ else none

/-- The socket for the next party. -/
def nextSock (i : Node) : Option (Sock Node) := if i.1 < pl.P then some ⟨pl.link i (i.1 + 1, i.2), false⟩ else none

/-- The sockets a process ends with. -/
def wiring (i : Node) : Wiring Node :=
  { back := pl.backSock i, next := pl.nextSock i, sib := if 0 < i.1 then pl.tabD i pl.S else fun _ => none }

/-- The loop over the higher siblings, and the rest. -/
def dials (i : Node) (b x : Option (Sock Node)) (n id : Nat) (t : Nat → Option (Sock Node)) : CProc Node A (Wiring Node) :=
  (dialSiblings i.2 (fun t => .ok (pl.ad (i.1, t) true)) n id t).bind
    (fun t => .done { back := b, next := x, sib := t })

/-- The loop over the lower siblings, and the rest. -/
def idents (i : Node) (b x : Option (Sock Node)) (l : List (Sock Node)) (t : Nat → Option (Sock Node)) : CProc Node A (Wiring Node) :=
  (identify i.2 l t).bind (pl.dials i b x (pl.S - i.2 - 1) (i.2 + 1))

/-- Accepting the lower siblings, and the rest. -/
def accepts (i : Node) (b x : Option (Sock Node)) (n : Nat) (l : List (Sock Node)) : CProc Node A (Wiring Node) :=
  (acceptLoop (pl.ad i true) n l).bind (fun l => pl.idents i b x l (fun _ => none))

/-- `siblings_.Initialize`, and the rest. -/
def sibPart (i : Node) (b x : Option (Sock Node)) : CProc Node A (Wiring Node) :=
  if i.1 = 0 then .done { back := b, next := x }
  else if i.2 > 0 then .listen (pl.ad i true) i.2 (pl.accepts i b x i.2 [])
  else pl.dials i b x (pl.S - i.2 - 1) (i.2 + 1) (fun _ => none)

/-- `next_.Initialize`, and the rest. -/
def nextPart (i : Node) (b : Option (Sock Node)) : CProc Node A (Wiring Node) :=
  if i.1 < pl.P then .connect (pl.ad (i.1 + 1, i.2) false) (fun x => pl.sibPart i b (some x)) else pl.sibPart i b none

/-- The program of process `i`. -/
def start (i : Node) : CProc Node A (Wiring Node) :=
  if i.1 = 0 then pl.nextPart i none
  else .listen (pl.ad i false) 1 (.accept (pl.ad i false) (fun s => pl.nextPart i (some s)))

/-- What remains to be done at each stage. -/
def progAt (i : Node) : St → CProc Node A (Wiring Node)
  | .back0 => .listen (pl.ad i false) 1 (.accept (pl.ad i false) (fun s => pl.nextPart i (some s)))
  | .back1 => .accept (pl.ad i false) (fun s => pl.nextPart i (some s))
  | .next => pl.nextPart i (pl.backSock i)
  | .sib0 => .listen (pl.ad i true) i.2 (pl.accepts i (pl.backSock i) (pl.nextSock i) i.2 [])
  | .sibAcc l => pl.accepts i (pl.backSock i) (pl.nextSock i) (i.2 - l.length) (pl.socks i l)
  | .ident r l => pl.idents i (pl.backSock i) (pl.nextSock i) (pl.socks i l) (pl.tabR i r)
  | .dial t => pl.dials i (pl.backSock i) (pl.nextSock i) (pl.S - t) t (pl.tabD i t)
  | .greet t => .send ⟨pl.link i (i.1, t), false⟩ (BitVec.ofNat 8 i.2)
      (pl.dials i (pl.backSock i) (pl.nextSock i) (pl.S - t - 1) (t + 1) (pl.tabD i (t + 1)))
  | .fin => .done (pl.wiring i)

/-- The stage of the loop over the higher siblings at `t`. -/
def dialFrom (t : Nat) : St := if t < pl.S then .dial t else .fin

/-- The stage after connecting to the next party. -/
def afterNext (i : Node) : St := if i.1 = 0 then .fin else if 0 < i.2 then .sib0 else pl.dialFrom (i.2 + 1)

/-- The stage after accepting the previous party. -/
def afterBack (i : Node) : St := if i.1 < pl.P then .next else pl.afterNext i

/-- The stage after accepting or reading from siblings. -/
def afterAcc (i : Node) (l : List Nat) : St := if l.length < i.2 then .sibAcc l else .ident [] l

def afterRead (i : Node) (r l : List Nat) : St := if l = [] then pl.dialFrom (i.2 + 1) else .ident r l

/-- How many connections a process has made. -/
def count (i : Node) : St → Nat
  | .back0 | .back1 | .next => 0
  | .sib0 | .sibAcc _ | .ident _ _ => pl.first i
  | .dial t => pl.first i + (t - i.2 - 1)
  | .greet t => pl.first i + (t - i.2)
  | .fin => pl.first i + (pl.S - i.2 - 1)

/-- The stages a process can be at. -/
def Ok (i : Node) : St → Prop
  | .back0 | .back1 => 0 < i.1
  | .next => i.1 < pl.P
  | .sib0 => 0 < i.1 ∧ 0 < i.2
  | .sibAcc l => 0 < i.1 ∧ l.length < i.2 ∧ l.Nodup ∧ ∀ t ∈ l, t < i.2
  | .ident r l => 0 < i.1 ∧ l ≠ [] ∧ (r ++ l).length = i.2 ∧ (r ++ l).Nodup ∧ ∀ t ∈ r ++ l, t < i.2
  | .dial t | .greet t => 0 < i.1 ∧ i.2 < t ∧ t < pl.S
  | .fin => True

variable {pl}

theorem progAt_dialFrom {i : Node} {t : Nat} (hi : pl.In i) (h0 : 0 < i.1) (ht : t ≤ pl.S) :
    pl.progAt i (pl.dialFrom t) = pl.dials i (pl.backSock i) (pl.nextSock i) (pl.S - t) t (pl.tabD i t) := by
  unfold dialFrom
  split
  · rfl
  · obtain rfl : t = pl.S := by omega
    simp only [progAt, wiring, if_pos h0, dials, Nat.sub_self, dialSiblings, CProc.bind]

theorem tabR_nil (i : Node) : pl.tabR i [] = fun _ => none := by
  funext t; simp [tabR]

theorem tabD_zero {i : Node} (h : i.2 = 0) : pl.tabD i (i.2 + 1) = fun _ => none := by
  funext t
  unfold tabD
  rw [if_neg (by omega), if_neg (by omega)]

theorem tabR_full {i : Node} {r : List Nat} (hl : r.length = i.2) (hn : r.Nodup) (hr : ∀ t ∈ r, t < i.2) :
    (∀ t < i.2, t ∈ r) ∧ pl.tabR i r = pl.tabD i (i.2 + 1) := by
  have hall : ∀ t < i.2, t ∈ r := by
    have : (List.range i.2).Subperm r ∨ True := Or.inr trivial
    have hsub : r ⊆ List.range i.2 := fun t ht => List.mem_range.mpr (hr t ht)
    have hp : r.Perm (List.range i.2) := (hn.subperm hsub).perm_of_length_le (by simp [hl])
    intro t ht
    exact hp.symm.subset (List.mem_range.mpr ht)
  refine ⟨hall, ?_⟩
  funext t
  unfold tabR tabD
  by_cases h : t < i.2
  · rw [if_pos (hall t h), if_pos h]
  · rw [if_neg (fun h2 => h (hr t h2)), if_neg h, if_neg (by omega)]

theorem progAt_afterNext {i : Node} (hi : pl.In i) :
    pl.progAt i (pl.afterNext i) = pl.sibPart i (pl.backSock i) (pl.nextSock i) := by
  unfold afterNext sibPart
  by_cases h0 : i.1 = 0
  · rw [if_pos h0, if_pos h0]
    simp [progAt, wiring, h0]
  · rw [if_neg h0, if_neg h0]
    by_cases h1 : 0 < i.2
    · rw [if_pos h1, if_pos h1]; rfl
    · rw [if_neg h1, if_neg h1, progAt_dialFrom hi (by omega) (by have := hi.2; omega), tabD_zero (by omega),
        Nat.sub_sub]

theorem progAt_afterBack {i : Node} (hi : pl.In i) :
    pl.progAt i (pl.afterBack i) = pl.nextPart i (pl.backSock i) := by
  unfold afterBack
  split
  · rfl
  · rename_i h
    rw [progAt_afterNext hi, nextPart, if_neg h, nextSock, if_neg h]

theorem progAt_afterAcc {i : Node} {l : List Nat} (hl : l.length ≤ i.2) :
    pl.progAt i (afterAcc i l) = pl.accepts i (pl.backSock i) (pl.nextSock i) (i.2 - l.length) (pl.socks i l) := by
  unfold afterAcc
  split
  · rfl
  · have : i.2 - l.length = 0 := by omega
    simp only [progAt, accepts, this, acceptLoop, CProc.bind, tabR_nil]

theorem progAt_afterRead {i : Node} {r l : List Nat} (hi : pl.In i) (h0 : 0 < i.1) (hl : (r ++ l).length = i.2)
    (hn : (r ++ l).Nodup) (hr : ∀ t ∈ r ++ l, t < i.2) :
    pl.progAt i (pl.afterRead i r l) = pl.idents i (pl.backSock i) (pl.nextSock i) (pl.socks i l) (pl.tabR i r) := by
  unfold afterRead
  split
  · rename_i h
    subst h
    rw [List.append_nil] at *
    rw [progAt_dialFrom hi h0 (by have := hi.2; omega), ← (tabR_full hl hn hr).2]
    simp only [idents, socks, List.map_nil, identify, CProc.bind, Nat.sub_sub]
  · rfl

theorem start_eq {i : Node} (hi : pl.In i) (hP : 0 < pl.P) :
    pl.start i = pl.progAt i (if i.1 = 0 then .next else .back0) := by
  unfold start
  by_cases h : i.1 = 0
  · rw [if_pos h, if_pos h]
    simp [progAt, backSock, h]
  · rw [if_neg h, if_neg h]; rfl

end Plan

end DPPIR.Connect
