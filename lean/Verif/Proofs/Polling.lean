import Verif.Model.Polling
import Verif.Proofs.Process
import Mathlib.Logic.Hydra

/-!
# Runs of networks of polling programs

`Does p L a`: whatever the results of its polls and reads, program `p` goes through the
segments `L` and returns `a`.  A segment is a single action or an exchange, in which
the order of the reads is not fixed.
-/

namespace DPPIR
open Proc

/-- A single action, or an exchange: bytes still to be written, in order, bytes still to
be read from each process, and the processes known to have bytes in transit. -/
inductive Seg (ι O : Type) where
  | act (a : Act ι O)
  | xchg (os : List (ι × Byte)) (is : ι → List Byte) (av : ι → Bool)

namespace PProc
variable {ι O α β γ : Type}

@[simp] theorem bind_def (p : PProc ι O α) (f : α → PProc ι O β) : p >>= f = p.bind f := rfl
@[simp] theorem pure_def (a : α) : (pure a : PProc ι O α) = done a := rfl
@[simp] theorem done_bind (a : α) (f : α → PProc ι O β) : (done a).bind f = f a := rfl

theorem bind_assoc (p : PProc ι O α) (f : α → PProc ι O β) (g : β → PProc ι O γ) :
    (p.bind f).bind g = p.bind (fun a => (f a).bind g) := by
  induction p with
  | done a => rfl
  | fault e => rfl
  | send d b k ih => simp [bind, ih]
  | recv s k ih => simp [bind, ih]
  | obs o k ih => simp [bind, ih]
  | poll ss bl k ih => simp [bind, ih]
  | read s n k ih => simp [bind, ih]

theorem ofProc_bind (p : Proc ι O α) (f : α → Proc ι O β) :
    ofProc (p.bind f) = (ofProc p).bind (fun a => ofProc (f a)) := by
  induction p with
  | done a => rfl
  | fault e => rfl
  | send d b k ih => simp [ofProc, Proc.bind, bind, ih]
  | recv s k ih => simp [ofProc, Proc.bind, bind, ih]
  | obs o k ih => simp [ofProc, Proc.bind, bind, ih]

variable [DecidableEq ι]

/-- Whatever its polls and reads return, the program goes through the segments and
returns something that satisfies `Q`. -/
inductive Does (Q : α → Prop) : PProc ι O α → List (Seg ι O) → Prop where
  | done {a : α} (h : Q a) : Does Q (.done a) []
  | send {d b k L} (h : Does Q k L) : Does Q (.send d b k) (.act (.send d b) :: L)
  | recv {s k b L} (h : Does Q (k b) L) : Does Q (.recv s k) (.act (.recv s b) :: L)
  | obs {o k L} (h : Does Q k L) : Does Q (.obs o k) (.act (.obs o) :: L)
  | xsend {d b k os is av L} (h : Does Q k (.xchg os is av :: L)) :
      Does Q (.send d b k) (.xchg ((d, b) :: os) is av :: L)
  | xrecv {s k b l is av L} (hi : is s = b :: l)
      (h : Does Q (k b) (.xchg [] (Function.update is s l) (Function.update av s false) :: L)) :
      Does Q (.recv s k) (.xchg [] is av :: L)
  | xpoll {srcs block k os is av L} (hs : ∀ j ∈ srcs, is j ≠ []) (hb : block = true → os = [] ∧ srcs ≠ [])
      (h : ∀ ready : ι → Bool, (∀ j, ready j = true → j ∈ srcs) → (block = true → ∃ j, ready j = true) →
        Does Q (k ready) (.xchg os is ready :: L)) :
      Does Q (.poll srcs block k) (.xchg os is av :: L)
  | xread {s n k os is av L} (hn : 0 < n) (hl : n ≤ (is s).length) (hav : av s = true)
      (h : ∀ c, c ≠ [] → c.length ≤ n → c <+: is s →
        Does Q (k c) (.xchg os (Function.update is s ((is s).drop c.length)) (Function.update av s false) :: L)) :
      Does Q (.read s n k) (.xchg os is av :: L)
  | xend {p is av L} (hi : ∀ j, is j = []) (h : Does Q p L) : Does Q p (.xchg [] is av :: L)

theorem Does.bind {Q : α → Prop} {R : β → Prop} {p : PProc ι O α} {f : α → PProc ι O β} {L M} (h : Does Q p L)
    (h' : ∀ a, Q a → Does R (f a) M) : Does R (p.bind f) (L ++ M) := by
  induction h with
  | done h => exact h' _ h
  | send h ih => exact .send ih
  | recv h ih => exact .recv ih
  | obs h ih => exact .obs ih
  | xsend h ih => exact .xsend ih
  | xrecv hi h ih => exact .xrecv hi ih
  | xpoll hs hb h ih => exact .xpoll hs hb ih
  | xread hn hl hav h ih => exact .xread hn hl hav ih
  | xend hi h ih => exact .xend hi ih

theorem Does.bind' {Q : α → Prop} {R : β → Prop} {p : PProc ι O α} {f : α → PProc ι O β} {L M N} (h : Does Q p L)
    (h' : ∀ a, Q a → Does R (f a) M) (e : N = L ++ M) : Does R (p.bind f) N := e ▸ h.bind h'

theorem Does.mono {Q R : α → Prop} {p : PProc ι O α} {L} (h : Does Q p L) (h' : ∀ a, Q a → R a) : Does R p L := by
  induction h with
  | done h => exact .done (h' _ h)
  | send h ih => exact .send ih
  | recv h ih => exact .recv ih
  | obs h ih => exact .obs ih
  | xsend h ih => exact .xsend ih
  | xrecv hi h ih => exact .xrecv hi ih
  | xpoll hs hb h ih => exact .xpoll hs hb ih
  | xread hn hl hav h ih => exact .xread hn hl hav ih
  | xend hi h ih => exact .xend hi ih

/-- A program that does not poll performs its actions. -/
theorem Does.ofProc {p : Proc ι O α} {as a} (h : Runs p as a) : Does (· = a) (ofProc p) (as.map Seg.act) := by
  induction h with
  | done a => exact .done rfl
  | send h ih => exact .send ih
  | recv h ih => exact .recv ih
  | obs h ih => exact .obs ih

theorem Does.lift {x : Res α} {a : α} (h : x = .ok a) : Does (· = a) (lift x : PProc ι O α) [] := by
  subst h; exact .done rfl

/-- First a program that does not poll, then another. -/
theorem Does.runs {R : β → Prop} {p : Proc ι O α} {f : α → PProc ι O β} {as a M} (h : Runs p as a) (h' : Does R (f a) M) :
    Does R ((PProc.ofProc p).bind f) (as.map Seg.act ++ M) := (Does.ofProc h).bind (by rintro _ rfl; exact h')

theorem Does.lifts {R : β → Prop} {x : Res α} {f : α → PProc ι O β} {a M} (h : x = .ok a) (h' : Does R (f a) M) :
    Does R ((PProc.lift x).bind f) M := (Does.lift h).bind (by rintro _ rfl; exact h')

end PProc

/-! ## What is left to send, to receive and to observe -/

section
variable {ι O : Type}

def Seg.sent [DecidableEq ι] (d : ι) : Seg ι O → List Byte
  | .act (.send d' b) => if d' = d then [b] else []
  | .act _ => []
  | .xchg os _ _ => os.filterMap (fun o => if o.1 = d then some o.2 else none)

def Seg.rcvd [DecidableEq ι] (s : ι) : Seg ι O → List Byte
  | .act (.recv s' b) => if s' = s then [b] else []
  | .act _ => []
  | .xchg _ is _ => is s

def Seg.obsv : Seg ι O → List O
  | .act (.obs o) => [o]
  | _ => []

def Seg.isComm : Seg ι O → Bool
  | .act (.obs _) => false
  | _ => true

def segSent [DecidableEq ι] (d : ι) (L : List (Seg ι O)) : List Byte := L.flatMap (Seg.sent d)
def segRcvd [DecidableEq ι] (s : ι) (L : List (Seg ι O)) : List Byte := L.flatMap (Seg.rcvd s)
def segObs (L : List (Seg ι O)) : List O := L.flatMap Seg.obsv
def segComm (L : List (Seg ι O)) : List (Seg ι O) := L.filter Seg.isComm

@[simp] theorem segSent_nil [DecidableEq ι] (d : ι) : segSent d ([] : List (Seg ι O)) = [] := rfl
@[simp] theorem segRcvd_nil [DecidableEq ι] (d : ι) : segRcvd d ([] : List (Seg ι O)) = [] := rfl
@[simp] theorem segObs_nil : segObs ([] : List (Seg ι O)) = [] := rfl
@[simp] theorem segComm_nil : segComm ([] : List (Seg ι O)) = [] := rfl
@[simp] theorem segSent_cons [DecidableEq ι] (d : ι) (x : Seg ι O) (L) : segSent d (x :: L) = x.sent d ++ segSent d L := rfl
@[simp] theorem segRcvd_cons [DecidableEq ι] (d : ι) (x : Seg ι O) (L) : segRcvd d (x :: L) = x.rcvd d ++ segRcvd d L := rfl
@[simp] theorem segObs_cons (x : Seg ι O) (L) : segObs (x :: L) = x.obsv ++ segObs L := rfl
@[simp] theorem segObs_append (L M : List (Seg ι O)) : segObs (L ++ M) = segObs L ++ segObs M := by simp [segObs]
@[simp] theorem segComm_append (L M : List (Seg ι O)) : segComm (L ++ M) = segComm L ++ segComm M := by simp [segComm]
@[simp] theorem segSent_append [DecidableEq ι] (d : ι) (L M : List (Seg ι O)) :
    segSent d (L ++ M) = segSent d L ++ segSent d M := by simp [segSent]
@[simp] theorem segRcvd_append [DecidableEq ι] (d : ι) (L M : List (Seg ι O)) :
    segRcvd d (L ++ M) = segRcvd d L ++ segRcvd d M := by simp [segRcvd]
@[simp] theorem segComm_act_obs (o : O) (L : List (Seg ι O)) : segComm (.act (.obs o) :: L) = segComm L := rfl
@[simp] theorem segComm_act_send (d : ι) (b : Byte) (L : List (Seg ι O)) :
    segComm (.act (.send d b) :: L) = .act (.send d b) :: segComm L := rfl
@[simp] theorem segComm_act_recv (d : ι) (b : Byte) (L : List (Seg ι O)) :
    segComm (.act (.recv d b) :: L) = .act (.recv d b) :: segComm L := rfl
@[simp] theorem segComm_xchg (os is av) (L : List (Seg ι O)) :
    segComm (.xchg os is av :: L) = .xchg os is av :: segComm L := rfl

theorem segComm_acts (as : List (Act ι O)) : segComm (as.map Seg.act) = (comm as).map Seg.act := by
  induction as with
  | nil => rfl
  | cons a as ih => cases a <;> simp [ih]

theorem segObs_acts (as : List (Act ι O)) : segObs (as.map Seg.act) = obsOf as := by
  induction as with
  | nil => rfl
  | cons a as ih => cases a <;> simp [ih, Seg.obsv]

theorem segSent_comm [DecidableEq ι] (d : ι) (L : List (Seg ι O)) : segSent d (segComm L) = segSent d L := by
  induction L with
  | nil => rfl
  | cons x L ih =>
    match x with
    | .act (.obs o) => simp [ih, Seg.sent]
    | .act (.send d' b) => simp [ih]
    | .act (.recv d' b) => simp [ih]
    | .xchg os is av => simp [ih]

theorem segRcvd_comm [DecidableEq ι] (d : ι) (L : List (Seg ι O)) : segRcvd d (segComm L) = segRcvd d L := by
  induction L with
  | nil => rfl
  | cons x L ih =>
    match x with
    | .act (.obs o) => simp [ih, Seg.rcvd]
    | .act (.send d' b) => simp [ih]
    | .act (.recv d' b) => simp [ih]
    | .xchg os is av => simp [ih]

end

/-! ## A global order of communications and exchanges -/

/-- One item of a global order: a byte from one process to another, or a round, in which
every participant writes its bytes and then has read what is for it. -/
inductive GSeg (ι : Type) where
  | msg (src dst : ι) (b : Byte)
  | round (part : ι → Bool) (outs : ι → List (ι × Byte)) (ins : ι → ι → List Byte)

namespace PNet
variable {ι O α : Type} [DecidableEq ι]

/-- Part of process `i` in one item. -/
def proj1 (i : ι) : GSeg ι → List (Seg ι O)
  | .msg s d b => if i = s then [.act (.send d b)] else if i = d then [.act (.recv s b)] else []
  | .round part outs ins => if part i then [.xchg (outs i) (ins i) (fun _ => false)] else []

/-- Part of process `i` in a global order. -/
def proj (i : ι) (G : List (GSeg ι)) : List (Seg ι O) := G.flatMap (proj1 i)

/-- The bytes one process writes to another in a list. -/
def bytesTo (d : ι) (os : List (ι × Byte)) : List Byte := os.filterMap (fun o => if o.1 = d then some o.2 else none)

/-- Messages go to someone else, over a queue with room for a byte; in a round, what is
written is what is read, and fits the queues. -/
def GSeg.Ok (cap : ι × ι → Nat) : GSeg ι → Prop
  | .msg s d _ => s ≠ d ∧ 0 < cap (s, d)
  | .round part outs ins => ∀ i j,
      (if part i then bytesTo j (outs i) else []) = (if part j then ins j i else []) ∧
      (part i = true → (bytesTo j (outs i)).length ≤ cap (i, j))

/-- What process `i` still has to do is a part of its share of the global order. -/
def Rem (i : ι) : List (GSeg ι) → List (Seg ι O) → Prop
  | [], l => segComm l = []
  | .msg s d b :: G, l => (i = s ∧ segComm l = .act (.send d b) :: proj i G) ∨
      (i ≠ s ∧ i = d ∧ segComm l = .act (.recv s b) :: proj i G) ∨ Rem i G l
  | .round part outs ins :: G, l => (part i = true ∧ ∃ os is av, os <:+ outs i ∧ (∀ s, is s <:+ ins i s) ∧
      segComm l = .xchg os is av :: proj i G) ∨ Rem i G l

theorem Rem.start {i : ι} (G : List (GSeg ι)) {l : List (Seg ι O)} (h : segComm l = proj i G) : Rem i G l := by
  induction G with
  | nil => exact h
  | cons g G ih =>
    match g with
    | .msg s d b =>
      simp only [proj, List.flatMap_cons, proj1] at h
      by_cases h1 : i = s
      · left; rw [if_pos h1] at h; exact ⟨h1, h⟩
      · rw [if_neg h1] at h
        by_cases h2 : i = d
        · right; left; rw [if_pos h2] at h; exact ⟨h1, h2, h⟩
        · right; right; rw [if_neg h2] at h; exact ih h
    | .round part outs ins =>
      simp only [proj, List.flatMap_cons, proj1] at h
      by_cases h1 : part i = true
      · left; rw [if_pos h1] at h
        exact ⟨h1, _, _, _, List.suffix_refl _, fun _ => List.suffix_refl _, h⟩
      · right; rw [if_neg h1] at h; exact ih h

/-- What is left to send and to receive is at most the share. -/
theorem Rem.le {i : ι} (G : List (GSeg ι)) {l : List (Seg ι O)} (h : Rem i G l) (j : ι) :
    (segSent j l).length ≤ (segSent j (proj (O := O) i G)).length ∧
    (segRcvd j l).length ≤ (segRcvd j (proj (O := O) i G)).length := by
  induction G with
  | nil =>
    have h1 := segSent_comm j l
    have h2 := segRcvd_comm j l
    simp only [Rem] at h
    rw [h] at h1 h2
    simp [← h1, ← h2]
  | cons g G ih =>
    have hp : (proj i (g :: G) : List (Seg ι O)) = proj1 i g ++ proj i G := rfl
    rw [hp, segSent_append, segRcvd_append, List.length_append, List.length_append]
    have h1 := segSent_comm j l
    have h2 := segRcvd_comm j l
    match g with
    | .msg s d b =>
      rcases h with ⟨h3, h4⟩ | ⟨h3, h3', h4⟩ | h
      · rw [h4] at h1 h2
        rw [← h1, ← h2, proj1, if_pos h3]
        simp
      · rw [h4] at h1 h2
        rw [← h1, ← h2, proj1, if_neg h3, if_pos h3']
        simp
      · have := ih h; omega
    | .round part outs ins =>
      rcases h with ⟨h3, os, is, av, h5, h6, h4⟩ | h
      · rw [h4] at h1 h2
        rw [← h1, ← h2, proj1, if_pos h3]
        simp only [segSent_cons, segRcvd_cons, Seg.sent, Seg.rcvd, List.length_append, segSent_nil, segRcvd_nil,
          List.length_nil, Nat.add_zero]
        have := (h5.filterMap (fun o : ι × Byte => if o.1 = j then some o.2 else none)).length_le
        have := (h6 j).length_le
        omega
      · have := ih h; omega

/-- What one process sends another in its share is what the other receives in its. -/
theorem proj_match {cap : ι × ι → Nat} (G : List (GSeg ι)) (hG : ∀ g ∈ G, GSeg.Ok cap g) (i j : ι) :
    segSent j (proj (O := O) i G) = segRcvd i (proj (O := O) j G) := by
  induction G with
  | nil => rfl
  | cons g G ih =>
    have hp : ∀ i, (proj i (g :: G) : List (Seg ι O)) = proj1 i g ++ proj i G := fun _ => rfl
    rw [hp, hp, segSent_append, segRcvd_append, ih (fun g hg => hG g (by simp [hg]))]
    congr 1
    have := hG g (by simp)
    match g with
    | .msg s d b =>
      obtain ⟨h1, -⟩ := this
      simp only [proj1]
      by_cases hi : i = s <;> by_cases hj : j = d
      · subst hi hj; simp [Seg.sent, Seg.rcvd, Ne.symm h1]
      · subst hi
        simp only [if_true]
        split_ifs <;> simp [Seg.sent, Seg.rcvd, Ne.symm hj]
      · subst hj
        rw [if_neg hi, if_neg (Ne.symm h1)]
        simp only [if_true]
        split_ifs <;> simp [Seg.sent, Seg.rcvd, Ne.symm hi]
      · rw [if_neg hi, if_neg hj]
        split_ifs <;> simp [Seg.sent, Seg.rcvd]
    | .round part outs ins =>
      have := (this i j).1
      simp only [proj1]
      split_ifs at this ⊢ <;> simp_all [Seg.sent, Seg.rcvd, bytesTo] <;> exact this

/-! ## Invariant of a run -/

/-- Processes known to have bytes in transit do. -/
def AvOk (chan : ι × ι → List Byte) (i : ι) : List (Seg ι O) → Prop
  | .xchg _ _ av :: _ => ∀ s, av s = true → chan (s, i) ≠ []
  | _ => True

structure Inv (Q : ι → α → Prop) (G : List (GSeg ι)) (os : ι → List O) (n : PNet ι O α) (L : ι → List (Seg ι O)) : Prop where
  does : ∀ i, PProc.Does (Q i) (n.proc i) (L i)
  seen : ∀ i, n.seen i ++ segObs (L i) = os i
  chan : ∀ i j, n.chan (i, j) ++ segSent j (L i) = segRcvd i (L j)
  rem : ∀ i, Rem i G (L i)
  av : ∀ i, AvOk n.chan i (segComm (L i))

theorem Rem.congr {i : ι} (G : List (GSeg ι)) {l l' : List (Seg ι O)} (h : Rem i G l) (e : segComm l = segComm l') :
    Rem i G l' := by
  induction G with
  | nil => simp only [Rem] at h ⊢; rw [← e]; exact h
  | cons g G ih =>
    match g with
    | .msg s d b =>
      rcases h with h | h | h
      · left; rw [← e]; exact h
      · right; left; rw [← e]; exact h
      · right; right; exact ih h
    | .round part outs ins =>
      rcases h with h | h
      · left; rw [← e]; exact h
      · right; exact ih h

/-- An item of the share is at the head: the rest is a share as well. -/
theorem Rem.tail {i : ι} (G : List (GSeg ι)) {x : Seg ι O} {l l' : List (Seg ι O)} (h : Rem i G l')
    (e : segComm l' = x :: segComm l) : ∃ H, segComm l = proj i H ∧ Rem i G l := by
  induction G with
  | nil => simp only [Rem] at h; rw [e] at h; cases h
  | cons g G ih =>
    match g with
    | .msg s d b =>
      rcases h with ⟨-, h⟩ | ⟨-, -, h⟩ | h
      · rw [e] at h
        have h := (List.cons.inj h).2
        exact ⟨G, h, .inr (.inr (Rem.start G h))⟩
      · rw [e] at h
        have h := (List.cons.inj h).2
        exact ⟨G, h, .inr (.inr (Rem.start G h))⟩
      · obtain ⟨H, h1, h2⟩ := ih h
        exact ⟨H, h1, .inr (.inr h2)⟩
    | .round part outs ins =>
      rcases h with ⟨-, _, _, _, -, -, h⟩ | h
      · rw [e] at h
        have h := (List.cons.inj h).2
        exact ⟨G, h, .inr (Rem.start G h)⟩
      · obtain ⟨H, h1, h2⟩ := ih h
        exact ⟨H, h1, .inr h2⟩

/-- An exchange may go on. -/
theorem Rem.xchg {i : ι} (G : List (GSeg ι)) {os is av l} (h : Rem (O := O) i G (.xchg os is av :: l)) {os' is' av'}
    (ho : os' <:+ os) (hi : ∀ s, is' s <:+ is s) : Rem i G (.xchg os' is' av' :: l) := by
  induction G with
  | nil => simp [Rem] at h
  | cons g G ih =>
    match g with
    | .msg s d b =>
      rcases h with ⟨-, h⟩ | ⟨-, -, h⟩ | h
      · simp at h
      · simp at h
      · exact .inr (.inr (ih h))
    | .round part outs ins =>
      rcases h with ⟨h1, _, _, _, h2, h3, h⟩ | h
      · simp only [segComm_xchg] at h
        obtain ⟨h4, h5⟩ := List.cons.inj h
        cases h4
        exact .inl ⟨h1, os', is', av', ho.trans h2, fun s => (hi s).trans (h3 s), by simp [h5]⟩
      · exact .inr (ih h)

theorem avOk_proj (chan : ι × ι → List Byte) (i : ι) (G : List (GSeg ι)) : AvOk chan i (proj (O := O) i G) := by
  induction G with
  | nil => trivial
  | cons g G ih =>
    have hp : (proj i (g :: G) : List (Seg ι O)) = proj1 i g ++ proj i G := rfl
    rw [hp]
    match g with
    | .msg s d b =>
      simp only [proj1]
      split_ifs
      · trivial
      · trivial
      · exact ih
    | .round part outs ins =>
      simp only [proj1]
      split_ifs
      · intro s hs; simp at hs
      · exact ih

theorem AvOk.mono {chan chan' : ι × ι → List Byte} {i : ι} {l : List (Seg ι O)} (h : AvOk chan i l)
    (hc : ∀ s, chan (s, i) ≠ [] → chan' (s, i) ≠ []) : AvOk chan' i l := by
  match l with
  | [] => trivial
  | .act a :: l => trivial
  | .xchg _ _ av :: l => exact fun s hs => hc s (h s hs)

theorem segObs_comm_nil {l : List (Seg ι O)} {x : Seg ι O} (h : x.isComm = true) : segObs (x :: l) = segObs l := by
  match x with
  | .act (.obs o) => simp [Seg.isComm] at h
  | .act (.send d' b) => rfl
  | .act (.recv d' b) => rfl
  | .xchg os is av => rfl

/-- The invariant after a step of process `i`, from what changed. -/
theorem Inv.update {Q : ι → α → Prop} {G : List (GSeg ι)} {os : ι → List O} {n : PNet ι O α} {L : ι → List (Seg ι O)} (h : Inv Q G os n L)
    (i : ι) (l : List (Seg ι O)) (p : PProc ι O α) (chan : ι × ι → List Byte) (seen : List O)
    (hd : PProc.Does (Q i) p l) (hs : seen ++ segObs l = n.seen i ++ segObs (L i)) (hr : Rem i G l)
    (ha : AvOk chan i (segComm l))
    (hc : ∀ a b, chan (a, b) ++ segSent b (Function.update L i l a) = segRcvd a (Function.update L i l b))
    (hm : ∀ a b, b ≠ i → n.chan (a, b) ≠ [] → chan (a, b) ≠ []) :
    Inv Q G os { proc := Function.update n.proc i p, chan := chan, seen := Function.update n.seen i seen }
      (Function.update L i l) where
  does j := by
    by_cases hj : j = i
    · subst hj; simpa using hd
    · simpa [Function.update_of_ne hj] using h.does j
  seen j := by
    by_cases hj : j = i
    · subst hj; simpa [hs] using h.seen j
    · simpa [Function.update_of_ne hj] using h.seen j
  chan := hc
  rem j := by
    by_cases hj : j = i
    · subst hj; simpa using hr
    · simpa [Function.update_of_ne hj] using h.rem j
  av j := by
    by_cases hj : j = i
    · subst hj; simpa using ha
    · simp only [Function.update_of_ne hj]
      exact (h.av j).mono (fun s => hm s j hj)

/-- Finished exchanges may be forgotten. -/
theorem Inv.skip {Q : ι → α → Prop} {G : List (GSeg ι)} {os : ι → List O} {n : PNet ι O α} {L : ι → List (Seg ι O)} (h : Inv Q G os n L)
    {i : ι} {is av l} (e : L i = .xchg [] is av :: l) (hi : ∀ j, is j = []) (hd : PProc.Does (Q i) (n.proc i) l) :
    Inv Q G os n (Function.update L i l) := by
  have hr := h.rem i
  rw [e] at hr
  obtain ⟨H, h1, h2⟩ := Rem.tail G (l := l) hr rfl
  have := h.update i l (n.proc i) n.chan (n.seen i) hd (by rw [e]; rfl) h2 (by rw [h1]; exact avOk_proj _ _ _) (by
    intro a b
    have := h.chan a b
    by_cases ha : a = i
    · subst ha
      rw [e] at this
      by_cases hb : b = a
      · subst hb
        rw [e] at this
        simpa [Seg.sent, Seg.rcvd, hi] using this
      · simpa [Seg.sent, Function.update_of_ne hb] using this
    · by_cases hb : b = i
      · subst hb
        rw [e] at this
        simpa [Seg.rcvd, hi, Function.update_of_ne ha] using this
      · simpa [Function.update_of_ne hb, Function.update_of_ne ha] using this) (fun a b _ h => h)
  simpa using this

theorem chan_send {n : PNet ι O α} {L : ι → List (Seg ι O)} {i d : ι} {b : Byte} {l : List (Seg ι O)}
    (h : ∀ a c, n.chan (a, c) ++ segSent c (L a) = segRcvd a (L c))
    (hs : ∀ c, segSent c (L i) = (if d = c then [b] else []) ++ segSent c l) (hr : ∀ a, segRcvd a (L i) = segRcvd a l)
    (a c : ι) : Function.update n.chan (i, d) (n.chan (i, d) ++ [b]) (a, c) ++ segSent c (Function.update L i l a) =
      segRcvd a (Function.update L i l c) := by
  have hrc : segRcvd a (Function.update L i l c) = segRcvd a (L c) := by
    by_cases hc : c = i
    · subst hc; simp [hr]
    · simp [Function.update_of_ne hc]
  rw [hrc, ← h a c]
  by_cases ha : a = i
  · subst ha
    rw [hs c]
    by_cases hd : d = c
    · subst hd; simp
    · have : (a, c) ≠ (a, d) := by simp [Ne.symm hd]
      simp [Function.update_of_ne this, hd]
  · have : (a, c) ≠ (i, d) := by simp [ha]
    simp [Function.update_of_ne this, Function.update_of_ne ha]

theorem chan_recv {n : PNet ι O α} {L : ι → List (Seg ι O)} {i s : ι} {c rest : List Byte} {l : List (Seg ι O)}
    (h : ∀ a c, n.chan (a, c) ++ segSent c (L a) = segRcvd a (L c)) (e : n.chan (s, i) = c ++ rest)
    (hs : ∀ c, segSent c (L i) = segSent c l) (hr : ∀ a, segRcvd a (L i) = (if s = a then c else []) ++ segRcvd a l)
    (a d : ι) : Function.update n.chan (s, i) rest (a, d) ++ segSent d (Function.update L i l a) =
      segRcvd a (Function.update L i l d) := by
  have hsd : segSent d (Function.update L i l a) = segSent d (L a) := by
    by_cases hc : a = i
    · subst hc; simp [hs]
    · simp [Function.update_of_ne hc]
  rw [hsd]
  have h0 := h a d
  by_cases hd : d = i
  · subst hd
    rw [hr a] at h0
    by_cases ha : s = a
    · subst ha
      rw [e] at h0
      simpa using h0
    · have : (a, d) ≠ (s, d) := by simp [Ne.symm ha]
      simpa [Function.update_of_ne this, ha] using h0
  · have : (a, d) ≠ (s, i) := by simp [hd]
    simpa [Function.update_of_ne this, Function.update_of_ne hd] using h0

theorem bytesTo_cons (d c : ι) (b : Byte) (os : List (ι × Byte)) :
    bytesTo c ((d, b) :: os) = (if d = c then [b] else []) ++ bytesTo c os := by
  unfold bytesTo
  by_cases h : d = c <;> simp [h]

/-- What may be left of a script later. -/
inductive Later : List (Seg ι O) → List (Seg ι O) → Prop
  | refl (l : List (Seg ι O)) : Later l l
  | drop {l l' : List (Seg ι O)} {x : Seg ι O} : Later l (x :: l') → Later l l'
  | shrink {l l' : List (Seg ι O)} {os os' : List (ι × Byte)} {is is' : ι → List Byte} {av av' : ι → Bool} :
      Later l (.xchg os is av :: l') → os' <:+ os → (∀ s, is' s <:+ is s) → Later l (.xchg os' is' av' :: l')

theorem Later.trans {l l' l'' : List (Seg ι O)} (h : Later l l') (h' : Later l' l'') : Later l l'' := by
  induction h' with
  | refl => exact h
  | drop _ ih => exact .drop ih
  | shrink _ h1 h2 ih => exact .shrink ih h1 h2

theorem later_update {L : ι → List (Seg ι O)} {i : ι} {l : List (Seg ι O)} (h : Later (L i) l) (j : ι) :
    Later (L j) (Function.update L i l j) := by
  by_cases hj : j = i
  · subst hj; rw [Function.update_self]; exact h
  · rw [Function.update_of_ne hj]; exact .refl _

/-- The invariant is preserved by every step; only the script of the process that takes
it shrinks. -/
theorem Inv.step_own {cap : ι × ι → Nat} {Q : ι → α → Prop} {G : List (GSeg ι)} {os : ι → List O} {n m : PNet ι O α} {L : ι → List (Seg ι O)} {i : ι}
    (h : Inv Q G os n L) (hs : Step cap i n m) : ∃ l, Inv Q G os m (Function.update L i l) ∧ Later (L i) l := by
  have hD := h.does i
  generalize hp : n.proc i = p at hD
  generalize hl : L i = l at hD
  induction hD generalizing L with
  | done h => cases hs <;> simp_all
  | @send d b k l hD ih =>
    cases hs with
    | send h1 room =>
      rw [hp] at h1; cases h1
      have hr := h.rem i
      rw [hl] at hr
      obtain ⟨H, h1, h2⟩ := Rem.tail G (l := l) hr rfl
      have := h.update i l k _ (n.seen i) hD (by rw [hl]; rfl) h2 (by rw [h1]; exact avOk_proj _ _ _)
        (chan_send h.chan (by intro c; rw [hl]; rfl) (by intro a; rw [hl]; rfl)) (by
          intro a c hc hne
          by_cases e : (a, c) = (i, d)
          · rw [e]; simp
          · rw [Function.update_of_ne e]; exact hne)
      exact ⟨l, by simpa using this, .drop (.refl _)⟩
    | recv h1 => rw [hp] at h1; cases h1
    | obs h1 => rw [hp] at h1; cases h1
    | poll _ h1 => rw [hp] at h1; cases h1
    | read h1 => rw [hp] at h1; cases h1
  | @recv s k b l hD ih =>
    cases hs with
    | @recv s' k' b' rest h1 data =>
      rw [hp] at h1; cases h1
      have hc := h.chan s i
      rw [data, hl] at hc
      have hb : b' = b := by
        simp only [segRcvd_cons, Seg.rcvd, if_true, List.cons_append] at hc
        exact (List.cons.inj hc).1
      subst hb
      have hr := h.rem i
      rw [hl] at hr
      obtain ⟨H, h1, h2⟩ := Rem.tail G (l := l) hr rfl
      have := h.update i l (k b') _ (n.seen i) hD (by rw [hl]; rfl) h2 (by rw [h1]; exact avOk_proj _ _ _)
        (chan_recv (c := [b']) (rest := rest) h.chan data (by intro c; rw [hl]; rfl) (by intro a; rw [hl]; rfl)) (by
          intro a c hc hne
          have e : (a, c) ≠ (s, i) := by simp [hc]
          rw [Function.update_of_ne e]; exact hne)
      exact ⟨l, by simpa using this, .drop (.refl _)⟩
    | send h1 => rw [hp] at h1; cases h1
    | obs h1 => rw [hp] at h1; cases h1
    | poll _ h1 => rw [hp] at h1; cases h1
    | read h1 => rw [hp] at h1; cases h1
  | @obs o k l hD ih =>
    cases hs with
    | obs h1 =>
      rw [hp] at h1; cases h1
      have := h.update i l k n.chan (n.seen i ++ [o]) hD (by rw [hl]; simp [Seg.obsv])
        ((h.rem i).congr G (by rw [hl]; rfl)) (by have := h.av i; rw [hl] at this; exact this) (by
          intro a c
          have e1 : ∀ a, segSent c (Function.update L i l a) = segSent c (L a) := by
            intro a
            by_cases ha : a = i
            · subst ha; rw [hl]; simp [Seg.sent]
            · simp [Function.update_of_ne ha]
          have e2 : ∀ c, segRcvd a (Function.update L i l c) = segRcvd a (L c) := by
            intro a
            by_cases ha : a = i
            · subst ha; rw [hl]; simp [Seg.rcvd]
            · simp [Function.update_of_ne ha]
          rw [e1, e2]; exact h.chan a c) (fun _ _ _ h => h)
      exact ⟨l, this, .drop (.refl _)⟩
    | send h1 => rw [hp] at h1; cases h1
    | recv h1 => rw [hp] at h1; cases h1
    | poll _ h1 => rw [hp] at h1; cases h1
    | read h1 => rw [hp] at h1; cases h1
  | @xsend d b k xs is av l hD ih =>
    cases hs with
    | send h1 room =>
      rw [hp] at h1; cases h1
      have hr := h.rem i
      rw [hl] at hr
      have hav := h.av i
      rw [hl] at hav
      have := h.update i (.xchg xs is av :: l) k (Function.update n.chan (i, d) (n.chan (i, d) ++ [b])) (n.seen i) hD (by rw [hl]; rfl)
        (hr.xchg G (List.suffix_cons _ _) (fun _ => List.suffix_refl _))
        (AvOk.mono (l := segComm (.xchg xs is av :: l)) (chan := n.chan) hav (by
          intro s hs
          by_cases e : (s, i) = (i, d)
          · rw [e]; simp
          · rw [Function.update_of_ne e]; exact hs))
        (chan_send h.chan (by
          intro c; rw [hl]
          show bytesTo c ((d, b) :: xs) ++ segSent c l = _ ++ (bytesTo c xs ++ segSent c l)
          rw [bytesTo_cons, List.append_assoc]) (by intro a; rw [hl]; rfl)) (by
          intro a c hc hne
          by_cases e : (a, c) = (i, d)
          · rw [e]; simp
          · rw [Function.update_of_ne e]; exact hne)
      exact ⟨(.xchg xs is av :: l), by simpa using this, (by
        exact .shrink (.refl _) (List.suffix_cons _ _) (fun _ => List.suffix_refl _))⟩
    | recv h1 => rw [hp] at h1; cases h1
    | obs h1 => rw [hp] at h1; cases h1
    | poll _ h1 => rw [hp] at h1; cases h1
    | read h1 => rw [hp] at h1; cases h1
  | @xrecv s k b l' is av l hi hD ih =>
    cases hs with
    | @recv s' k' b' rest h1 data =>
      rw [hp] at h1; cases h1
      have hc := h.chan s i
      rw [data, hl] at hc
      have hb : b' = b := by
        simp only [segRcvd_cons, Seg.rcvd, hi, List.cons_append] at hc
        exact (List.cons.inj hc).1
      subst hb
      have hr := h.rem i
      rw [hl] at hr
      have hav := h.av i
      rw [hl] at hav
      have := h.update i (.xchg [] (Function.update is s l') (Function.update av s false) :: l) (k b') _ (n.seen i) hD
        (by rw [hl]; rfl) (hr.xchg G (List.suffix_refl _) (by
          intro a
          by_cases ha : a = s
          · subst ha; rw [Function.update_self, hi]; exact List.suffix_cons _ _
          · rw [Function.update_of_ne ha])) (by
          intro a ha
          by_cases hs : a = s
          · subst hs; simp at ha
          · rw [Function.update_of_ne hs] at ha
            have e : (a, i) ≠ (s, i) := by simp [hs]
            rw [Function.update_of_ne e]
            exact hav a ha)
        (chan_recv (c := [b']) (rest := rest) h.chan data (by intro c; rw [hl]; rfl) (by
          intro a; rw [hl]
          simp only [segRcvd_cons, Seg.rcvd]
          by_cases ha : a = s
          · subst ha; simp [hi]
          · simp [Function.update_of_ne ha, Ne.symm ha])) (by
          intro a c hc hne
          have e : (a, c) ≠ (s, i) := by simp [hc]
          rw [Function.update_of_ne e]; exact hne)
      exact ⟨(.xchg [] (Function.update is s l') (Function.update av s false) :: l), by simpa using this, (by
        exact .shrink (.refl _) (List.suffix_refl _) (by
          intro a
          by_cases ha : a = s
          · subst ha; rw [Function.update_self, hi]; exact List.suffix_cons _ _
          · rw [Function.update_of_ne ha]))⟩
    | send h1 => rw [hp] at h1; cases h1
    | obs h1 => rw [hp] at h1; cases h1
    | poll _ h1 => rw [hp] at h1; cases h1
    | read h1 => rw [hp] at h1; cases h1
  | @xpoll srcs block k xs is av l hsrc hb hD ih =>
    cases hs with
    | poll ready h1 sound hsome =>
      rw [hp] at h1; cases h1
      have hr := h.rem i
      rw [hl] at hr
      have := h.update i (.xchg xs is ready :: l) (k ready) n.chan (n.seen i)
        (hD ready (fun j hj => (sound j hj).1) hsome) (by rw [hl]; rfl)
        (hr.xchg G (List.suffix_refl _) (fun _ => List.suffix_refl _)) (fun s hs => (sound s hs).2) (by
          intro a c
          have e1 : ∀ a, segSent c (Function.update L i (.xchg xs is ready :: l) a) = segSent c (L a) := by
            intro a
            by_cases ha : a = i
            · subst ha; rw [hl]; simp [Seg.sent]
            · simp [Function.update_of_ne ha]
          have e2 : ∀ c, segRcvd a (Function.update L i (.xchg xs is ready :: l) c) = segRcvd a (L c) := by
            intro a
            by_cases ha : a = i
            · subst ha; rw [hl]; simp [Seg.rcvd]
            · simp [Function.update_of_ne ha]
          rw [e1, e2]; exact h.chan a c) (fun _ _ _ h => h)
      exact ⟨(.xchg xs is ready :: l), by simpa using this, (by
        exact .shrink (.refl _) (List.suffix_refl _) (fun _ => List.suffix_refl _))⟩
    | send h1 => rw [hp] at h1; cases h1
    | recv h1 => rw [hp] at h1; cases h1
    | obs h1 => rw [hp] at h1; cases h1
    | read h1 => rw [hp] at h1; cases h1
  | @xread s m k xs is av l hn hlen hav0 hD ih =>
    cases hs with
    | @read s' m' k' c rest h1 hne fits data =>
      rw [hp] at h1; cases h1
      have hc := h.chan s i
      rw [data, hl] at hc
      have hpre : c <+: is s := by
        have h1 : c <+: is s ++ segRcvd s l := ⟨rest ++ segSent i (L s), by
          rw [← List.append_assoc]; simpa [Seg.rcvd] using hc⟩
        exact List.prefix_of_prefix_length_le h1 (List.prefix_append _ _) (by omega)
      have hr := h.rem i
      rw [hl] at hr
      have hav := h.av i
      rw [hl] at hav
      have := h.update i (.xchg xs (Function.update is s ((is s).drop c.length)) (Function.update av s false) :: l) (k c) _
        (n.seen i) (hD c hne fits hpre)
        (by rw [hl]; rfl) (hr.xchg G (List.suffix_refl _) (by
          intro a
          by_cases ha : a = s
          · subst ha; rw [Function.update_self]; exact List.drop_suffix _ _
          · rw [Function.update_of_ne ha])) (by
          intro a ha
          by_cases hs : a = s
          · subst hs; simp at ha
          · rw [Function.update_of_ne hs] at ha
            have e : (a, i) ≠ (s, i) := by simp [hs]
            rw [Function.update_of_ne e]
            exact hav a ha)
        (chan_recv (c := c) (rest := rest) h.chan data (by intro c; rw [hl]; rfl) (by
          intro a; rw [hl]
          simp only [segRcvd_cons, Seg.rcvd]
          by_cases ha : a = s
          · subst ha
            simp only [if_true, Function.update_self, ← List.append_assoc]
            congr 1
            obtain ⟨r, hr⟩ := hpre
            rw [← hr]; simp
          · simp [Function.update_of_ne ha, Ne.symm ha])) (by
          intro a c hc hne
          have e : (a, c) ≠ (s, i) := by simp [hc]
          rw [Function.update_of_ne e]; exact hne)
      exact ⟨(.xchg xs (Function.update is s ((is s).drop c.length)) (Function.update av s false) :: l), by simpa using this, (by
        exact .shrink (.refl _) (List.suffix_refl _) (by
          intro a
          by_cases ha : a = s
          · subst ha; rw [Function.update_self]; exact List.drop_suffix _ _
          · rw [Function.update_of_ne ha]))⟩
    | send h1 => rw [hp] at h1; cases h1
    | recv h1 => rw [hp] at h1; cases h1
    | obs h1 => rw [hp] at h1; cases h1
    | poll _ h1 => rw [hp] at h1; cases h1
  | @xend p is av l hi hD ih =>
    subst hp
    obtain ⟨l', h1, h2⟩ := ih (h.skip hl hi (by exact hD)) rfl (by simp)
    rw [Function.update_idem] at h1
    exact ⟨l', h1, (Later.drop (Later.refl _)).trans h2⟩

theorem Inv.step_later {cap : ι × ι → Nat} {Q : ι → α → Prop} {G : List (GSeg ι)} {os : ι → List O} {n m : PNet ι O α} {L : ι → List (Seg ι O)} {i : ι}
    (h : Inv Q G os n L) (hs : Step cap i n m) : ∃ L', Inv Q G os m L' ∧ ∀ j, Later (L j) (L' j) := by
  obtain ⟨l, h1, h2⟩ := h.step_own hs
  exact ⟨_, h1, later_update h2⟩

theorem Inv.reach_later {cap : ι × ι → Nat} {Q : ι → α → Prop} {G : List (GSeg ι)} {os : ι → List O} {n m : PNet ι O α} {L : ι → List (Seg ι O)}
    (h : Inv Q G os n L) (hr : Reach cap n m) : ∃ L', Inv Q G os m L' ∧ ∀ j, Later (L j) (L' j) := by
  induction hr with
  | refl => exact ⟨L, h, fun j => .refl _⟩
  | step _ s ih =>
    obtain ⟨L', h', hl⟩ := ih
    obtain ⟨L'', h'', hl'⟩ := h'.step_later s
    exact ⟨L'', h'', fun j => (hl j).trans (hl' j)⟩

theorem Inv.step {cap : ι × ι → Nat} {Q : ι → α → Prop} {G : List (GSeg ι)} {os : ι → List O} {n m : PNet ι O α} {L : ι → List (Seg ι O)} {i : ι}
    (h : Inv Q G os n L) (hs : Step cap i n m) : ∃ L', Inv Q G os m L' := by
  obtain ⟨L', h', -⟩ := h.step_later hs
  exact ⟨L', h'⟩

theorem Inv.reach {cap : ι × ι → Nat} {Q : ι → α → Prop} {G : List (GSeg ι)} {os : ι → List O} {n m : PNet ι O α} {L : ι → List (Seg ι O)}
    (h : Inv Q G os n L) (hr : Reach cap n m) : ∃ L', Inv Q G os m L' := by
  obtain ⟨L', h', -⟩ := h.reach_later hr
  exact ⟨L', h'⟩

/-! ## Progress -/

/-- What the next action of a program is, when its finished exchanges are forgotten. -/
def Live (Q : α → Prop) : PProc ι O α → List (Seg ι O) → Prop
  | .done a, l => l = [] ∧ Q a
  | .fault _, _ => False
  | .send d b _, l => (∃ r, l = .act (.send d b) :: r) ∨ ∃ os is av r, l = .xchg ((d, b) :: os) is av :: r
  | .recv s _, l => (∃ b r, l = .act (.recv s b) :: r) ∨ ∃ is av r, l = .xchg [] is av :: r ∧ is s ≠ []
  | .obs o _, l => ∃ r, l = .act (.obs o) :: r
  | .poll srcs block _, l => ∃ os is av r, l = .xchg os is av :: r ∧ (∀ j ∈ srcs, is j ≠ []) ∧
      (block = true → os = [] ∧ srcs ≠ [])
  | .read s n _, l => ∃ os is av r, l = .xchg os is av :: r ∧ av s = true ∧ 0 < n

theorem live_of_does {G : List (GSeg ι)} {i : ι} {chan : ι × ι → List Byte} {p : PProc ι O α} {l : List (Seg ι O)} {Q : α → Prop}
    (h : PProc.Does Q p l) (hr : Rem i G l) (ha : AvOk chan i (segComm l)) :
    ∃ l', PProc.Does Q p l' ∧ Live Q p l' ∧ Rem i G l' ∧ AvOk chan i (segComm l') ∧ segObs l' = segObs l ∧
      (∀ d, segSent d l' = segSent d l) ∧ (∀ s, segRcvd s l' = segRcvd s l) := by
  induction h with
  | done h => exact ⟨[], .done h, ⟨rfl, h⟩, hr, ha, rfl, fun _ => rfl, fun _ => rfl⟩
  | send h _ => exact ⟨_, .send h, .inl ⟨_, rfl⟩, hr, ha, rfl, fun _ => rfl, fun _ => rfl⟩
  | recv h _ => exact ⟨_, .recv h, .inl ⟨_, _, rfl⟩, hr, ha, rfl, fun _ => rfl, fun _ => rfl⟩
  | obs h _ => exact ⟨_, .obs h, ⟨_, rfl⟩, hr, ha, rfl, fun _ => rfl, fun _ => rfl⟩
  | xsend h _ => exact ⟨_, .xsend h, .inr ⟨_, _, _, _, rfl⟩, hr, ha, rfl, fun _ => rfl, fun _ => rfl⟩
  | xrecv hi h _ => exact ⟨_, .xrecv hi h, .inr ⟨_, _, _, rfl, by simp [hi]⟩, hr, ha, rfl, fun _ => rfl, fun _ => rfl⟩
  | xpoll h1 h2 h3 _ => exact ⟨_, .xpoll h1 h2 h3, ⟨_, _, _, _, rfl, h1, h2⟩, hr, ha, rfl, fun _ => rfl, fun _ => rfl⟩
  | xread h1 h2 h3 h4 _ => exact ⟨_, .xread h1 h2 h3 h4, ⟨_, _, _, _, rfl, h3, h1⟩, hr, ha, rfl, fun _ => rfl, fun _ => rfl⟩
  | @xend p is av l hi h ih =>
    obtain ⟨H, h1, h2⟩ := Rem.tail G (l := l) hr rfl
    obtain ⟨l', h3, h4, h5, h6, h7, h8, h9⟩ := ih h2 (by rw [h1]; exact avOk_proj _ _ _)
    exact ⟨l', h3, h4, h5, h6, by rw [h7]; rfl, fun d => by rw [h8]; rfl,
      fun s => by rw [h9, segRcvd_cons]; simp [Seg.rcvd, hi]⟩

theorem Inv.live {Q : ι → α → Prop} {G : List (GSeg ι)} {os : ι → List O} {n : PNet ι O α} {L : ι → List (Seg ι O)} (h : Inv Q G os n L) :
    ∃ L', Inv Q G os n L' ∧ ∀ i, Live (Q i) (n.proc i) (L' i) := by
  have := fun i => live_of_does (h.does i) (h.rem i) (h.av i)
  choose L' h1 h2 h3 h4 h5 h6 h7 using this
  exact ⟨L', ⟨h1, fun i => by rw [h5]; exact h.seen i, fun i j => by rw [h6, h7]; exact h.chan i j, h3, h4⟩, h2⟩

theorem segSent_of_comm {l m : List (Seg ι O)} (h : segComm l = m) (j : ι) : segSent j l = segSent j m := by
  rw [← h, segSent_comm]

theorem segRcvd_of_comm {l m : List (Seg ι O)} (h : segComm l = m) (j : ι) : segRcvd j l = segRcvd j m := by
  rw [← h, segRcvd_comm]

theorem canStep_obs {cap : ι × ι → Nat} {n : PNet ι O α} {i : ι} {l : List (Seg ι O)} {o : O} {Q : α → Prop} (h : Live Q (n.proc i) (.act (.obs o) :: l)) :
    CanStep cap n := by
  generalize hp : n.proc i = p at h
  match p with
  | .obs o k => exact ⟨i, _, .obs hp⟩
  | .done _ => simp [Live] at h
  | .fault _ => simp [Live] at h
  | .send d b _ => simp [Live] at h
  | .recv s _ => simp [Live] at h
  | .poll srcs block _ => simp [Live] at h
  | .read s n _ => simp [Live] at h

omit [DecidableEq ι] in
/-- Either the head is an observation, or it is the head of what is communicated. -/
theorem head_comm {l m : List (Seg ι O)} {x : Seg ι O} (h : segComm l = x :: m) :
    (∃ o r, l = .act (.obs o) :: r) ∨ ∃ r, l = x :: r ∧ segComm r = m := by
  match l with
  | [] => cases h
  | .act (.obs o) :: l => exact .inl ⟨o, l, rfl⟩
  | .act (.send d b) :: l => right; obtain ⟨h1, h2⟩ := List.cons.inj h; exact ⟨l, by rw [← h1], h2⟩
  | .act (.recv d b) :: l => right; obtain ⟨h1, h2⟩ := List.cons.inj h; exact ⟨l, by rw [← h1], h2⟩
  | .xchg os is av :: l => right; obtain ⟨h1, h2⟩ := List.cons.inj h; exact ⟨l, by rw [← h1], h2⟩

theorem progress_aux {cap : ι × ι → Nat} (G : List (GSeg ι)) (hG : ∀ g ∈ G, GSeg.Ok cap g) {n : PNet ι O α} {L : ι → List (Seg ι O)}
    {Q : ι → α → Prop} (live : ∀ i, Live (Q i) (n.proc i) (L i)) (hc : ∀ i j, n.chan (i, j) ++ segSent j (L i) = segRcvd i (L j))
    (hav : ∀ i, AvOk n.chan i (segComm (L i))) (hr : ∀ i, Rem i G (L i)) : CanStep cap n ∨ ∀ i, segComm (L i) = [] := by
  induction G with
  | nil => exact .inr hr
  | cons g G ih =>
    have hp : ∀ i, (proj i (g :: G) : List (Seg ι O)) = proj1 i g ++ proj i G := fun _ => rfl
    have hG' : ∀ g ∈ G, GSeg.Ok cap g := fun g hg => hG g (by simp [hg])
    have hg := hG g (by simp)
    by_cases hrest : ∀ i, Rem i G (L i)
    · exact ih hG' hrest
    obtain ⟨i0, hi0⟩ := not_forall.1 hrest
    left
    match g with
    | .msg s d b =>
      obtain ⟨hsd, hcap⟩ := hg
      by_cases hs : Rem s G (L s)
      · -- the receiver waits
        have hi : i0 ≠ s := fun e => hi0 (e ▸ hs)
        rcases hr i0 with ⟨h1, -⟩ | ⟨h1, h2, h3⟩ | h1
        · exact absurd h1 hi
        · subst h2
          have e1 := congrArg List.length (hc s i0)
          rw [segRcvd_of_comm h3] at e1
          have e2 := (Rem.le G hs i0).1
          rw [proj_match G hG' s i0] at e2
          simp only [segRcvd_cons, Seg.rcvd, if_true, List.length_append, List.length_cons, List.length_nil] at e1
          have e3 : n.chan (s, i0) ≠ [] := by intro h; rw [h] at e1; simp at e1; omega
          rcases head_comm h3 with ⟨o, r, h4⟩ | ⟨r, h4, -⟩
          · exact canStep_obs (h4 ▸ live i0)
          · have hl := live i0
            rw [h4] at hl
            obtain ⟨c, cs, e3⟩ := List.exists_cons_of_ne_nil e3
            generalize hq : n.proc i0 = p at hl
            match p with
            | .recv s' k =>
              simp only [Live, List.cons.injEq, Seg.act.injEq, Act.recv.injEq, reduceCtorEq, false_and, exists_const, or_false] at hl
              obtain ⟨b', r', ⟨h5, -⟩, -⟩ := hl
              subst h5
              exact ⟨i0, _, .recv hq e3⟩
            | .done _ => simp [Live] at hl
            | .fault _ => simp [Live] at hl
            | .send d b _ => simp [Live] at hl
            | .obs s _ => simp [Live] at hl
            | .poll srcs block _ => simp [Live] at hl
            | .read s n _ => simp [Live] at hl
        · exact absurd h1 hi0
      · -- the sender is still to send
        rcases hr s with ⟨-, h3⟩ | ⟨h1, -⟩ | h1
        · have e1 := congrArg List.length (hc s d)
          rw [segSent_of_comm h3] at e1
          have e2 := (Rem.le _ (hr d) s).2
          rw [← proj_match _ hG s d, hp s, proj1, if_pos rfl] at e2
          have e3 : (n.chan (s, d)).length < cap (s, d) := by
            simp only [List.cons_append, List.nil_append, List.length_append] at e1 e2
            omega
          rcases head_comm h3 with ⟨o, r, h4⟩ | ⟨r, h4, -⟩
          · exact canStep_obs (h4 ▸ live s)
          · have hl := live s
            rw [h4] at hl
            generalize hq : n.proc s = p at hl
            match p with
            | .send d' b' k =>
              simp only [Live, List.cons.injEq, Seg.act.injEq, Act.send.injEq, reduceCtorEq, false_and, exists_const, or_false] at hl
              obtain ⟨r', ⟨h5, h6⟩, -⟩ := hl
              subst h5
              exact ⟨s, _, .send hq e3⟩
            | .done _ => simp [Live] at hl
            | .fault _ => simp [Live] at hl
            | .recv s _ => simp [Live] at hl
            | .obs s _ => simp [Live] at hl
            | .poll srcs block _ => simp [Live] at hl
            | .read s n _ => simp [Live] at hl
        · exact absurd rfl h1
        · exact absurd h1 hs
    | .round part outs ins =>
      by_contra hno
      -- what those in the round look like
      have key : ∀ i, ¬ Rem i G (L i) → ∃ is av r s, L i = .xchg [] is av :: r ∧ segComm r = proj i G ∧ is s ≠ [] ∧
          (n.chan (s, i) ≠ [] → CanStep cap n) := by
        intro i hi
        rcases hr i with ⟨h1, os, is, av, h2, h3, h4⟩ | h1
        swap
        · exact absurd h1 hi
        rcases head_comm h4 with ⟨o, r, h5⟩ | ⟨r, h5, h6⟩
        · exact absurd (canStep_obs (h5 ▸ live i)) hno
        have hl := live i
        have ha := hav i
        rw [h4] at ha
        rw [h5] at hl
        generalize hq : n.proc i = p at hl
        match p with
        | .done _ => simp [Live] at hl
        | .fault _ => simp [Live] at hl
        | .obs s _ => simp [Live] at hl
        | .send d b k =>
          exfalso
          simp only [Live, List.cons.injEq, Seg.xchg.injEq, reduceCtorEq, false_and, exists_const, false_or] at hl
          obtain ⟨os', is', av', r', ⟨h7, -, -⟩, -⟩ := hl
          have e1 := congrArg List.length (hc i d)
          rw [segSent_of_comm h4, h7] at e1
          have e2 := (Rem.le _ (hr d) i).2
          rw [← proj_match _ hG i d, hp i, proj1, if_pos h1] at e2
          have e3 := (hg i d).2 h1
          simp only [segSent_cons, segSent_append, segSent_nil, Seg.sent, List.length_append, List.append_nil] at e1 e2
          simp only [bytesTo] at e3
          simp at e1
          exact hno ⟨i, _, .send hq (by omega)⟩
        | .recv s k =>
          simp only [Live, List.cons.injEq, Seg.xchg.injEq, reduceCtorEq, false_and, exists_const, false_or] at hl
          obtain ⟨is', av', r', ⟨⟨h7, h8, h9⟩, -⟩, h10⟩ := hl
          subst h7 h8 h9
          refine ⟨is, av, r, s, h5, h6, h10, fun hne => ?_⟩
          obtain ⟨c, cs, e3⟩ := List.exists_cons_of_ne_nil hne
          exact ⟨i, _, .recv hq e3⟩
        | .poll srcs block k =>
          simp only [Live, List.cons.injEq, Seg.xchg.injEq] at hl
          obtain ⟨os', is', av', r', ⟨⟨h7, h8, h9⟩, -⟩, h10, h11⟩ := hl
          subst h7 h8 h9
          by_cases hb : block = true
          · obtain ⟨h12, h13⟩ := h11 hb
            subst h12
            obtain ⟨s, ss, hs⟩ := List.exists_cons_of_ne_nil h13
            refine ⟨is, av, r, s, h5, h6, h10 s (by simp [hs]), fun hne => ?_⟩
            exact ⟨i, _, .poll (fun j => decide (j = s)) hq (by
              intro j hj
              have : j = s := by simpa using hj
              subst this
              exact ⟨by simp [hs], hne⟩) (fun _ => ⟨s, by simp⟩)⟩
          · exact absurd ⟨i, _, .poll (fun _ => false) hq (by intro j hj; cases hj) (fun h => absurd h hb)⟩ hno
        | .read s m k =>
          exfalso
          simp only [Live, List.cons.injEq, Seg.xchg.injEq] at hl
          obtain ⟨os', is', av', r', ⟨⟨h7, h8, h9⟩, -⟩, h10, h11⟩ := hl
          subst h7 h8 h9
          obtain ⟨c, cs, e3⟩ := List.exists_cons_of_ne_nil (ha s h10)
          exact hno ⟨i, _, .read (c := [c]) (rest := cs) hq (by simp) (by simpa using (show 1 ≤ m from h11)) e3⟩
      obtain ⟨is, av, r, s, h1, h2, h3, h4⟩ := key i0 hi0
      refine hno (h4 ?_)
      have e1 := congrArg List.length (hc s i0)
      have e2 : (segSent i0 (L s)).length ≤ (segSent i0 (proj (O := O) s G)).length := by
        by_cases hs : Rem s G (L s)
        · exact (Rem.le G hs i0).1
        · obtain ⟨is', av', r', s', h5, h6, -⟩ := key s hs
          rw [h5, segSent_cons, segSent_of_comm h6]
          simp [Seg.sent]
      rw [proj_match G hG' s i0] at e2
      rw [h1, segRcvd_cons, segRcvd_of_comm h2] at e1
      simp only [Seg.rcvd, List.length_append] at e1
      have := List.length_pos_iff.2 h3
      intro h
      rw [h] at e1
      simp at e1
      omega

/-- A network that keeps the invariant can take a step or has finished. -/
theorem Inv.progress {cap : ι × ι → Nat} {G : List (GSeg ι)} (hG : ∀ g ∈ G, GSeg.Ok cap g) {os : ι → List O} {n : PNet ι O α}
    {L : ι → List (Seg ι O)} (h : Inv Q G os n L) :
    CanStep cap n ∨ ((∀ i, (∃ a, n.Returned i a ∧ Q i a) ∧ n.seen i = os i) ∧ ∀ c, n.chan c = []) := by
  obtain ⟨L, h, live⟩ := h.live
  by_cases hs : CanStep cap n
  · exact .inl hs
  right
  have hcm := (progress_aux G hG live h.chan h.av h.rem).resolve_left hs
  have hnil : ∀ i, L i = [] := by
    intro i
    match hl : L i with
    | [] => rfl
    | .act (.obs o) :: l => exact absurd (canStep_obs (hl ▸ live i)) hs
    | .act (.send d b) :: l => have := hcm i; rw [hl] at this; cases this
    | .act (.recv d b) :: l => have := hcm i; rw [hl] at this; cases this
    | .xchg os is av :: l => have := hcm i; rw [hl] at this; cases this
  refine ⟨fun i => ⟨?_, ?_⟩, fun ⟨i, j⟩ => ?_⟩
  · have := live i
    rw [hnil i] at this
    generalize hp : n.proc i = p at this
    unfold Returned
    rw [hp]
    match p with
    | .done a => exact ⟨a, rfl, this.2⟩
    | .fault _ => simp [Live] at this
    | .send d b _ => simp [Live] at this
    | .recv s _ => simp [Live] at this
    | .obs s _ => simp [Live] at this
    | .poll srcs block _ => simp [Live] at this
    | .read s n _ => simp [Live] at this
  · have := h.seen i
    rw [hnil i] at this
    simpa using this
  · have := h.chan i j
    rw [hnil i, hnil j] at this
    simpa using this

theorem Inv.no_fault {Q : ι → α → Prop} {G : List (GSeg ι)} {os : ι → List O} {n : PNet ι O α}
    {L : ι → List (Seg ι O)} (h : Inv Q G os n L) (i : ι) : ¬ n.Faulted i := by
  rintro ⟨e, he⟩
  obtain ⟨L, h, live⟩ := h.live
  have := live i
  rw [he] at this
  exact this

/-- The invariant holds at the start. -/
theorem Inv.start {cap : ι × ι → Nat} {G : List (GSeg ι)} (hG : ∀ g ∈ G, GSeg.Ok cap g) {proc : ι → PProc ι O α}
    {L : ι → List (Seg ι O)} {Q : ι → α → Prop} (hd : ∀ i, PProc.Does (Q i) (proc i) (L i)) (hL : ∀ i, segComm (L i) = proj i G) :
    Inv Q G (fun i => segObs (L i)) (PNet.start proc) L where
  does := hd
  seen i := rfl
  chan i j := by
    rw [segSent_of_comm (hL i), segRcvd_of_comm (hL j), proj_match G hG i j]
    rfl
  rem i := Rem.start G (hL i)
  av i := by rw [hL i]; exact avOk_proj _ _ _

/-! ## Termination -/

/-- The programs a program may go on as. -/
inductive Next : PProc ι O α → PProc ι O α → Prop where
  | send {d b k} : Next k (.send d b k)
  | recv {s k} (b : Byte) : Next (k b) (.recv s k)
  | obs {o k} : Next k (.obs o k)
  | poll {srcs block k} (r : ι → Bool) : Next (k r) (.poll srcs block k)
  | read {s n k} (c : List Byte) : Next (k c) (.read s n k)

omit [DecidableEq ι] in
theorem next_wf : WellFounded (Next (ι := ι) (O := O) (α := α)) := by
  refine ⟨fun p => ?_⟩
  induction p with
  | done a => exact ⟨_, by intro q h; cases h⟩
  | fault e => exact ⟨_, by intro q h; cases h⟩
  | send d b k ih => exact ⟨_, by intro q h; cases h; exact ih⟩
  | recv s k ih => exact ⟨_, by intro q h; cases h; exact ih _⟩
  | obs o k ih => exact ⟨_, by intro q h; cases h; exact ih⟩
  | poll ss bl k ih => exact ⟨_, by intro q h; cases h; exact ih _⟩
  | read s n k ih => exact ⟨_, by intro q h; cases h; exact ih _⟩

theorem Step.next {cap : ι × ι → Nat} {i : ι} {n m : PNet ι O α} (h : Step cap i n m) :
    ∃ q, Next q (n.proc i) ∧ m.proc = Function.update n.proc i q := by
  cases h with
  | send h room => exact ⟨_, h ▸ .send, rfl⟩
  | recv h data => exact ⟨_, h ▸ .recv _, rfl⟩
  | obs h => exact ⟨_, h ▸ .obs, rfl⟩
  | poll r h _ _ => exact ⟨_, h ▸ .poll r, rfl⟩
  | read h _ _ _ => exact ⟨_, h ▸ .read _, rfl⟩

/-- No network of finitely many processes runs for ever. -/
theorem no_infinite_run {cap : ι × ι → Nat} (S : Finset ι) (f : Nat → PNet ι O α) (hS : ∀ i ∉ S, ∃ a, (f 0).Returned i a) :
    ¬ ∀ k, ∃ i, Step cap i (f k) (f (k + 1)) := by
  intro h
  have hfin : ∀ k, ∀ i ∉ S, ∃ a, (f k).proc i = .done a := by
    intro k
    induction k with
    | zero => exact hS
    | succ k ih =>
      intro i hi
      obtain ⟨j, hj⟩ := h k
      obtain ⟨q, h1, h2⟩ := hj.next
      have hij : i ≠ j := by
        rintro rfl
        obtain ⟨a, ha⟩ := ih i hi
        rw [ha] at h1
        cases h1
      rw [h2, Function.update_of_ne hij]
      exact ih i hi
  have hwf : WellFounded (Relation.CutExpand (Next (ι := ι) (O := O) (α := α))) := next_wf.cutExpand
  have hdec : ∀ k, Relation.CutExpand Next (S.val.map (f (k + 1)).proc) (S.val.map (f k).proc) := by
    intro k
    obtain ⟨j, hj⟩ := h k
    obtain ⟨q, h1, h2⟩ := hj.next
    have hjS : j ∈ S := by
      by_contra hn
      obtain ⟨a, ha⟩ := hfin k j hn
      rw [ha] at h1
      cases h1
    refine ⟨{q}, (f k).proc j, by simpa using h1, ?_⟩
    rw [h2]
    obtain ⟨T, hT⟩ := Multiset.exists_cons_of_mem (show j ∈ S.val from hjS)
    have hjT : j ∉ T := by
      have := S.nodup
      rw [hT, Multiset.nodup_cons] at this
      exact this.1
    rw [hT, Multiset.map_cons, Multiset.map_cons, Function.update_self]
    have : Multiset.map (Function.update (f k).proc j q) T = Multiset.map (f k).proc T :=
      Multiset.map_congr rfl (fun x hx => Function.update_of_ne (by rintro rfl; exact hjT hx) _ _)
    rw [this, ← Multiset.singleton_add, ← Multiset.singleton_add, add_comm, ← add_assoc, add_assoc, add_assoc]
    congr 1
    exact add_comm _ _
  exact (wellFounded_iff_isEmpty_descending_chain.1 hwf).elim ⟨fun k => S.val.map (f k).proc, hdec⟩

/-- A network of programs that follow a global order: nothing goes wrong and it never
gets stuck. -/
theorem script_net {cap : ι × ι → Nat} {G : List (GSeg ι)} (hG : ∀ g ∈ G, GSeg.Ok cap g) {proc : ι → PProc ι O α}
    {L : ι → List (Seg ι O)} {Q : ι → α → Prop} (hd : ∀ i, PProc.Does (Q i) (proc i) (L i)) (hL : ∀ i, segComm (L i) = proj i G)
    {n : PNet ι O α} (hr : Reach cap (PNet.start proc) n) :
    (∀ i, ¬ n.Faulted i) ∧ (∀ i, n.seen i <+: segObs (L i)) ∧
    (CanStep cap n ∨ ((∀ i, (∃ a, n.Returned i a ∧ Q i a) ∧ n.seen i = segObs (L i)) ∧ ∀ c, n.chan c = [])) := by
  obtain ⟨L', h⟩ := (Inv.start hG hd hL).reach hr
  exact ⟨h.no_fault, fun i => ⟨_, h.seen i⟩, h.progress hG⟩

theorem Does_done {Q : α → Prop} {a : α} {L : List (Seg ι O)} (h : PProc.Does Q (.done a) L) : Q a ∧ segObs L = [] := by
  generalize hp : (PProc.done a : PProc ι O α) = p at h
  induction h with
  | done h => cases hp; exact ⟨h, rfl⟩
  | xend hi h ih =>
    obtain ⟨h1, h2⟩ := ih hp
    exact ⟨h1, by simp [h2, Seg.obsv]⟩
  | _ => cases hp

/-- Whatever the capacities of the connections: nothing goes wrong, and a process that
has returned has the right result and has made the right calls. -/
theorem script_safe {cap cap' : ι × ι → Nat} {G : List (GSeg ι)} (hG : ∀ g ∈ G, GSeg.Ok cap' g) {proc : ι → PProc ι O α}
    {L : ι → List (Seg ι O)} {Q : ι → α → Prop} (hd : ∀ i, PProc.Does (Q i) (proc i) (L i)) (hL : ∀ i, segComm (L i) = proj i G)
    {n : PNet ι O α} (hr : Reach cap (PNet.start proc) n) :
    (∀ i, ¬ n.Faulted i) ∧ (∀ i, n.seen i <+: segObs (L i)) ∧
    ∀ i a, n.Returned i a → Q i a ∧ n.seen i = segObs (L i) := by
  obtain ⟨L', h⟩ := (Inv.start hG hd hL).reach hr
  refine ⟨h.no_fault, fun i => ⟨_, h.seen i⟩, fun i a hi => ?_⟩
  have hi : n.proc i = .done a := hi
  have hd := h.does i
  rw [hi] at hd
  obtain ⟨h1, h2⟩ := Does_done hd
  have := h.seen i
  rw [h2, List.append_nil] at this
  exact ⟨h1, this⟩

/-- Such a network has a complete run. -/
theorem script_complete {cap : ι × ι → Nat} {G : List (GSeg ι)} (hG : ∀ g ∈ G, GSeg.Ok cap g) {proc : ι → PProc ι O α}
    {L : ι → List (Seg ι O)} {Q : ι → α → Prop} (hd : ∀ i, PProc.Does (Q i) (proc i) (L i)) (hL : ∀ i, segComm (L i) = proj i G)
    (S : Finset ι) (hS : ∀ i ∉ S, ∃ a, proc i = .done a) :
    ∃ n, Reach cap (PNet.start proc) n ∧ ¬ CanStep cap n := by
  by_contra hno
  push Not at hno
  have step : ∀ n : {n // Reach cap (PNet.start proc) n}, ∃ m : {n // Reach cap (PNet.start proc) n}, ∃ i, Step cap i n.1 m.1 := by
    rintro ⟨n, hn⟩
    obtain ⟨i, m, h⟩ := hno n hn
    exact ⟨⟨m, hn.step h⟩, i, h⟩
  choose g hg using step
  let f : Nat → {n // Reach cap (PNet.start proc) n} := fun k => Nat.rec ⟨_, .refl⟩ (fun _ n => g n) k
  exact no_infinite_run (cap := cap) S (fun k => (f k).1) hS (fun k => hg (f k))

end PNet

end DPPIR
