import Verif.Model.Process
import Verif.Proofs.Base
import Mathlib.Data.List.Perm.Basic
import Mathlib.Tactic.Cases

/-!
# General facts about processes and networks
-/

namespace DPPIR

namespace Proc
variable {ι O α β γ : Type}

@[simp] theorem bind_def (p : Proc ι O α) (f : α → Proc ι O β) : p >>= f = p.bind f := rfl
@[simp] theorem pure_def (a : α) : (pure a : Proc ι O α) = done a := rfl
@[simp] theorem done_bind (a : α) (f : α → Proc ι O β) : (done a).bind f = f a := rfl
@[simp] theorem fault_bind (e : Fault) (f : α → Proc ι O β) : (fault e : Proc ι O α).bind f = fault e := rfl
@[simp] theorem obs_bind (o : O) (k : Proc ι O α) (f : α → Proc ι O β) :
    (obs o k).bind f = obs o (k.bind f) := rfl

theorem bind_assoc (p : Proc ι O α) (f : α → Proc ι O β) (g : β → Proc ι O γ) :
    (p.bind f).bind g = p.bind (fun a => (f a).bind g) := by
  induction p with
  | done a => rfl
  | fault e => rfl
  | send d b k ih => simp [bind, ih]
  | recv s k ih => simp [bind, ih]
  | obs o k ih => simp [bind, ih]

/-- One action of a process, with the byte transferred. -/
inductive Act (ι O : Type) where
  | send (dst : ι) (b : Byte)
  | recv (src : ι) (b : Byte)
  | obs (o : O)

/-- `p` performs exactly these actions and returns `a`, if the bytes it reads are the
given ones. -/
inductive Runs : Proc ι O α → List (Act ι O) → α → Prop
  | done (a : α) : Runs (done a) [] a
  | send {d : ι} {b : Byte} {k as a} : Runs k as a → Runs (send d b k) (.send d b :: as) a
  | recv {s : ι} {k : Byte → Proc ι O α} {b : Byte} {as a} : Runs (k b) as a → Runs (recv s k) (.recv s b :: as) a
  | obs {o : O} {k as a} : Runs k as a → Runs (obs o k) (.obs o :: as) a

theorem Runs.bind {p : Proc ι O α} {f : α → Proc ι O β} {as bs a b} (h : Runs p as a) (h' : Runs (f a) bs b) :
    Runs (p.bind f) (as ++ bs) b := by
  induction h with
  | done a => exact h'
  | send _ ih => exact .send (ih h')
  | recv _ ih => exact .recv (ih h')
  | obs _ ih => exact .obs (ih h')

theorem Runs.bind' {p : Proc ι O α} {f : α → Proc ι O β} {as bs cs a b} (h : Runs p as a) (h' : Runs (f a) bs b)
    (hc : cs = as ++ bs) : Runs (p.bind f) cs b := hc ▸ h.bind h'

theorem Runs.lift {x : Res α} {a : α} (h : x = .ok a) : Runs (lift x : Proc ι O α) [] a := by
  subst h; exact .done a

theorem Runs.observe (o : O) : Runs (observe o : Proc ι O Unit) [.obs o] () := .obs (.done ())

theorem Runs.sendBytes (d : ι) (l : List Byte) :
    Runs (sendBytes d l : Proc ι O Unit) (l.map (Act.send d)) () := by
  induction l with
  | nil => exact .done ()
  | cons b l ih => exact .send ih

theorem Runs.recvBytesFrom (s : ι) (l got : List Byte) :
    Runs (recvBytesFrom s l.length got : Proc ι O (List Byte)) (l.map (Act.recv s)) (got ++ l) := by
  induction l generalizing got with
  | nil =>
    rw [List.append_nil]
    exact Runs.done got
  | cons b l ih =>
    refine .recv ?_
    have := ih (got ++ [b])
    simpa using this

theorem Runs.recvBytes (s : ι) (l : List Byte) {n : Nat} (h : l.length = n) :
    Runs (recvBytes s n : Proc ι O (List Byte)) (l.map (Act.recv s)) l := by
  subst h
  have := Runs.recvBytesFrom (O := O) s l []
  rw [List.nil_append] at this
  exact this

/-- Loops: an invariant on the state, with the actions of each iteration. -/
theorem Runs.loop {σ : Type} (f : Nat → σ → Proc ι O σ) (acts : Nat → List (Act ι O)) (st : Nat → σ) (n i : Nat)
    (h : ∀ j, i ≤ j → j < i + n → Runs (f j (st j)) (acts j) (st (j + 1))) :
    Runs (Proc.loop n i f (st i)) ((List.range' i n).flatMap acts) (st (i + n)) := by
  induction n generalizing i with
  | zero => exact .done _
  | succ n ih =>
    rw [List.range'_succ, List.flatMap_cons]
    refine (h i (Nat.le_refl _) (by omega)).bind ?_
    have := ih (i + 1) (fun j h1 h2 => h j (by omega) (by omega))
    rwa [show i + (n + 1) = i + 1 + n by omega]

theorem Runs.each {σ γ : Type} (f : γ → σ → Proc ι O σ) (acts : γ → List (Act ι O)) (l : List γ) (s : σ)
    (h : ∀ c ∈ l, Runs (f c s) (acts c) s) : Runs (Proc.each f l s) (l.flatMap acts) s := by
  induction l with
  | nil => exact .done _
  | cons c l ih =>
    rw [List.flatMap_cons]
    exact (h c (by simp)).bind (ih (fun c' h' => h c' (by simp [h'])))

/-- Loops with an existential invariant. -/
theorem Runs.loop_inv {σ : Type} (Inv : Nat → σ → Prop) (f : Nat → σ → Proc ι O σ) (acts : Nat → List (Act ι O))
    (n i : Nat) (s : σ) (h0 : Inv i s)
    (h : ∀ j s, i ≤ j → j < i + n → Inv j s → ∃ s', Runs (f j s) (acts j) s' ∧ Inv (j + 1) s') :
    ∃ s', Runs (Proc.loop n i f s) ((List.range' i n).flatMap acts) s' ∧ Inv (i + n) s' := by
  induction n generalizing i s with
  | zero => exact ⟨s, .done _, h0⟩
  | succ n ih =>
    rw [List.range'_succ, List.flatMap_cons]
    obtain ⟨s1, r1, i1⟩ := h i s (Nat.le_refl _) (by omega) h0
    obtain ⟨s2, r2, i2⟩ := ih (i + 1) s1 i1 (fun j s h1 h2 => h j s (by omega) (by omega))
    exact ⟨s2, r1.bind r2, by rwa [show i + (n + 1) = i + 1 + n by omega]⟩

/-- The communications among the actions. -/
def Act.isComm : Act ι O → Bool
  | .obs _ => false
  | _ => true

/-- The observable calls among the actions. -/
def obsOf (as : List (Act ι O)) : List O := as.filterMap (fun | .obs o => some o | _ => none)

/-- The bytes sent to `d` among the actions. -/
def sentTo [DecidableEq ι] (d : ι) (as : List (Act ι O)) : List Byte :=
  as.filterMap (fun | .send d' b => if d' = d then some b else none | _ => none)

/-- The bytes received from `s` among the actions. -/
def rcvdFrom [DecidableEq ι] (s : ι) (as : List (Act ι O)) : List Byte :=
  as.filterMap (fun | .recv s' b => if s' = s then some b else none | _ => none)

/-- Removing the observable calls. -/
def comm (as : List (Act ι O)) : List (Act ι O) := as.filter Act.isComm

@[simp] theorem comm_append (as bs : List (Act ι O)) : comm (as ++ bs) = comm as ++ comm bs := List.filter_append ..
@[simp] theorem comm_nil : comm ([] : List (Act ι O)) = [] := rfl
@[simp] theorem comm_obs (o : O) (as : List (Act ι O)) : comm (.obs o :: as) = comm as := rfl
@[simp] theorem comm_send (d : ι) (b : Byte) (as : List (Act ι O)) : comm (.send d b :: as) = .send d b :: comm as := rfl
@[simp] theorem comm_recv (d : ι) (b : Byte) (as : List (Act ι O)) : comm (.recv d b :: as) = .recv d b :: comm as := rfl
@[simp] theorem comm_map_send (d : ι) (l : List Byte) :
    comm (l.map (Act.send d) : List (Act ι O)) = l.map (Act.send d) := by
  induction l with
  | nil => rfl
  | cons b l ih => simp [ih]
@[simp] theorem comm_map_recv (d : ι) (l : List Byte) :
    comm (l.map (Act.recv d) : List (Act ι O)) = l.map (Act.recv d) := by
  induction l with
  | nil => rfl
  | cons b l ih => simp [ih]
theorem comm_flatMap {κ : Type} (l : List κ) (f : κ → List (Act ι O)) :
    comm (l.flatMap f) = l.flatMap (fun x => comm (f x)) := by
  induction l with
  | nil => rfl
  | cons b l ih => simp [ih]

@[simp] theorem obsOf_append (as bs : List (Act ι O)) : obsOf (as ++ bs) = obsOf as ++ obsOf bs :=
  List.filterMap_append ..
@[simp] theorem obsOf_nil : obsOf ([] : List (Act ι O)) = [] := rfl
@[simp] theorem obsOf_obs (o : O) (as : List (Act ι O)) : obsOf (.obs o :: as) = o :: obsOf as := rfl
@[simp] theorem obsOf_send (d : ι) (b : Byte) (as : List (Act ι O)) : obsOf (.send d b :: as) = obsOf as := rfl
@[simp] theorem obsOf_recv (d : ι) (b : Byte) (as : List (Act ι O)) : obsOf (.recv d b :: as) = obsOf as := rfl
@[simp] theorem obsOf_map_send (d : ι) (l : List Byte) : obsOf (l.map (Act.send d) : List (Act ι O)) = [] := by
  induction l with
  | nil => rfl
  | cons b l ih => simp [ih]
@[simp] theorem obsOf_map_recv (d : ι) (l : List Byte) : obsOf (l.map (Act.recv d) : List (Act ι O)) = [] := by
  induction l with
  | nil => rfl
  | cons b l ih => simp [ih]
theorem obsOf_flatMap {κ : Type} (l : List κ) (f : κ → List (Act ι O)) :
    obsOf (l.flatMap f) = l.flatMap (fun x => obsOf (f x)) := by
  induction l with
  | nil => rfl
  | cons b l ih => simp [ih]

section
variable [DecidableEq ι]
@[simp] theorem sentTo_append (d : ι) (as bs : List (Act ι O)) : sentTo d (as ++ bs) = sentTo d as ++ sentTo d bs :=
  List.filterMap_append ..
@[simp] theorem rcvdFrom_append (d : ι) (as bs : List (Act ι O)) :
    rcvdFrom d (as ++ bs) = rcvdFrom d as ++ rcvdFrom d bs := List.filterMap_append ..
@[simp] theorem sentTo_nil (d : ι) : sentTo d ([] : List (Act ι O)) = [] := rfl
@[simp] theorem rcvdFrom_nil (d : ι) : rcvdFrom d ([] : List (Act ι O)) = [] := rfl
theorem sentTo_send (d d' : ι) (b : Byte) (as : List (Act ι O)) :
    sentTo d (.send d' b :: as) = if d' = d then b :: sentTo d as else sentTo d as := by
  by_cases h : d' = d <;> simp [sentTo, h]
@[simp] theorem sentTo_recv (d d' : ι) (b : Byte) (as : List (Act ι O)) :
    sentTo d (.recv d' b :: as) = sentTo d as := rfl
@[simp] theorem sentTo_obs (d : ι) (o : O) (as : List (Act ι O)) : sentTo d (.obs o :: as) = sentTo d as := rfl
theorem rcvdFrom_recv (d d' : ι) (b : Byte) (as : List (Act ι O)) :
    rcvdFrom d (.recv d' b :: as) = if d' = d then b :: rcvdFrom d as else rcvdFrom d as := by
  by_cases h : d' = d <;> simp [rcvdFrom, h]
@[simp] theorem rcvdFrom_send (d d' : ι) (b : Byte) (as : List (Act ι O)) :
    rcvdFrom d (.send d' b :: as) = rcvdFrom d as := rfl
@[simp] theorem rcvdFrom_obs (d : ι) (o : O) (as : List (Act ι O)) : rcvdFrom d (.obs o :: as) = rcvdFrom d as := rfl
theorem sentTo_comm (d : ι) (as : List (Act ι O)) : sentTo d (comm as) = sentTo d as := by
  induction as with
  | nil => rfl
  | cons a as ih => cases a <;> simp [sentTo_send, ih]
theorem rcvdFrom_comm (d : ι) (as : List (Act ι O)) : rcvdFrom d (comm as) = rcvdFrom d as := by
  induction as with
  | nil => rfl
  | cons a as ih => cases a <;> simp [rcvdFrom_recv, ih]
end

end Proc

namespace Net
open Proc
variable {ι O : Type} [DecidableEq ι]

/-- Steps of different processes commute. -/
theorem diamond {cap : ι × ι → Nat} {i j : ι} (hij : i ≠ j) {n a b : Net ι O}
    (ha : n.step cap i = some a) (hb : n.step cap j = some b) :
    ∃ c, a.step cap j = some c ∧ b.step cap i = some c := by
  unfold step at ha hb
  cases hpi : n.proc i with
  | done _ => simp [hpi] at ha
  | fault _ => simp [hpi] at ha
  | send d x k =>
    rw [hpi] at ha
    simp only at ha
    split at ha
    case isFalse => cases ha
    case isTrue hcap =>
    cases ha
    cases hpj : n.proc j with
    | done _ => simp [hpj] at hb
    | fault _ => simp [hpj] at hb
    | send d' x' k' =>
      rw [hpj] at hb
      simp only at hb
      split at hb
      case isFalse => cases hb
      case isTrue hcap' =>
      cases hb
      have hne : ((j, d') : ι × ι) ≠ (i, d) := fun h => hij (congrArg Prod.fst h).symm
      unfold step
      simp only [Function.update_of_ne hij.symm, Function.update_of_ne hij, hpi, hpj,
        Function.update_of_ne hne, Function.update_of_ne hne.symm, if_pos hcap, if_pos hcap']
      exact ⟨_, rfl, by rw [Function.update_comm hij, Function.update_comm hne.symm]⟩
    | recv s k' =>
      rw [hpj] at hb
      simp only at hb
      split at hb
      case h_1 => cases hb
      case h_2 y rest hq =>
      cases hb
      unfold step
      simp only [Function.update_of_ne hij.symm, Function.update_of_ne hij, hpi, hpj]
      by_cases he : ((i, d) : ι × ι) = (s, j)
      · rw [he] at hcap ⊢
        simp only [Function.update_self, hq, List.cons_append]
        rw [hq] at hcap
        have : rest.length < cap (s, j) := by simp at hcap; omega
        rw [if_pos this]
        refine ⟨_, rfl, ?_⟩
        simp only [Function.update_idem, Function.update_comm hij]
      · rw [Function.update_of_ne (Ne.symm he), hq, Function.update_of_ne he, if_pos hcap]
        exact ⟨_, rfl, by rw [Function.update_comm hij, Function.update_comm he]⟩
    | obs o k' =>
      rw [hpj] at hb
      cases hb
      unfold step
      simp only [Function.update_of_ne hij.symm, Function.update_of_ne hij, hpi, hpj, if_pos hcap]
      exact ⟨_, rfl, by rw [Function.update_comm hij]⟩
  | recv s k =>
    rw [hpi] at ha
    simp only at ha
    split at ha
    case h_1 => cases ha
    case h_2 y rest hq =>
    cases ha
    cases hpj : n.proc j with
    | done _ => simp [hpj] at hb
    | fault _ => simp [hpj] at hb
    | send d x k' =>
      rw [hpj] at hb
      simp only at hb
      split at hb
      case isFalse => cases hb
      case isTrue hcap =>
      cases hb
      unfold step
      simp only [Function.update_of_ne hij.symm, Function.update_of_ne hij, hpi, hpj]
      by_cases he : ((j, d) : ι × ι) = (s, i)
      · rw [he] at hcap ⊢
        simp only [Function.update_self, hq, List.cons_append]
        rw [hq] at hcap
        have : rest.length < cap (s, i) := by simp at hcap; omega
        rw [if_pos this]
        refine ⟨_, rfl, ?_⟩
        simp only [Function.update_idem, Function.update_comm hij]
      · rw [Function.update_of_ne (Ne.symm he), hq, Function.update_of_ne he, if_pos hcap]
        exact ⟨_, rfl, by simp only [Function.update_comm hij, Function.update_comm he]⟩
    | recv s' k' =>
      rw [hpj] at hb
      simp only at hb
      split at hb
      case h_1 => cases hb
      case h_2 y' rest' hq' =>
      cases hb
      have hne : ((s', j) : ι × ι) ≠ (s, i) := fun h => hij (congrArg Prod.snd h).symm
      unfold step
      simp only [Function.update_of_ne hij.symm, Function.update_of_ne hij, hpi, hpj,
        Function.update_of_ne hne, Function.update_of_ne hne.symm, hq, hq']
      exact ⟨_, rfl, by rw [Function.update_comm hij, Function.update_comm hne]⟩
    | obs o k' =>
      rw [hpj] at hb
      cases hb
      unfold step
      simp only [Function.update_of_ne hij.symm, Function.update_of_ne hij, hpi, hpj, hq]
      exact ⟨_, rfl, by rw [Function.update_comm hij]⟩
  | obs o k =>
    rw [hpi] at ha
    cases ha
    cases hpj : n.proc j with
    | done _ => simp [hpj] at hb
    | fault _ => simp [hpj] at hb
    | send d x k' =>
      rw [hpj] at hb
      simp only at hb
      split at hb
      case isFalse => cases hb
      case isTrue hcap =>
      cases hb
      unfold step
      simp only [Function.update_of_ne hij.symm, Function.update_of_ne hij, hpi, hpj, if_pos hcap]
      exact ⟨_, rfl, by rw [Function.update_comm hij]⟩
    | recv s' k' =>
      rw [hpj] at hb
      simp only at hb
      split at hb
      case h_1 => cases hb
      case h_2 y' rest' hq' =>
      cases hb
      unfold step
      simp only [Function.update_of_ne hij.symm, Function.update_of_ne hij, hpi, hpj, hq']
      exact ⟨_, rfl, by rw [Function.update_comm hij]⟩
    | obs o' k' =>
      rw [hpj] at hb
      cases hb
      unfold step
      simp only [Function.update_of_ne hij.symm, Function.update_of_ne hij, hpi, hpj]
      exact ⟨_, rfl, by rw [Function.update_comm hij, Function.update_comm hij]⟩

/-- A step taken early does not change where a complete run ends. -/
theorem run_erase {cap : ι × ι → Nat} (s : List ι) (n t m : Net ι O) (hs : n.run cap s = some t)
    (ht : ∀ i, t.step cap i = none) (i : ι) (hi : n.step cap i = some m) :
    i ∈ s ∧ m.run cap (s.erase i) = some t := by
  induction s generalizing n m with
  | nil =>
    simp only [run] at hs
    cases hs
    rw [ht i] at hi
    cases hi
  | cons j s ih =>
    simp only [run, Option.bind_eq_some_iff] at hs
    obtain ⟨a, h1, h2⟩ := hs
    by_cases hij : j = i
    · subst hij
      rw [h1] at hi
      cases hi
      simpa using h2
    · obtain ⟨c, c1, c2⟩ := diamond (Ne.symm hij) hi h1
      obtain ⟨h3, h4⟩ := ih a c h2 c2
      refine ⟨by simp [h3], ?_⟩
      rw [List.erase_cons_tail (by simpa using hij)]
      simp only [run, c1, Option.bind_some]
      exact h4

/-- If some run ends in a state where nobody can move, every run is a part of a run
that ends there, with the same number of steps of each process. -/
theorem run_confluent {cap : ι × ι → Nat} (s s' : List ι) (n t c : Net ι O) (hs : n.run cap s = some t)
    (ht : ∀ i, t.step cap i = none) (hc : n.run cap s' = some c) :
    ∃ s'', c.run cap s'' = some t ∧ (s' ++ s'').Perm s := by
  induction s' generalizing n s with
  | nil =>
    simp only [run] at hc
    cases hc
    exact ⟨s, hs, by simp⟩
  | cons i s' ih =>
    simp only [run, Option.bind_eq_some_iff] at hc
    obtain ⟨m, h1, h2⟩ := hc
    obtain ⟨h3, h4⟩ := run_erase s n t m hs ht i h1
    obtain ⟨s'', h5, h6⟩ := ih (s.erase i) m h4 h2
    exact ⟨s'', h5, (h6.cons i).trans (List.perm_cons_erase h3).symm⟩

theorem run_append {cap : ι × ι → Nat} (s s' : List ι) (n : Net ι O) :
    n.run cap (s ++ s') = (n.run cap s).bind (run cap s') := by
  induction s generalizing n with
  | nil => rfl
  | cons i s ih =>
    simp only [List.cons_append, run]
    cases n.step cap i with
    | none => rfl
    | some m => simpa using ih m

theorem step_fault {cap : ι × ι → Nat} {n m : Net ι O} {i j : ι} {e : Fault} (h : n.proc i = .fault e)
    (hs : n.step cap j = some m) : m.proc i = .fault e := by
  have hij : i ≠ j := by
    rintro rfl
    simp [step, h] at hs
  unfold step at hs
  split at hs
  · cases hs
  · cases hs
  · split at hs
    · cases hs; simpa [Function.update_of_ne hij] using h
    · cases hs
  · split at hs
    · cases hs
    · cases hs; simpa [Function.update_of_ne hij] using h
  · cases hs; simpa [Function.update_of_ne hij] using h

theorem run_fault {cap : ι × ι → Nat} (s : List ι) {n m : Net ι O} {i : ι} {e : Fault} (h : n.proc i = .fault e)
    (hs : n.run cap s = some m) : m.proc i = .fault e := by
  induction s generalizing n with
  | nil => simp only [run] at hs; cases hs; exact h
  | cons j s ih =>
    simp only [run, Option.bind_eq_some_iff] at hs
    obtain ⟨a, h1, h2⟩ := hs
    exact ih (step_fault h h1) h2

/-- What one good run says about all runs. -/
theorem all_runs {cap : ι × ι → Nat} {s : List ι} {n t : Net ι O} (hs : n.run cap s = some t)
    (ht : ∀ i, t.Finished i) {s' : List ι} {c : Net ι O} (hc : n.run cap s' = some c) :
    s'.length ≤ s.length ∧ (∀ i, ¬ c.Faulted i) ∧ (c.CanStep cap ∨ c = t) ∧
      ∃ s'', c.run cap s'' = some t := by
  have hno : ∀ i, t.step cap i = none := by
    intro i
    have := ht i
    unfold Finished at this
    simp [step, this]
  obtain ⟨s'', h1, h2⟩ := run_confluent s s' n t c hs hno hc
  refine ⟨by have := h2.length_eq; simp at this; omega, ?_, ?_, s'', h1⟩
  · rintro i ⟨e, he⟩
    have h3 := run_fault s'' he h1
    have h4 := ht i
    unfold Finished at h4
    rw [h3] at h4
    cases h4
  · cases s'' with
    | nil => simp only [run] at h1; cases h1; exact .inr rfl
    | cons i s'' =>
      simp only [run, Option.bind_eq_some_iff] at h1
      obtain ⟨a, h3, -⟩ := h1
      exact .inl ⟨i, by rw [h3]; rfl⟩

/-! ## A global order of communications -/

/-- What process `i` does in a global sequence of communications. -/
def proj (i : ι) (G : List (ι × ι × Byte)) : List (Act ι O) :=
  G.flatMap (fun g => (if g.1 = i then [Act.send g.2.1 g.2.2] else []) ++
    (if g.2.1 = i then [Act.recv g.1 g.2.2] else []))

/-- A process can make its pending calls. -/
theorem flush_obs {cap : ι × ι → Nat} (n : Net ι O) (i : ι) (as : List (Act ι O)) (h : Runs (n.proc i) as ()) :
    ∃ s p os bs, n.run cap s = some { n with
        proc := Function.update n.proc i p
        seen := Function.update n.seen i (n.seen i ++ os) } ∧
      Runs p bs () ∧ obsOf as = os ++ obsOf bs ∧ comm bs = comm as ∧ comm bs = bs.take 1 ++ comm (bs.drop 1) := by
  induction as generalizing n with
  | nil => exact ⟨[], n.proc i, [], [], by simp [run], h, rfl, rfl, rfl⟩
  | cons a as ih =>
    cases a with
    | send d b => exact ⟨[], n.proc i, [], _, by simp [run], h, rfl, rfl, rfl⟩
    | recv d b => exact ⟨[], n.proc i, [], _, by simp [run], h, rfl, rfl, rfl⟩
    | obs o =>
      generalize hp : n.proc i = p0 at h
      cases h with
      | obs h' =>
        rename_i k
        obtain ⟨s, p, os, bs, h1, h2, h3, h4, h5⟩ := ih { n with
          proc := Function.update n.proc i k
          seen := Function.update n.seen i (n.seen i ++ [o]) } (by simpa using h')
        refine ⟨i :: s, p, o :: os, bs, ?_, h2, by simp [h3], by simpa using h4, h5⟩
        simp only [run, step, hp, Option.bind_some]
        rw [h1]
        simp

/-- Programs whose communications follow one global order, with room for one byte in
every queue used, run to completion. -/
theorem script_run {cap : ι × ι → Nat} (L : List ι) (G : List (ι × ι × Byte))
    (hG : ∀ g ∈ G, g.1 ≠ g.2.1 ∧ 0 < cap (g.1, g.2.1)) (n : Net ι O) (hchan : ∀ c, n.chan c = [])
    (as : ι → List (Act ι O)) (hL : ∀ i, i ∉ L → as i = [])
    (hr : ∀ i, Runs (n.proc i) (as i) ()) (hp : ∀ i, comm (as i) = proj i G) :
    ∃ s t, n.run cap s = some t ∧ (∀ i, t.Finished i) ∧ (∀ c, t.chan c = []) ∧
      ∀ i, t.seen i = n.seen i ++ obsOf (as i) := by
  induction G generalizing n as with
  | nil =>
    -- only calls are left
    suffices H : ∀ (M : List ι) (n : Net ι O) (as : ι → List (Act ι O)), (∀ c, n.chan c = []) →
        (∀ i, i ∉ M → as i = []) → (∀ i, Runs (n.proc i) (as i) ()) → (∀ i, comm (as i) = []) →
        ∃ s t, n.run cap s = some t ∧ (∀ i, t.Finished i) ∧ (∀ c, t.chan c = []) ∧
          ∀ i, t.seen i = n.seen i ++ obsOf (as i) from H L n as hchan hL hr hp
    intro M
    induction M with
    | nil =>
      intro n as hc hM hr hp
      refine ⟨[], n, rfl, ?_, hc, by intro i; simp [hM i]⟩
      intro i
      have := hr i
      rw [hM i (by simp)] at this
      generalize hq : n.proc i = q at this
      cases this
      exact hq
    | cons i M ih =>
      intro n as hc hM hr hp
      obtain ⟨s, p, os, bs, h1, h2, h3, h4, h5⟩ := flush_obs (cap := cap) n i (as i) (hr i)
      have hbs : bs = [] := by
        rw [hp i] at h4
        rw [h4] at h5
        cases bs with
        | nil => rfl
        | cons b bs => simp at h5
      subst hbs
      obtain ⟨s', t, h6, h7, h8, h9⟩ := ih { n with
        proc := Function.update n.proc i p
        seen := Function.update n.seen i (n.seen i ++ os) } (Function.update as i []) hc (by
          intro j hj
          by_cases hji : j = i
          · subst hji; simp
          · rw [Function.update_of_ne hji]; exact hM j (by simp [hji, hj])) (by
          intro j
          by_cases hji : j = i
          · subst hji; simpa using h2
          · simp only [Function.update_of_ne hji]; exact hr j) (by
          intro j
          by_cases hji : j = i
          · subst hji; simp
          · simp only [Function.update_of_ne hji]; exact hp j)
      refine ⟨s ++ s', t, by rw [run_append, h1]; exact h6, h7, h8, ?_⟩
      intro j
      rw [h9 j]
      by_cases hji : j = i
      · subst hji
        simp [h3]
      · simp [Function.update_of_ne hji]
  | cons g G ih =>
    obtain ⟨src, dst, b⟩ := g
    obtain ⟨hne, hcap⟩ := hG (src, dst, b) (by simp)
    simp only at hne hcap
    -- the sender
    obtain ⟨s1, p1, os1, bs1, r1, u1, o1, c1, d1⟩ := flush_obs (cap := cap) n src (as src) (hr src)
    have hs : comm bs1 = .send dst b :: proj src G := by
      rw [c1, hp src]
      simp [proj, Ne.symm hne]
    obtain ⟨bs1', hb1⟩ : ∃ bs1', bs1 = .send dst b :: bs1' := by
      cases bs1 with
      | nil => rw [hs] at d1; simp at d1
      | cons x bs1' =>
        rw [hs] at d1
        simp only [List.take_succ_cons, List.take_zero, List.cons_append, List.cons.injEq] at d1
        exact ⟨bs1', by rw [d1.1]⟩
    subst hb1
    cases u1 with
    | send u1' =>
    rename_i k1
    -- the receiver
    let n1 : Net ι O := { n with proc := Function.update n.proc src k1
                                 chan := Function.update n.chan (src, dst) [b]
                                 seen := Function.update n.seen src (n.seen src ++ os1) }
    have hstep1 : ({ n with
        proc := Function.update n.proc src (.send dst b k1)
        seen := Function.update n.seen src (n.seen src ++ os1) } : Net ι O).step cap src = some n1 := by
      simp only [step, Function.update_self, hchan, List.length_nil, hcap, if_true, List.nil_append]
      simp [n1]
    have hrd : Runs (n1.proc dst) (as dst) () := by
      simp only [n1, Function.update_of_ne (Ne.symm hne)]
      exact hr dst
    obtain ⟨s2, p2, os2, bs2, r2, u2, o2, c2, d2⟩ := flush_obs (cap := cap) n1 dst (as dst) hrd
    have hs2 : comm bs2 = .recv src b :: proj dst G := by
      rw [c2, hp dst]
      simp [proj, hne]
    obtain ⟨bs2', hb2⟩ : ∃ bs2', bs2 = .recv src b :: bs2' := by
      cases bs2 with
      | nil => rw [hs2] at d2; simp at d2
      | cons x bs2' =>
        rw [hs2] at d2
        simp only [List.take_succ_cons, List.take_zero, List.cons_append, List.cons.injEq] at d2
        exact ⟨bs2', by rw [d2.1]⟩
    subst hb2
    cases u2 with
    | recv u2' =>
    rename_i k2
    let n2 : Net ι O := { n with proc := Function.update (Function.update n.proc src k1) dst (k2 b)
                                 seen := Function.update (Function.update n.seen src (n.seen src ++ os1)) dst
                                   (n.seen dst ++ os2) }
    have hstep2 : ({ n1 with
        proc := Function.update n1.proc dst (.recv src k2)
        seen := Function.update n1.seen dst (n1.seen dst ++ os2) } : Net ι O).step cap dst = some n2 := by
      simp only [step, Function.update_self, n1, n2, Function.update_idem, Function.update_of_ne (Ne.symm hne)]
      have : Function.update n.chan (src, dst) [] = n.chan := by
        rw [← hchan (src, dst)]
        exact Function.update_eq_self _ _
      rw [this]
    obtain ⟨s3, t, r3, f3, ch3, o3⟩ := ih (fun g hg => hG g (by simp [hg])) n2 hchan
      (Function.update (Function.update as src bs1') dst bs2') (by
        intro i hi
        have h0 := hL i hi
        have hsrc : i ≠ src := by
          rintro rfl
          rw [h0] at c1
          simp at c1
        have hdst : i ≠ dst := by
          rintro rfl
          rw [h0] at c2
          simp at c2
        rw [Function.update_of_ne hdst, Function.update_of_ne hsrc, h0]) (by
        intro i
        simp only [n2]
        by_cases h1 : i = dst
        · subst h1; simpa using u2'
        · rw [Function.update_of_ne h1, Function.update_of_ne h1]
          by_cases h2 : i = src
          · subst h2; simpa using u1'
          · rw [Function.update_of_ne h2, Function.update_of_ne h2]; exact hr i) (by
        intro i
        by_cases h1 : i = dst
        · subst h1
          simp only [Function.update_self]
          simpa using hs2
        · rw [Function.update_of_ne h1]
          by_cases h2 : i = src
          · subst h2
            simp only [Function.update_self]
            simpa using hs
          · rw [Function.update_of_ne h2, hp i]
            simp [proj, Ne.symm h1, Ne.symm h2])
    refine ⟨s1 ++ src :: (s2 ++ dst :: s3), t, ?_, f3, ch3, ?_⟩
    · rw [run_append, r1]
      simp only [Option.bind_some, run]
      rw [hstep1, Option.bind_some, run_append, r2]
      simp only [Option.bind_some, run]
      rw [hstep2, Option.bind_some]
      exact r3
    · intro i
      rw [o3 i]
      simp only [n2]
      by_cases h1 : i = dst
      · subst h1
        simp [o2]
      · rw [Function.update_of_ne h1, Function.update_of_ne h1]
        by_cases h2 : i = src
        · subst h2
          simp [o1]
        · rw [Function.update_of_ne h2, Function.update_of_ne h2]

/-! ## Where a run can be -/

/-- The actions done so far and still to do, in a state of a run of programs whose
actions would be `as`. -/
structure Progress (as : ι → List (Act ι O)) (c : Net ι O) (pre rest : ι → List (Act ι O)) : Prop where
  split : ∀ i, as i = pre i ++ rest i
  runs : ∀ i, Runs (c.proc i) (rest i) ()
  seen : ∀ i, c.seen i = obsOf (pre i)
  chan : ∀ i j, sentTo j (pre i) = rcvdFrom i (pre j) ++ c.chan (i, j)

theorem progress_step {cap : ι × ι → Nat} {as : ι → List (Act ι O)}
    (hcons : ∀ i j, sentTo j (as i) = rcvdFrom i (as j)) {c m : Net ι O} {pre rest : ι → List (Act ι O)}
    (h : Progress as c pre rest) {i : ι} (hs : c.step cap i = some m) :
    ∃ a r, rest i = a :: r ∧ Progress as m (Function.update pre i (pre i ++ [a])) (Function.update rest i r) := by
  have hri := h.runs i
  unfold step at hs
  split at hs
  · cases hs
  · cases hs
  · rename_i d b k hp
    rw [hp] at hri
    generalize hrest : rest i = ri at hri
    cases hri with
    | send hk =>
    rename_i r
    split at hs
    case isFalse => cases hs
    case isTrue hcap =>
    cases hs
    refine ⟨.send d b, r, rfl, ?_, ?_, ?_, ?_⟩
    · intro j
      by_cases hj : j = i
      · subst hj; simp [h.split j, hrest]
      · simp [Function.update_of_ne hj, h.split j]
    · intro j
      by_cases hj : j = i
      · subst hj; simpa using hk
      · simp only [Function.update_of_ne hj]; exact h.runs j
    · intro j
      by_cases hj : j = i
      · subst hj; simp [h.seen j]
      · simp [Function.update_of_ne hj, h.seen j]
    · intro j l
      have hc := h.chan j l
      have hl : rcvdFrom j (Function.update pre i (pre i ++ [.send d b]) l) = rcvdFrom j (pre l) := by
        by_cases hl : l = i
        · subst hl; simp
        · rw [Function.update_of_ne hl]
      rw [hl]
      by_cases hj : j = i
      · subst hj
        simp only [Function.update_self, sentTo_append, sentTo_send, sentTo_nil]
        by_cases hd : d = l
        · subst hd
          simp [hc]
        · have : ((j, l) : ι × ι) ≠ (j, d) := fun hh => hd (congrArg Prod.snd hh).symm
          rw [Function.update_of_ne this, if_neg hd, hc]
          simp
      · have : ((j, l) : ι × ι) ≠ (i, d) := fun hh => hj (congrArg Prod.fst hh)
        simp only [Function.update_of_ne hj, Function.update_of_ne this]
        exact hc
  · rename_i s k hp
    rw [hp] at hri
    generalize hrest : rest i = ri at hri
    cases hri with
    | recv hk =>
    rename_i b' r
    split at hs
    case h_1 => cases hs
    case h_2 b q hq =>
    cases hs
    have hb : b' = b := by
      have h1 := hcons s i
      have h2 := h.split i
      rw [h2, h.split s, sentTo_append, h.chan s i, hq, rcvdFrom_append, hrest, rcvdFrom_recv] at h1
      simp only [if_true, List.append_assoc, List.append_cancel_left_eq, List.cons_append, List.cons.injEq] at h1
      exact h1.1.symm
    subst hb
    refine ⟨.recv s b', r, rfl, ?_, ?_, ?_, ?_⟩
    · intro j
      by_cases hj : j = i
      · subst hj; simp [h.split j, hrest]
      · simp [Function.update_of_ne hj, h.split j]
    · intro j
      by_cases hj : j = i
      · subst hj; simpa using hk
      · simp only [Function.update_of_ne hj]; exact h.runs j
    · intro j
      by_cases hj : j = i
      · subst hj; simp [h.seen j]
      · simp [Function.update_of_ne hj, h.seen j]
    · intro j l
      have hc := h.chan j l
      have hl : sentTo l (Function.update pre i (pre i ++ [.recv s b']) j) = sentTo l (pre j) := by
        by_cases hl : j = i
        · subst hl; simp
        · rw [Function.update_of_ne hl]
      rw [hl]
      by_cases hli : l = i
      · subst hli
        simp only [Function.update_self, rcvdFrom_append, rcvdFrom_recv, rcvdFrom_nil]
        by_cases hd : s = j
        · subst hd
          rw [hc, hq]
          simp
        · have : ((j, l) : ι × ι) ≠ (s, l) := fun hh => hd (congrArg Prod.fst hh).symm
          rw [Function.update_of_ne this, if_neg hd, hc]
          simp
      · have : ((j, l) : ι × ι) ≠ (s, i) := fun hh => hli (congrArg Prod.snd hh)
        simp only [Function.update_of_ne hli, Function.update_of_ne this]
        exact hc
  · rename_i o k hp
    rw [hp] at hri
    generalize hrest : rest i = ri at hri
    cases hri with
    | obs hk =>
    rename_i r
    cases hs
    refine ⟨.obs o, r, rfl, ?_, ?_, ?_, ?_⟩
    · intro j
      by_cases hj : j = i
      · subst hj; simp [h.split j, hrest]
      · simp [Function.update_of_ne hj, h.split j]
    · intro j
      by_cases hj : j = i
      · subst hj; simpa using hk
      · simp only [Function.update_of_ne hj]; exact h.runs j
    · intro j
      by_cases hj : j = i
      · subst hj; simp [h.seen j]
      · simp [Function.update_of_ne hj, h.seen j]
    · intro j l
      have e1 : sentTo l (Function.update pre i (pre i ++ [.obs o]) j) = sentTo l (pre j) := by
        by_cases hl : j = i
        · subst hl; simp
        · rw [Function.update_of_ne hl]
      have e2 : rcvdFrom j (Function.update pre i (pre i ++ [.obs o]) l) = rcvdFrom j (pre l) := by
        by_cases hl : l = i
        · subst hl; simp
        · rw [Function.update_of_ne hl]
      rw [e1, e2]
      exact h.chan j l

theorem progress_run {cap : ι × ι → Nat} {as : ι → List (Act ι O)}
    (hcons : ∀ i j, sentTo j (as i) = rcvdFrom i (as j)) (s : List ι) (c t : Net ι O) {pre rest : ι → List (Act ι O)}
    (h : Progress as c pre rest) (hs : c.run cap s = some t) : ∃ pre' rest', Progress as t pre' rest' := by
  induction s generalizing c pre rest with
  | nil => simp only [run] at hs; cases hs; exact ⟨pre, rest, h⟩
  | cons i s ih =>
    simp only [run, Option.bind_eq_some_iff] at hs
    obtain ⟨m, h1, h2⟩ := hs
    obtain ⟨a, r, -, h3⟩ := progress_step hcons h h1
    exact ih m h3 h2

theorem progress_start {proc : ι → Proc ι O Unit} {as : ι → List (Act ι O)} (hr : ∀ i, Runs (proc i) (as i) ()) :
    Progress as (start proc) (fun _ => []) as :=
  ⟨fun _ => rfl, hr, fun _ => rfl, fun _ _ => rfl⟩

/-- A global order makes what is sent and what is received agree. -/
theorem proj_consistent (G : List (ι × ι × Byte)) (i j : ι) :
    sentTo j (proj i G : List (Act ι O)) = rcvdFrom i (proj j G : List (Act ι O)) := by
  induction G with
  | nil => rfl
  | cons g G ih =>
    obtain ⟨s, d, b⟩ := g
    simp only [proj, List.flatMap_cons, sentTo_append, rcvdFrom_append] at ih ⊢
    rw [ih]
    by_cases h1 : s = i <;> by_cases h2 : d = j <;> by_cases h3 : d = i <;> by_cases h4 : s = j <;>
      simp [h1, h2, h3, h4, sentTo_send, rcvdFrom_recv] <;> simp_all

end Net

end DPPIR
