import Verif.Proofs.Below
import Verif.Proofs.Deadlock

/-!
# Programs that do what a script says unless they stop

`MayDo F Q p L`: program `p` performs the segments `L` like `Does`, except that it may
stop abnormally at any point in a way that `F` tells.
-/

namespace DPPIR
open Proc

variable {ι O α β : Type} [DecidableEq ι]

namespace PProc

inductive MayDo (F : Fault → Prop) (Q : α → Prop) : PProc ι O α → List (Seg ι O) → Prop where
  | fault {e : Fault} {L} (h : F e) : MayDo F Q (.fault e) L
  | done {a : α} (h : Q a) : MayDo F Q (.done a) []
  | send {d b k L} (h : MayDo F Q k L) : MayDo F Q (.send d b k) (.act (.send d b) :: L)
  | recv {s k b L} (h : MayDo F Q (k b) L) : MayDo F Q (.recv s k) (.act (.recv s b) :: L)
  | obs {o k L} (h : MayDo F Q k L) : MayDo F Q (.obs o k) (.act (.obs o) :: L)
  | xsend {d b k os is av L} (h : MayDo F Q k (.xchg os is av :: L)) :
      MayDo F Q (.send d b k) (.xchg ((d, b) :: os) is av :: L)
  | xrecv {s k b l is av L} (hi : is s = b :: l)
      (h : MayDo F Q (k b) (.xchg [] (Function.update is s l) (Function.update av s false) :: L)) :
      MayDo F Q (.recv s k) (.xchg [] is av :: L)
  | xpoll {srcs block k os is av L} (hs : ∀ j ∈ srcs, is j ≠ []) (hb : block = true → os = [] ∧ srcs ≠ [])
      (h : ∀ ready : ι → Bool, (∀ j, ready j = true → j ∈ srcs) → (block = true → ∃ j, ready j = true) →
        MayDo F Q (k ready) (.xchg os is ready :: L)) :
      MayDo F Q (.poll srcs block k) (.xchg os is av :: L)
  | xread {s n k os is av L} (hn : 0 < n) (hl : n ≤ (is s).length) (hav : av s = true)
      (h : ∀ c, c ≠ [] → c.length ≤ n → c <+: is s →
        MayDo F Q (k c) (.xchg os (Function.update is s ((is s).drop c.length)) (Function.update av s false) :: L)) :
      MayDo F Q (.read s n k) (.xchg os is av :: L)
  | xend {p is av L} (hi : ∀ j, is j = []) (h : MayDo F Q p L) : MayDo F Q p (.xchg [] is av :: L)

variable {F : Fault → Prop}

theorem Does.may {Q : α → Prop} {p : PProc ι O α} {L} (h : Does Q p L) : MayDo F Q p L := by
  induction h with
  | done h => exact .done h
  | send h ih => exact .send ih
  | recv h ih => exact .recv ih
  | obs h ih => exact .obs ih
  | xsend h ih => exact .xsend ih
  | xrecv hi h ih => exact .xrecv hi ih
  | xpoll hs hb h ih => exact .xpoll hs hb ih
  | xread hn hl hav h ih => exact .xread hn hl hav ih
  | xend hi h ih => exact .xend hi ih

theorem MayDo.bind {Q : α → Prop} {R : β → Prop} {p : PProc ι O α} {f : α → PProc ι O β} {L M} (h : MayDo F Q p L)
    (h' : ∀ a, Q a → MayDo F R (f a) M) : MayDo F R (p.bind f) (L ++ M) := by
  induction h with
  | fault h => exact .fault h
  | done h => exact h' _ h
  | send h ih => exact .send ih
  | recv h ih => exact .recv ih
  | obs h ih => exact .obs ih
  | xsend h ih => exact .xsend ih
  | xrecv hi h ih => exact .xrecv hi ih
  | xpoll hs hb h ih => exact .xpoll hs hb ih
  | xread hn hl hav h ih => exact .xread hn hl hav ih
  | xend hi h ih => exact .xend hi ih

theorem MayDo.bind' {Q : α → Prop} {R : β → Prop} {p : PProc ι O α} {f : α → PProc ι O β} {L M N} (h : MayDo F Q p L)
    (h' : ∀ a, Q a → MayDo F R (f a) M) (e : N = L ++ M) : MayDo F R (p.bind f) N := e ▸ h.bind h'

theorem MayDo.mono {Q R : α → Prop} {p : PProc ι O α} {L} (h : MayDo F Q p L) (h' : ∀ a, Q a → R a) : MayDo F R p L := by
  induction h with
  | fault h => exact .fault h
  | done h => exact .done (h' _ h)
  | send h ih => exact .send ih
  | recv h ih => exact .recv ih
  | obs h ih => exact .obs ih
  | xsend h ih => exact .xsend ih
  | xrecv hi h ih => exact .xrecv hi ih
  | xpoll hs hb h ih => exact .xpoll hs hb ih
  | xread hn hl hav h ih => exact .xread hn hl hav ih
  | xend hi h ih => exact .xend hi ih

/-- First a program that does not poll, then another. -/
theorem MayDo.runs {R : β → Prop} {p : Proc ι O α} {f : α → PProc ι O β} {as a M} (h : Runs p as a) (h' : MayDo F R (f a) M) :
    MayDo F R ((PProc.ofProc p).bind f) (as.map Seg.act ++ M) := (Does.ofProc h).may.bind (by rintro _ rfl; exact h')

theorem MayDo.lifts {R : β → Prop} {x : Res α} {f : α → PProc ι O β} {a M} (h : x = .ok a) (h' : MayDo F R (f a) M) :
    MayDo F R ((PProc.lift x).bind f) M := (Does.lift h).may.bind (by rintro _ rfl; exact h')

/-- A program below one that follows the script. -/
theorem MayDo.ofBelow {R : α → β → Prop} {Q : β → Prop} {q : PProc ι O β} {L} (hq : Does Q q L) :
    ∀ {p : PProc ι O α}, Below F R p q → MayDo F (fun a => ∃ b, R a b ∧ Q b) p L := by
  induction hq with
  | done h =>
    intro p hb
    cases hb with
    | fault _ he => exact .fault he
    | done hR => exact .done ⟨_, hR, h⟩
  | send h ih =>
    intro p hb
    cases hb with
    | fault _ he => exact .fault he
    | send hb => exact .send (ih hb)
  | recv h ih =>
    intro p hb
    cases hb with
    | fault _ he => exact .fault he
    | recv hb => exact .recv (ih (hb _))
  | obs h ih =>
    intro p hb
    cases hb with
    | fault _ he => exact .fault he
    | obs hb => exact .obs (ih hb)
  | xsend h ih =>
    intro p hb
    cases hb with
    | fault _ he => exact .fault he
    | send hb => exact .xsend (ih hb)
  | xrecv hi h ih =>
    intro p hb
    cases hb with
    | fault _ he => exact .fault he
    | recv hb => exact .xrecv hi (ih (hb _))
  | xpoll hs hbl h ih =>
    intro p hb
    cases hb with
    | fault _ he => exact .fault he
    | poll hb => exact .xpoll hs hbl (fun r h1 h2 => ih r h1 h2 (hb _))
  | xread hn hl hav h ih =>
    intro p hb
    cases hb with
    | fault _ he => exact .fault he
    | read hb => exact .xread hn hl hav (fun c h1 h2 h3 => ih c h1 h2 h3 (hb _))
  | xend hi h ih => intro p hb; exact .xend hi (ih hb)

/-! ### A program that follows the script in any case -/

/-- Something is read from finitely many others only. -/
def FinSeg : Seg ι O → Prop
  | .act _ => True
  | .xchg _ is _ => ∃ l : List ι, ∀ j ∉ l, is j = []

omit [DecidableEq ι] in
theorem finSeg_update [DecidableEq ι] {os os' : List (ι × Byte)} {is : ι → List Byte} {av av'} (h : FinSeg (.xchg os is av : Seg ι O)) (s : ι) (x : List Byte) :
    FinSeg (.xchg os' (Function.update is s x) av' : Seg ι O) := by
  obtain ⟨l, hl⟩ := h
  refine ⟨s :: l, fun j hj => ?_⟩
  rw [List.mem_cons, not_or] at hj
  rw [Function.update_of_ne hj.1]
  exact hl j hj.2

/-- All of an exchange can be read. -/
theorem read_all (b : β) (l : List ι) : ∀ (is : ι → List Byte) (av : ι → Bool), (∀ j ∉ l, is j = []) →
    ∃ q : PProc ι O β, Does (fun x => x = b) q [.xchg [] is av] := by
  induction l with
  | nil => intro is av h; exact ⟨.done b, .xend (fun j => h j (by simp)) (.done rfl)⟩
  | cons s l ih =>
    intro is av h
    generalize hx : is s = x
    induction x generalizing is av with
    | nil =>
      refine ih is av fun j hj => ?_
      by_cases e : j = s
      · rw [e, hx]
      · exact h j (by simp [e, hj])
    | cons c x ih' =>
      obtain ⟨q, hq⟩ := ih' (Function.update is s x) (Function.update av s false) (by
        intro j hj
        rw [List.mem_cons, not_or] at hj
        rw [Function.update_of_ne hj.1]
        exact h j (by simp [hj])) (Function.update_self ..)
      exact ⟨.recv s (fun _ => q), .xrecv hx hq⟩

theorem any_xchg (b : β) {os : List (ι × Byte)} {is : ι → List Byte} {av} (h : FinSeg (.xchg os is av : Seg ι O)) :
    ∃ q : PProc ι O β, Does (fun x => x = b) q [.xchg os is av] := by
  induction os with
  | nil => obtain ⟨l, hl⟩ := h; exact read_all b l is av hl
  | cons o os ih =>
    obtain ⟨q, hq⟩ := ih h
    exact ⟨.send o.1 o.2 q, .xsend hq⟩

theorem any_script (b : β) (L : List (Seg ι O)) (h : ∀ x ∈ L, FinSeg x) : ∃ q : PProc ι O β, Does (fun x => x = b) q L := by
  induction L with
  | nil => exact ⟨.done b, .done rfl⟩
  | cons x L ih =>
    obtain ⟨q, hq⟩ := ih (fun y hy => h y (List.mem_cons_of_mem _ hy))
    match x with
    | .act (.send d c) => exact ⟨.send d c q, .send hq⟩
    | .act (.recv s c) => exact ⟨.recv s (fun _ => q), .recv hq⟩
    | .act (.obs o) => exact ⟨.obs o q, .obs hq⟩
    | .xchg os is av =>
      obtain ⟨q', hq'⟩ := any_xchg b (h _ List.mem_cons_self)
      exact ⟨q'.bind (fun _ => q), hq'.bind (fun _ _ => hq)⟩

omit [DecidableEq ι] in
theorem below_some (p : PProc ι O α) : Below F (fun a o => o = some a) p (p.bind (fun a => .done (some a))) := by
  induction p with
  | done a => exact .done rfl
  | fault e => exact .same e
  | send d b k ih => exact .send ih
  | recv s k ih => exact .recv ih
  | obs o k ih => exact .obs ih
  | poll l b k ih => exact .poll ih
  | read s n k ih => exact .read ih

/-- There is a program that follows the script and which `p` is below. -/
theorem MayDo.exists_below {Q : α → Prop} {p : PProc ι O α} {L} (h : MayDo F Q p L) (hL : ∀ x ∈ L, FinSeg x) :
    ∃ q : PProc ι O (Option α), Below F (fun a o => o = some a) p q ∧ Does (fun o => ∀ a, o = some a → Q a) q L := by
  induction h with
  | @fault e L h =>
    obtain ⟨q, hq⟩ := any_script (none : Option α) L hL
    refine ⟨q, .fault e h q, hq.mono ?_⟩
    rintro _ rfl a ha
    cases ha
  | @done a h => exact ⟨.done (some a), .done rfl, .done (by rintro _ ⟨rfl⟩; exact h)⟩
  | send h ih =>
    obtain ⟨q, h1, h2⟩ := ih (fun y hy => hL y (List.mem_cons_of_mem _ hy))
    exact ⟨_, .send h1, .send h2⟩
  | @recv s k b L h ih =>
    obtain ⟨q, h1, h2⟩ := ih (fun y hy => hL y (List.mem_cons_of_mem _ hy))
    refine ⟨.recv s (Function.update (fun x => (k x).bind (fun a => .done (some a))) b q), .recv fun x => ?_, .recv (b := b) ?_⟩
    · by_cases e : x = b
      · subst e; rw [Function.update_self]; exact h1
      · rw [Function.update_of_ne e]; exact below_some _
    · rw [Function.update_self]; exact h2
  | obs h ih =>
    obtain ⟨q, h1, h2⟩ := ih (fun y hy => hL y (List.mem_cons_of_mem _ hy))
    exact ⟨_, .obs h1, .obs h2⟩
  | @xsend d b k os is av L h ih =>
    obtain ⟨q, h1, h2⟩ := ih (fun y hy => by
      rcases List.mem_cons.1 hy with rfl | hy
      · exact hL (.xchg ((d, b) :: os) is av) List.mem_cons_self
      · exact hL y (List.mem_cons_of_mem _ hy))
    exact ⟨_, .send h1, .xsend h2⟩
  | @xrecv s k b l is av L hi h ih =>
    obtain ⟨q, h1, h2⟩ := ih (fun y hy => by
      rcases List.mem_cons.1 hy with rfl | hy
      · exact finSeg_update (hL _ List.mem_cons_self) _ _
      · exact hL y (List.mem_cons_of_mem _ hy))
    refine ⟨.recv s (Function.update (fun x => (k x).bind (fun a => .done (some a))) b q), .recv fun x => ?_, .xrecv hi ?_⟩
    · by_cases e : x = b
      · subst e; rw [Function.update_self]; exact h1
      · rw [Function.update_of_ne e]; exact below_some _
    · rw [Function.update_self]; exact h2
  | @xpoll srcs block k os is av L hs hb h ih =>
    have hq : ∀ r : ι → Bool, ∃ q : PProc ι O (Option α), Below F (fun a o => o = some a) (k r) q ∧
        ((∀ j, r j = true → j ∈ srcs) → (block = true → ∃ j, r j = true) → Does (fun o => ∀ a, o = some a → Q a) q (.xchg os is r :: L)) := by
      intro r
      by_cases hr : (∀ j, r j = true → j ∈ srcs) ∧ (block = true → ∃ j, r j = true)
      · obtain ⟨q, h1, h2⟩ := ih r hr.1 hr.2 (fun y hy => by
          rcases List.mem_cons.1 hy with rfl | hy
          · exact hL (.xchg os is av) List.mem_cons_self
          · exact hL y (List.mem_cons_of_mem _ hy))
        exact ⟨q, h1, fun _ _ => h2⟩
      · exact ⟨_, below_some _, fun h1 h2 => absurd ⟨h1, h2⟩ hr⟩
    choose q h1 h2 using hq
    exact ⟨.poll srcs block q, .poll h1, .xpoll hs hb h2⟩
  | @xread s n k os is av L hn hl hav h ih =>
    have hq : ∀ c : List Byte, ∃ q : PProc ι O (Option α), Below F (fun a o => o = some a) (k c) q ∧
        (c ≠ [] → c.length ≤ n → c <+: is s → Does (fun o => ∀ a, o = some a → Q a) q
          (.xchg os (Function.update is s ((is s).drop c.length)) (Function.update av s false) :: L)) := by
      intro c
      by_cases hr : c ≠ [] ∧ c.length ≤ n ∧ c <+: is s
      · obtain ⟨q, h1, h2⟩ := ih c hr.1 hr.2.1 hr.2.2 (fun y hy => by
          rcases List.mem_cons.1 hy with rfl | hy
          · exact finSeg_update (hL _ List.mem_cons_self) _ _
          · exact hL y (List.mem_cons_of_mem _ hy))
        exact ⟨q, h1, fun _ _ _ => h2⟩
      · exact ⟨_, below_some _, fun h1 h2 h3 => absurd ⟨h1, h2, h3⟩ hr⟩
    choose q h1 h2 using hq
    exact ⟨.read s n q, .read h1, .xread hn hl hav h2⟩
  | xend hi h ih =>
    obtain ⟨q, h1, h2⟩ := ih (fun y hy => hL y (List.mem_cons_of_mem _ hy))
    exact ⟨q, h1, .xend hi h2⟩

end PProc

/-! ### Networks -/

namespace PNet
variable {F : Fault → Prop}

/-- A step of a process that goes on with another program is one of the process, unless
it has returned. -/
theorem Step.ofAndThen {cap : ι × ι → Nat} {i : ι} {n : PNet ι O α} {f : ι → α → PProc ι O β} {m : PNet ι O β}
    (h : Step cap i (n.andThen f) m) :
    (∃ n', Step cap i n n' ∧ m = n'.andThen f) ∨ ∃ a, n.proc i = .done a := by
  generalize hp : n.proc i = p
  have hpi : (n.andThen f).proc i = p.bind (f i) := by show (n.proc i).bind (f i) = _; rw [hp]
  cases p with
  | done a => exact .inr ⟨a, rfl⟩
  | fault e =>
    cases h with
    | send h _ => rw [hpi] at h; cases h
    | recv h _ => rw [hpi] at h; cases h
    | obs h => rw [hpi] at h; cases h
    | poll _ h _ _ => rw [hpi] at h; cases h
    | read h _ _ _ => rw [hpi] at h; cases h
  | send d b k =>
    left
    cases h with
    | send h room =>
      rw [hpi] at h
      cases h
      refine ⟨_, .send hp room, ?_⟩
      simp only [PNet.andThen, update_bind]
    | recv h _ => rw [hpi] at h; cases h
    | obs h => rw [hpi] at h; cases h
    | poll _ h _ _ => rw [hpi] at h; cases h
    | read h _ _ _ => rw [hpi] at h; cases h
  | recv s k =>
    left
    cases h with
    | recv h data =>
      rw [hpi] at h
      cases h
      refine ⟨_, .recv hp data, ?_⟩
      simp only [PNet.andThen, update_bind]
    | send h _ => rw [hpi] at h; cases h
    | obs h => rw [hpi] at h; cases h
    | poll _ h _ _ => rw [hpi] at h; cases h
    | read h _ _ _ => rw [hpi] at h; cases h
  | obs o k =>
    left
    cases h with
    | obs h =>
      rw [hpi] at h
      cases h
      refine ⟨_, .obs hp, ?_⟩
      simp only [PNet.andThen, update_bind]
    | send h _ => rw [hpi] at h; cases h
    | recv h _ => rw [hpi] at h; cases h
    | poll _ h _ _ => rw [hpi] at h; cases h
    | read h _ _ _ => rw [hpi] at h; cases h
  | poll l bl k =>
    left
    cases h with
    | poll r h h1 h2 =>
      rw [hpi] at h
      cases h
      refine ⟨_, .poll r hp h1 h2, ?_⟩
      simp only [PNet.andThen, update_bind]
    | send h _ => rw [hpi] at h; cases h
    | recv h _ => rw [hpi] at h; cases h
    | obs h => rw [hpi] at h; cases h
    | read h _ _ _ => rw [hpi] at h; cases h
  | read s m k =>
    left
    cases h with
    | read h h1 h2 h3 =>
      rw [hpi] at h
      cases h
      refine ⟨_, .read hp h1 h2 h3, ?_⟩
      simp only [PNet.andThen, update_bind]
    | send h _ => rw [hpi] at h; cases h
    | recv h _ => rw [hpi] at h; cases h
    | obs h => rw [hpi] at h; cases h
    | poll _ h _ _ => rw [hpi] at h; cases h

theorem rcvd_of_done {Q : α → Prop} {a : α} {L : List (Seg ι O)} (h : PProc.Does Q (.done a) L) (s : ι) : segRcvd s L = [] := by
  generalize hp : (PProc.done a : PProc ι O α) = p at h
  induction h with
  | done h => rfl
  | @xend p is av L hi h ih =>
    show Seg.rcvd s _ ++ segRcvd s L = []
    rw [ih hp, List.append_nil]
    exact hi s
  | _ => cases hp

/-- A program that has returned or waits for a byte. -/
def Waits : PProc ι O α → Prop
  | .done _ => True
  | .recv _ _ => True
  | _ => False

/-- Processes that follow a script, or stop, and then wait: that is where they remain. -/
theorem may_wait {cap cap' : ι × ι → Nat} {G : List (GSeg ι)} (hG : ∀ g ∈ G, GSeg.Ok cap' g)
    {pre : ι → PProc ι O (PProc ι O α)} {L : ι → List (Seg ι O)} {Q : ι → PProc ι O α → Prop}
    (hd : ∀ i, PProc.MayDo F (Q i) (pre i) (L i)) (hfin : ∀ i, ∀ x ∈ L i, PProc.FinSeg x) (hL : ∀ i, segComm (L i) = proj i G)
    (hQ : ∀ i p, Q i p → Waits p) {n : PNet ι O α} (hr : Reach cap (PNet.start (fun i => (pre i).bind id)) n) :
    ∃ n0, Reach cap (PNet.start pre) n0 ∧ n = n0.andThen (fun _ => id) ∧
      (∀ i, n.seen i <+: segObs (L i)) ∧ (∀ i e, n.proc i = .fault e → F e) ∧
      (∀ i a, n.Returned i a → Q i (.done a)) ∧
      ((∀ g ∈ G, GSeg.Ok cap g) → CanStep cap n ∨ (∃ i, n.Faulted i) ∨ ∀ i, ∃ p, Q i p) := by
  have hq : ∀ i, ∃ q : PProc ι O (Option (PProc ι O α)), PProc.Below F (fun a o => o = some a) (pre i) q ∧
      PProc.Does (fun o => ∀ a, o = some a → Q i a) q (L i) := fun i => (hd i).exists_below (hfin i)
  choose q h1 h2 using hq
  have h0 : Sim F (fun _ a o => o = some a) (PNet.start pre) (PNet.start q) := ⟨h1, rfl, rfl⟩
  have key : ∃ n0, Reach cap (PNet.start pre) n0 ∧ n = n0.andThen (fun _ => id) := by
    induction hr with
    | refl => exact ⟨_, .refl, rfl⟩
    | @step m m' i _ hs ih =>
      obtain ⟨n0, hn0, rfl⟩ := ih
      rcases hs.ofAndThen with ⟨n', h3, h4⟩ | ⟨p, hp⟩
      · exact ⟨n', hn0.step h3, h4⟩
      · exfalso
        obtain ⟨m0, hm0, hsim⟩ := h0.reach hn0
        obtain ⟨b, hb, rfl⟩ := hsim.returned hp
        obtain ⟨L', hI⟩ := (Inv.start hG h2 hL).reach hm0
        have hdi := hI.does i
        rw [show m0.proc i = .done (some p) from hb] at hdi
        have hw := hQ i p ((Does_done hdi).1 p rfl)
        have hpi : (n0.andThen (fun _ => id)).proc i = p := by
          show (n0.proc i).bind id = p
          rw [hp]; rfl
        match p, hw, hpi with
        | .done a, _, hpi =>
          cases hs with
          | send h _ => rw [hpi] at h; cases h
          | recv h _ => rw [hpi] at h; cases h
          | obs h => rw [hpi] at h; cases h
          | poll _ h _ _ => rw [hpi] at h; cases h
          | read h _ _ _ => rw [hpi] at h; cases h
        | .recv s k, _, hpi =>
          cases hs with
          | send h _ => rw [hpi] at h; cases h
          | recv h data =>
            rw [hpi] at h
            cases h
            have hc := hI.chan s i
            rw [rcvd_of_done hdi s, List.append_eq_nil_iff, ← hsim.chan] at hc
            have data : n0.chan (s, i) = _ := data
            rw [hc.1] at data
            cases data
          | obs h => rw [hpi] at h; cases h
          | poll _ h _ _ => rw [hpi] at h; cases h
          | read h _ _ _ => rw [hpi] at h; cases h
  obtain ⟨n0, hn0, rfl⟩ := key
  obtain ⟨a1, a2, a3, a4⟩ := below_script hG h1 h2 hL hn0
  have hret : ∀ i p, n0.proc i = .done p → Q i p := by
    intro i p hp
    obtain ⟨b, rfl, hb⟩ := a3 i p hp
    exact hb p rfl
  have hcase : ∀ i, (∃ p, n0.proc i = .done p) ∨ (∀ e, (n0.proc i).bind id = .fault e → n0.proc i = .fault e) ∧
      ∀ a, (n0.proc i).bind id ≠ .done a := by
    intro i
    cases hp : n0.proc i with
    | done p => exact .inl ⟨p, rfl⟩
    | fault e => exact .inr ⟨fun e' h => by cases h; rfl, fun a h => by cases h⟩
    | _ => exact .inr ⟨fun e' h => (by cases h), fun a h => (by cases h)⟩
  refine ⟨n0, hn0, rfl, a1, ?_, ?_, ?_⟩
  · intro i e he
    have he : (n0.proc i).bind id = .fault e := he
    rcases hcase i with ⟨p, hp⟩ | h
    · have hw := hQ i p (hret i p hp)
      rw [hp] at he
      have he : p = .fault e := he
      subst he
      exact hw.elim
    · exact a2 i e (h.1 e he)
  · intro i a ha
    have ha : (n0.proc i).bind id = .done a := ha
    rcases hcase i with ⟨p, hp⟩ | h
    · have hq := hret i p hp
      rw [hp] at ha
      have ha : p = .done a := ha
      subst ha
      exact hq
    · exact absurd ha (h.2 a)
  · intro hok
    rcases a4 hok with ⟨i, m, hs⟩ | ⟨i, e, hf⟩ | hall
    · exact .inl ⟨i, _, hs.andThen _⟩
    · refine .inr (.inl ⟨i, e, ?_⟩)
      show (n0.proc i).bind id = _
      rw [hf]; rfl
    · refine .inr (.inr fun i => ?_)
      obtain ⟨p, b, h3, -, -⟩ := hall i
      exact ⟨p, hret i p h3⟩

end PNet

end DPPIR
