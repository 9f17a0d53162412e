import Verif.Proofs.ParallelShuffle
import Verif.Proofs.PartyRun

/-!
# Routing of batches among the servers of a party
-/

namespace DPPIR.Protocol
open DPPIR Shuffle Spec

variable {α β : Type}

/-! ## The items for one server -/

/-- The items of `l` whose destination is `t`. -/
def selTo : List Nat → List α → Nat → List α
  | d :: ds, x :: xs, t => if d = t then x :: selTo ds xs t else selTo ds xs t
  | _, _, _ => []

@[simp] theorem selTo_nil_left (l : List α) (t : Nat) : selTo [] l t = [] := by cases l <;> rfl
@[simp] theorem selTo_nil_right (d : List Nat) (t : Nat) : selTo d ([] : List α) t = [] := by cases d <;> rfl
theorem selTo_cons (d : Nat) (ds : List Nat) (x : α) (xs : List α) (t : Nat) :
    selTo (d :: ds) (x :: xs) t = if d = t then x :: selTo ds xs t else selTo ds xs t := rfl

theorem selTo_length (ds : List Nat) (l : List α) (t : Nat) (h : ds.length = l.length) :
    (selTo ds l t).length = ds.count t := by
  induction ds generalizing l with
  | nil => simp
  | cons d ds ih =>
    cases l with
    | nil => simp at h
    | cons x l =>
      rw [selTo_cons, List.count_cons]
      have := ih l (by simpa using h)
      by_cases e : d = t <;> simp [e, this]

theorem selTo_map (f : α → β) (ds : List Nat) (l : List α) (t : Nat) : selTo ds (l.map f) t = (selTo ds l t).map f := by
  induction ds generalizing l with
  | nil => simp
  | cons d ds ih =>
    cases l with
    | nil => simp
    | cons x l =>
      rw [List.map_cons, selTo_cons, selTo_cons, ih]
      split <;> simp

theorem selTo_append (ds ds' : List Nat) (l l' : List α) (t : Nat) (h : ds.length = l.length) :
    selTo (ds ++ ds') (l ++ l') t = selTo ds l t ++ selTo ds' l' t := by
  induction ds generalizing l with
  | nil =>
    cases l with
    | nil => rfl
    | cons x l => simp at h
  | cons d ds ih =>
    cases l with
    | nil => simp at h
    | cons x l =>
      rw [List.cons_append, List.cons_append, selTo_cons, selTo_cons, ih l (by simpa using h)]
      split <;> simp

theorem selTo_get (ds : List Nat) (l : List α) (t a : Nat) (h : ds[a]? = some t) :
    (selTo ds l t)[(ds.take a).count t]? = l[a]? := by
  induction ds generalizing l a with
  | nil => simp at h
  | cons d ds ih =>
    cases l with
    | nil => simp
    | cons x l =>
      cases a with
      | zero => simp only [List.getElem?_cons_zero, Option.some.injEq] at h; simp [selTo_cons, h]
      | succ a =>
        rw [List.getElem?_cons_succ] at h
        rw [List.take_succ_cons, List.count_cons, selTo_cons, List.getElem?_cons_succ, ← ih l a h]
        by_cases e : d = t <;> simp [e]

theorem mem_selTo {ds : List Nat} {l : List α} {t : Nat} {x : α} (h : x ∈ selTo ds l t) : x ∈ l := by
  induction ds generalizing l with
  | nil => simp at h
  | cons d ds ih =>
    cases l with
    | nil => simp at h
    | cons y l =>
      rw [selTo_cons] at h
      split at h
      · rcases List.mem_cons.1 h with h | h
        · simp [h]
        · simp [ih h]
      · simp [ih h]

/-- Each item goes to exactly one of the servers. -/
theorem selTo_perm (S : Nat) (ds : List Nat) (l : List α) (h : ds.length = l.length) (hd : ∀ d ∈ ds, d < S) :
    ((List.range S).flatMap (selTo ds l)).Perm l := by
  induction ds generalizing l with
  | nil =>
    cases l with
    | nil => simp
    | cons x l => simp at h
  | cons d ds ih =>
    cases l with
    | nil => simp at h
    | cons x l =>
      have hd' := hd d (by simp)
      have ih := ih l (by simpa using h) (fun d hd'' => hd d (by simp [hd'']))
      have e : ∀ S', ((List.range S').flatMap (selTo (d :: ds) (x :: l))).Perm
          ((if d < S' then [x] else []) ++ (List.range S').flatMap (selTo ds l)) := by
        intro S'
        induction S' with
        | zero => simp
        | succ n ih' =>
          rw [List.range_succ, List.flatMap_append, List.flatMap_append]
          simp only [List.flatMap_cons, List.flatMap_nil, List.append_nil]
          rw [selTo_cons]
          by_cases e : d = n
          · subst e
            rw [if_pos rfl, if_pos (by omega)]
            rw [if_neg (by omega)] at ih'
            refine (List.Perm.append_right _ ih').trans ?_
            rw [List.nil_append, List.singleton_append]
            exact List.perm_middle
          · rw [if_neg e]
            have e2 : (if d < n + 1 then [x] else []) = (if d < n then [x] else []) := by
              by_cases h1 : d < n
              · rw [if_pos h1, if_pos (by omega)]
              · rw [if_neg h1, if_neg (by omega)]
            rw [e2, ← List.append_assoc]
            exact List.Perm.append_right _ ih'
      refine (e S).trans ?_
      rw [if_pos hd']
      exact List.Perm.cons _ ih

/-! ## Prefix sums -/

/-- `f 0 + ... + f (s - 1)` -/
def preSum (f : Nat → Nat) (s : Nat) : Nat := (tab s f).sum

theorem preSum_succ (f : Nat → Nat) (s : Nat) : preSum f (s + 1) = preSum f s + f s := sum_tab_succ s f

theorem preSum_zero (f : Nat → Nat) : preSum f 0 = 0 := rfl

theorem tab_take (n : Nat) (f : Nat → α) (k : Nat) (h : k ≤ n) : (tab n f).take k = tab k f := by
  unfold tab
  rw [← List.map_take, List.take_range, Nat.min_eq_left h]

theorem preSum_mono (f : Nat → Nat) {a b : Nat} (h : a ≤ b) : preSum f a ≤ preSum f b := by
  induction b with
  | zero => rw [show a = 0 by omega]
  | succ b ih =>
    by_cases e : a = b + 1
    · rw [e]
    · have := ih (by omega); rw [preSum_succ]; omega

theorem preSum_congr {f g : Nat → Nat} {n : Nat} (h : ∀ i < n, f i = g i) : preSum f n = preSum g n := by
  unfold preSum; rw [tab_congr n f g h]

theorem preSum_add (f g : Nat → Nat) (n : Nat) : preSum (fun i => f i + g i) n = preSum f n + preSum g n :=
  sum_tab_add n f g

theorem preSum_inj (f : Nat → Nat) {s j s' j' : Nat} (hj : j < f s) (hj' : j' < f s')
    (h : preSum f s + j = preSum f s' + j') : s = s' ∧ j = j' := by
  have key : ∀ {a b : Nat}, a < b → preSum f a + f a ≤ preSum f b := fun {a b} hab => by
    rw [← preSum_succ]; exact preSum_mono f hab
  rcases Nat.lt_trichotomy s s' with h1 | h1 | h1
  · have := key h1; omega
  · subst h1; exact ⟨rfl, by omega⟩
  · have := key h1; omega

theorem preSum_find (f : Nat → Nat) (S i : Nat) (h : i < preSum f S) : ∃ s j, s < S ∧ j < f s ∧ i = preSum f s + j := by
  induction S with
  | zero => simp [preSum_zero] at h
  | succ S ih =>
    by_cases e : i < preSum f S
    · obtain ⟨s, j, h1, h2, h3⟩ := ih e
      exact ⟨s, j, by omega, h2, h3⟩
    · rw [preSum_succ] at h
      exact ⟨S, i - preSum f S, by omega, by omega, by omega⟩

theorem concat_length (S : Nat) (row : Nat → List α) :
    ((List.range S).flatMap row).length = preSum (fun s => (row s).length) S := by
  induction S with
  | zero => rfl
  | succ S ih =>
    rw [List.range_succ, List.flatMap_append, List.length_append, ih, preSum_succ]
    simp

theorem concat_get (S : Nat) (row : Nat → List α) (s j : Nat) (hs : s < S) (hj : j < (row s).length) :
    ((List.range S).flatMap row)[preSum (fun s => (row s).length) s + j]? = (row s)[j]? := by
  induction S with
  | zero => omega
  | succ S ih =>
    rw [List.range_succ, List.flatMap_append]
    simp only [List.flatMap_cons, List.flatMap_nil, List.append_nil]
    have hl := concat_length S row
    by_cases e : s = S
    · subst e
      rw [List.getElem?_append_right (by omega)]
      congr 1; omega
    · have h1 := preSum_mono (fun s => (row s).length) (show s + 1 ≤ S by omega)
      rw [preSum_succ] at h1
      rw [List.getElem?_append_left (by omega), ih (by omega)]

/-! ## Filling the batch of a server -/

/-- The first `r s` messages of every server `s` are in their places. -/
structure Filled (S : Nat) (F : List Nat) (row : Nat → List α) (view : List α) (r : Nat → Nat) : Prop where
  length : view.length = F.length
  at' : ∀ s, s < S → ∀ j, j < r s → ∀ x f, (row s)[j]? = some x →
    F[preSum (fun s => (row s).length) s + j]? = some f → view[f]? = some x

theorem Filled.start (S : Nat) (F : List Nat) (row : Nat → List α) (view : List α) (h : view.length = F.length) :
    Filled S F row view (fun _ => 0) := ⟨h, fun _ _ j hj => by omega⟩

theorem Filled.congr {S : Nat} {F : List Nat} {row : Nat → List α} {view : List α} {r r' : Nat → Nat}
    (h : Filled S F row view r) (e : ∀ s, s < S → r' s = r s) : Filled S F row view r' :=
  ⟨h.length, fun s hs j hj => h.at' s hs j (by rw [← e s hs]; exact hj)⟩

theorem Filled.put {S : Nat} {F B : List Nat} {row : Nat → List α} {view : List α} {r : Nat → Nat}
    (hF : IsShuffler F B (preSum (fun s => (row s).length) S)) (h : Filled S F row view r) {s : Nat} {x : α} (hs : s < S)
    (hx : (row s)[r s]? = some x) :
    ∃ f, F[preSum (fun s => (row s).length) s + r s]? = some f ∧ f < view.length ∧
      Filled S F row (view.set f x) (Function.update r s (r s + 1)) := by
  have hlt := (List.getElem?_eq_some_iff.1 hx).1
  have h1 := preSum_mono (fun s => (row s).length) (show s + 1 ≤ S by omega)
  rw [preSum_succ] at h1
  obtain ⟨f, hf, hfl⟩ := hF.get (i := preSum (fun s => (row s).length) s + r s) (by omega)
  have hlen := h.length
  have hFl := hF.length
  refine ⟨f, hf, by omega, by simpa using hlen, ?_⟩
  intro s' hs' j hj y g hy hg
  have hj' := (List.getElem?_eq_some_iff.1 hy).1
  by_cases e : s' = s ∧ j = r s
  · obtain ⟨rfl, rfl⟩ := e
    rw [hf] at hg
    obtain rfl := Option.some.inj hg
    rw [List.getElem?_set_self (by omega), ← hx, hy]
  · have hne : f ≠ g := by
      rintro rfl
      have := hF.inj hg hf
      obtain ⟨h2, h3⟩ := preSum_inj (fun s => (row s).length) hj' hlt this
      subst h2; exact e ⟨rfl, h3⟩
    rw [List.getElem?_set_ne hne]
    refine h.at' s' hs' j ?_ y g hy hg
    by_cases e2 : s' = s
    · subst e2
      rw [Function.update_self] at hj
      omega
    · rwa [Function.update_of_ne e2] at hj

/-- When everything has arrived, the batch is the local shuffle of what the servers
sent. -/
theorem Filled.all {S : Nat} {F B : List Nat} {row : Nat → List α} {view : List α} {r : Nat → Nat}
    (hF : IsShuffler F B (preSum (fun s => (row s).length) S)) (h : Filled S F row view r)
    (hr : ∀ s, s < S → r s = (row s).length) : view = pick B ((List.range S).flatMap row) := by
  have hlen := h.length
  have hFl := hF.length
  have hB := hF.back
  have hcl := concat_length S row
  have hmem : ∀ i ∈ B, i < ((List.range S).flatMap row).length := by
    intro i hi
    have := hF.permB.mem_iff.1 hi
    rw [List.mem_range] at this
    omega
  apply List.ext_getElem?
  intro j
  by_cases hj : j < view.length
  · obtain ⟨i, h1, h2, h3⟩ := hF.getB (j := j) (by omega)
    obtain ⟨s, k, h4, h5, rfl⟩ := preSum_find _ _ _ h3
    have hget := concat_get S row s k h4 h5
    rw [h.at' s h4 k (by rw [hr s h4]; exact h5) ((row s)[k]) j (List.getElem?_eq_getElem h5) h1]
    have e : (pick B ((List.range S).flatMap row))[j]? = ((List.range S).flatMap row)[preSum (fun s => (row s).length) s + k]? := by
      rw [pick_eq_getD _ _ (row s)[k] hmem, List.getElem?_map, h2]
      simp only [Option.map_some]
      rw [List.getD_eq_getElem?_getD, hget, List.getElem?_eq_getElem h5]
      rfl
    rw [e, hget, List.getElem?_eq_getElem h5]
  · rw [List.getElem?_eq_none (by omega), List.getElem?_eq_none]
    have := (pick_perm (l := (List.range S).flatMap row) (by rw [hcl]; exact hF.permB) : (pick B _).Perm _).length_eq
    omega

end DPPIR.Protocol
