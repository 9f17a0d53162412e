import Verif.Spec.Stranger

/-!
# Connection set-up when others connect as well: all outcomes of a program
-/

namespace DPPIR.Connect
open DPPIR.Config
open DPPIR.Protocol (Node)

variable {ι A α β H : Type}

/-- However process `i` is fed: it stops only as `F` allows, and returns only what `D`
allows. -/
def CProc.All (i : ι) (F : Fault → Prop) (D : α → Prop) : CProc ι A α → Prop
  | .done a => D a
  | .fault e => F e
  | .listen _ _ k => F .assertFail ∧ k.All i F D
  | .accept _ k => ∀ x, (k ⟨x, true⟩).All i F D
  | .connect _ k => ∀ m, (k ⟨(i, m), false⟩).All i F D
  | .send _ _ k => k.All i F D
  | .recv _ k => ∀ b, (k b).All i F D

theorem CProc.All.bind {i : ι} {F : Fault → Prop} {D : α → Prop} {D' : β → Prop} {p : CProc ι A α} {f : α → CProc ι A β}
    (h : p.All i F D) (hf : ∀ a, D a → (f a).All i F D') : (p.bind f).All i F D' := by
  induction p with
  | done a => exact hf a h
  | fault e => exact h
  | listen a b k ih => exact ⟨h.1, ih h.2⟩
  | accept a k ih => exact fun x => ih _ (h x)
  | connect a k ih => exact fun m => ih _ (h m)
  | send s b k ih => exact ih h
  | recv s k ih => exact fun b => ih b (h b)

theorem CProc.All.mono {i : ι} {F : Fault → Prop} {D D' : α → Prop} {p : CProc ι A α} (h : p.All i F D) (hD : ∀ a, D a → D' a) :
    p.All i F D' := by
  induction p with
  | done a => exact hD a h
  | fault e => exact h
  | listen a b k ih => exact ⟨h.1, ih h.2⟩
  | accept a k ih => exact fun x => ih _ (h x)
  | connect a k ih => exact fun m => ih _ (h m)
  | send s b k ih => exact ih h
  | recv s k ih => exact fun b => ih b (h b)

theorem CProc.All.lift {i : ι} {F : Fault → Prop} {D : α → Prop} {x : Res α} (h : ∀ a, x = .ok a → D a) (hF : ∀ e, x = .error e → F e) :
    (CProc.lift x : CProc ι A α).All i F D := by
  cases x with
  | ok a => exact h a rfl
  | error e => exact hF e rfl

theorem CNet.Reach.all [DecidableEq ι] [DecidableEq A] {i : ι} {F : Fault → Prop} {D : α → Prop} {n m : CNet ι A α} (hr : CNet.Reach n m)
    (h : (n.proc i).All i F D) : (m.proc i).All i F D := by
  induction hr with
  | refl => exact h
  | @step m m' j _ s ih =>
    by_cases hj : i = j
    · subst hj
      cases s with
      | listen h1 free => rw [h1] at ih; simpa using ih.2
      | inUse h1 free =>
        rw [h1] at ih
        show (Function.update m.proc i _ i).All i F D
        rw [Function.update_self]
        exact ih.1
      | @accept _ _ c h1 w => rw [h1] at ih; simpa using ih c
      | connect h1 up room => rw [h1] at ih; simpa using ih _
      | send h1 =>
        rw [h1] at ih
        show (Function.update m.proc i _ i).All i F D
        rw [Function.update_self]
        exact ih
      | recv h1 data => rw [h1] at ih; simpa using ih _
    · cases s <;> simpa [Function.update_of_ne hj] using ih

/-! ### The pieces of set-up -/

theorem acceptLoop_all (i : ι) (F : Fault → Prop) (addr : A) : ∀ (n : Nat) (l : List (Sock ι)), (∀ s ∈ l, s.server = true) →
    (acceptLoop addr n l).All i F (fun r => r.length = l.length + n ∧ ∀ s ∈ r, s.server = true)
  | 0, l, hl => ⟨rfl, hl⟩
  | n + 1, l, hl => by
    intro x
    refine (acceptLoop_all i F addr n (l ++ [⟨x, true⟩]) ?_).mono ?_
    · intro s hs
      rcases List.mem_append.mp hs with h | h
      · exact hl s h
      · rw [List.mem_singleton.mp h]
    · rintro r ⟨h1, h2⟩
      refine ⟨?_, h2⟩
      rw [h1, List.length_append, List.length_singleton]
      omega

theorem identify_all (i : ι) (F : Fault → Prop) (hF : F .assertFail) (me : Nat) : ∀ (ss : List (Sock ι)) (t : Nat → Option (Sock ι)),
    (∀ s ∈ ss, s.server = true) → (∀ u, t u = none ∨ (u < me ∧ ∃ x, t u = some ⟨x, true⟩)) →
    (identify me ss t : CProc ι A _).All i F (fun r => ∀ u, r u = none ∨ (u < me ∧ ∃ x, r u = some ⟨x, true⟩))
  | [], t, _, ht => ht
  | s :: ss, t, hs, ht => by
    intro b
    by_cases hb : b.toNat < me
    · simp only [if_pos hb]
      refine identify_all i F hF me ss _ (fun s' h => hs s' (List.mem_cons_of_mem _ h)) ?_
      intro u
      by_cases hu : u = b.toNat
      · subst hu
        right
        refine ⟨hb, s.conn, ?_⟩
        rw [Function.update_self, ← hs s List.mem_cons_self]
      · rw [Function.update_of_ne hu]
        exact ht u
    · simp only [if_neg hb]
      exact hF

theorem dialSiblings_all (i : ι) (F : Fault → Prop) (me : Nat) (addr : Nat → Res A) : ∀ (n id : Nat) (t : Nat → Option (Sock ι)),
    (∀ u, id ≤ u → u < id + n → ∃ a, addr u = .ok a) →
    (dialSiblings me addr n id t).All i F (fun r => (∀ u, id ≤ u → u < id + n → ∃ m, r u = some ⟨(i, m), false⟩) ∧
      ∀ u, (u < id ∨ id + n ≤ u) → r u = t u)
  | 0, id, t, _ => ⟨fun u h1 h2 => by omega, fun _ _ => rfl⟩
  | n + 1, id, t, ha => by
    obtain ⟨a, e⟩ := ha id (le_refl _) (by omega)
    show (CProc.bind (CProc.lift (addr id)) _).All i F _
    rw [e]
    intro m
    refine (dialSiblings_all i F me addr n (id + 1) _ (fun u h1 h2 => ha u (by omega) (by omega))).mono ?_
    rintro r ⟨h1, h2⟩
    refine ⟨fun u h3 h4 => ?_, fun u h3 => ?_⟩
    · rcases Nat.eq_or_lt_of_le h3 with h | h
      · refine ⟨m, ?_⟩
        rw [h2 u (by omega), ← h, Function.update_self]
      · exact h1 u h (by omega)
    · rw [h2 u (by omega), Function.update_of_ne (by omega)]

theorem parallelInit_all (i : ι) (F : Fault → Prop) (hF : F .assertFail) (me servers : Nat) (own : Res A) (addr : Nat → Res A)
    (ho : 0 < me → ∃ a, own = .ok a) (ha : ∀ u, me < u → u < servers → ∃ a, addr u = .ok a) :
    (parallelInit me servers own addr).All i F (fun r => (∀ u, me < u → u < servers → ∃ m, r u = some ⟨(i, m), false⟩) ∧
      (∀ u, u < me → r u = none ∨ ∃ x, r u = some ⟨x, true⟩) ∧ ∀ u, (u = me ∨ (me < u ∧ servers ≤ u)) → r u = none) := by
  have hrest : ∀ t : Nat → Option (Sock ι), (∀ u, t u = none ∨ (u < me ∧ ∃ x, t u = some ⟨x, true⟩)) →
      (dialSiblings me addr (servers - me - 1) (me + 1) t).All i F (fun r =>
        (∀ u, me < u → u < servers → ∃ m, r u = some ⟨(i, m), false⟩) ∧
        (∀ u, u < me → r u = none ∨ ∃ x, r u = some ⟨x, true⟩) ∧ ∀ u, (u = me ∨ (me < u ∧ servers ≤ u)) → r u = none) := by
    intro t ht
    refine (dialSiblings_all i F me addr (servers - me - 1) (me + 1) t (fun u h1 h2 => ha u (by omega) (by omega))).mono ?_
    rintro r ⟨h1, h2⟩
    refine ⟨fun u h3 h4 => h1 u (by omega) (by omega), fun u h3 => ?_, fun u h3 => ?_⟩
    · rw [h2 u (by omega)]
      rcases ht u with h | h
      · exact Or.inl h
      · exact Or.inr h.2
    · rw [h2 u (by omega)]
      rcases ht u with h | h
      · exact h
      · omega
  unfold parallelInit
  split
  · rename_i h0
    obtain ⟨a, e⟩ := ho h0
    rw [e]
    refine CProc.All.bind (D := fun r : List (Sock ι) => ∀ s ∈ r, s.server = true) (p := listenOn a me) ⟨hF, ?_⟩ ?_
    · exact (acceptLoop_all i F a me [] (fun _ h => by cases h)).mono fun r hr => hr.2
    · intro l hl
      exact CProc.All.bind (identify_all i F hF me l _ hl (fun _ => Or.inl rfl)) hrest
  · exact hrest _ (fun _ => Or.inl rfl)

theorem backInit_all (i : ι) (F : Fault → Prop) (hF : F .assertFail) (a : A) :
    (backInit a : CProc ι A _).All i F (fun s => s.server = true) := by
  refine ⟨hF, ?_⟩
  intro x
  exact rfl

variable {h : Hosts H} {c : Config}

theorem serverAt_ok {k s : Nat} {v : ServerConfig} (hv : At c k s v) : serverAt c k s = .ok v := by
  obtain ⟨p, h1, h2⟩ := hv
  simp only [serverAt, h1, h2]

theorem siblingAt_ok {k s : Nat} {v : ServerConfig} (hv : At c k s v) : siblingAt c k s = .ok v := by
  obtain ⟨p, h1, h2⟩ := hv
  simp only [siblingAt, h1, rd, h2]

theorem siblings_all (F : Fault → Prop) (hF : F .assertFail) {k s : Nat} (hs : s < c.serverCount.toNat)
    (hat : ∀ t < c.serverCount.toNat, ∃ v, At c k t v) :
    (siblings h c k s).All (k + 1, s) F (fun r => (∀ u, s < u → u < c.serverCount.toNat → ∃ m, r u = some ⟨((k + 1, s), m), false⟩) ∧
      (∀ u, u < s → r u = none ∨ ∃ x, r u = some ⟨x, true⟩) ∧ ∀ u, (u = s ∨ (s < u ∧ c.serverCount.toNat ≤ u)) → r u = none) := by
  refine parallelInit_all _ F hF s _ _ _ ?_ ?_
  · intro _
    obtain ⟨v, hv⟩ := hat s hs
    exact ⟨_, by rw [siblingAt_ok hv]; rfl⟩
  · intro u _ h2
    obtain ⟨v, hv⟩ := hat u h2
    exact ⟨_, by rw [siblingAt_ok hv]; rfl⟩

theorem setup_all (F : Fault → Prop) (hF : F .assertFail) (hP : 0 < c.partyCount.toNat)
    (hat : ∀ k t, k < c.partyCount.toNat → t < c.serverCount.toNat → ∃ v, At c k t v) {i : Node} (hi : i.1 ≤ c.partyCount.toNat)
    (hs : i.2 < c.serverCount.toNat) : (setup h c i).All i F (SelfWired c i) := by
  obtain ⟨k, s⟩ := i
  simp only at hi hs
  unfold setup
  rw [if_pos hs]
  rcases Nat.eq_zero_or_pos k with h0 | h0
  · subst h0
    rw [if_pos rfl]
    obtain ⟨v, hv⟩ := hat 0 s hP hs
    show (CProc.bind (CProc.lift (serverAt c 0 s)) _).All _ _ _
    rw [serverAt_ok hv]
    intro m
    refine ⟨by simp, ?_, fun t h => absurd h (lt_irrefl _), fun t h => absurd h (lt_irrefl _), fun t _ => rfl⟩
    simp only [if_pos hP]
    exact ⟨m, rfl⟩
  · obtain ⟨j, rfl⟩ : ∃ j, k = j + 1 := ⟨k - 1, by omega⟩
    rw [if_neg (by omega)]
    have hso : ∀ {x : Sock Node}, x.server = true → ∃ y, x = ⟨y, true⟩ := fun {x} hx => ⟨x.conn, by rw [← hx]⟩
    by_cases hlt : j + 1 < c.partyCount.toNat
    · rw [if_pos hlt, Nat.add_sub_cancel]
      obtain ⟨v, hv⟩ := hat j s (by omega) hs
      obtain ⟨w, hw⟩ := hat (j + 1) s hlt hs
      show (CProc.bind (CProc.lift (serverAt c j s)) _).All _ _ _
      rw [serverAt_ok hv]
      refine CProc.All.bind (p := backInit (h.here (j + 1, s) v.port)) (backInit_all _ F hF _) ?_
      intro b hb
      obtain ⟨y, rfl⟩ := hso hb
      show (CProc.bind (CProc.lift (serverAt c (j + 1) s)) _).All _ _ _
      rw [serverAt_ok hw]
      intro m
      simp only [CProc.bind]
      split
      · rename_i h1
        refine ⟨by simp, by simp only [if_pos hlt]; exact ⟨m, rfl⟩, fun t _ h2 h3 => ?_, fun t _ h2 => ?_, fun t _ => rfl⟩
        · simp only at h2; omega
        · simp only at h2; omega
      · refine CProc.All.bind (siblings_all F hF hs (fun t ht => hat j t (by omega) ht)) ?_
        rintro r ⟨h1, h2, h3⟩
        refine ⟨by simp, by simp only [if_pos hlt]; exact ⟨m, rfl⟩, fun t _ => h1 t, fun t _ => h2 t, fun t ht => ?_⟩
        refine h3 t ?_
        simp only at ht
        omega
    · rw [if_neg hlt, if_pos (by omega)]
      obtain ⟨v, hv⟩ := hat j s (by omega) hs
      unfold backendSetup
      have ej : c.partyCount.toNat - 1 = j := by omega
      simp only [ej]
      rw [serverAt_ok hv]
      refine CProc.All.bind (p := backInit (h.here (j + 1, s) v.port)) (backInit_all _ F hF _) ?_
      intro b hb
      obtain ⟨y, rfl⟩ := hso hb
      split
      · refine CProc.All.bind (siblings_all F hF hs (fun t ht => hat j t (by omega) ht)) ?_
        rintro r ⟨h1, h2, h3⟩
        refine ⟨by simp, by simp only [if_neg hlt], fun t _ => h1 t, fun t _ => h2 t, fun t ht => ?_⟩
        refine h3 t ?_
        simp only at ht
        omega
      · rename_i h1
        refine ⟨by simp, by simp only [if_neg hlt], fun t _ h2 h3 => ?_, fun t _ h2 => ?_, fun t _ => rfl⟩
        · simp only at h2; omega
        · simp only at h2; omega

theorem CProc.All.trivial (i : ι) (p : CProc ι A α) : p.All i (fun _ => True) (fun _ => True) := by
  induction p with
  | done a => trivial
  | fault e => trivial
  | listen a b k ih => exact ⟨True.intro, ih⟩
  | accept a k ih => exact fun x => ih _
  | connect a k ih => exact fun m => ih _
  | send s b k ih => exact ih
  | recv s k ih => exact fun b => ih b

/-- A server first listens at its port and accepts one connection, which it then keeps as
the one with the previous party. -/
theorem setup_back {k s : Nat} {v : ServerConfig} (hk : k < c.partyCount.toNat) (hs : s < c.serverCount.toNat) (hv : At c k s v) :
    ∃ f, setup h c (k + 1, s) = .listen (h.here (k + 1, s) v.port) 1 (.accept (h.here (k + 1, s) v.port) f) ∧
      ∀ x, (f x).All (k + 1, s) (fun _ => True) (fun w => w.back = some x) := by
  unfold setup
  rw [if_pos hs, if_neg (by simp)]
  by_cases hlt : k + 1 < c.partyCount.toNat
  · rw [if_pos hlt]
    simp only [Nat.add_sub_cancel]
    unfold partySetup
    rw [serverAt_ok hv]
    refine ⟨_, rfl, fun x => ?_⟩
    refine CProc.All.bind (p := CProc.lift (serverAt c (k + 1) s)) (CProc.All.trivial _ _) fun w _ => ?_
    refine CProc.All.bind (p := connectTo (h.there (k + 1, s) w.ip w.port)) (CProc.All.trivial _ _) fun y _ => ?_
    split
    · exact rfl
    · exact CProc.All.bind (CProc.All.trivial _ _) fun r _ => rfl
  · rw [if_neg hlt, if_pos (by simp only; omega)]
    have ek : c.partyCount.toNat - 1 = k := by omega
    unfold backendSetup
    simp only [ek]
    rw [serverAt_ok hv]
    refine ⟨_, rfl, fun x => ?_⟩
    show CProc.All _ _ _ (if c.serverCount.toNat > 1 then _ else _)
    split
    · exact CProc.All.bind (CProc.All.trivial _ _) fun r _ => rfl
    · exact rfl

/-! ### Running a network by a schedule -/

/-- Process `i` takes a step, if it can; it accepts the oldest pending connection. -/
def CNet.stepOf [DecidableEq ι] [DecidableEq A] (n : CNet ι A α) (i : ι) : Option (CNet ι A α) :=
  match n.proc i with
  | .done _ => none
  | .fault _ => none
  | .listen a b k =>
    match n.listener a with
    | none => some { n with proc := Function.update n.proc i k, listener := Function.update n.listener a (some (i, b)) }
    | some _ => none
  | .accept a k =>
    match n.pending a with
    | [] => none
    | c :: l => some { n with proc := Function.update n.proc i (k ⟨c, true⟩), pending := Function.update n.pending a ((c :: l).erase c) }
  | .connect a k =>
    match n.listener a with
    | none => none
    | some (_, b) =>
      if (n.pending a).length < b then
        some { n with proc := Function.update n.proc i (k ⟨(i, n.dials i), false⟩), pending := Function.update n.pending a (n.pending a ++ [(i, n.dials i)]), dials := Function.update n.dials i (n.dials i + 1) }
      else none
  | .send s b k => some { n with proc := Function.update n.proc i k, chan := Function.update n.chan ⟨s.conn, !s.server⟩ (n.chan ⟨s.conn, !s.server⟩ ++ [b]) }
  | .recv s k =>
    match n.chan s with
    | [] => none
    | b :: rest => some { n with proc := Function.update n.proc i (k b), chan := Function.update n.chan s rest }

theorem CNet.stepOf_step [DecidableEq ι] [DecidableEq A] {n m : CNet ι A α} {i : ι} (h : n.stepOf i = some m) : CNet.Step i n m := by
  unfold CNet.stepOf at h
  split at h
  · cases h
  · cases h
  · rename_i a b k hp
    split at h
    · rename_i hl; cases h; exact .listen hp hl
    · cases h
  · rename_i a k hp
    split at h
    · cases h
    · rename_i c l hl
      cases h
      rw [← hl]
      exact .accept hp (by rw [hl]; exact List.mem_cons_self)
  · rename_i a k hp
    split at h
    · cases h
    · rename_i j b hl
      split at h
      · rename_i hr; cases h; exact .connect hp hl hr
      · cases h
  · rename_i s b k hp
    cases h; exact .send hp
  · rename_i s k hp
    split at h
    · cases h
    · rename_i b rest hc; cases h; exact .recv hp hc

/-- The processes take steps in the order of the list; one that cannot is passed over. -/
def CNet.exec [DecidableEq ι] [DecidableEq A] (n : CNet ι A α) : List ι → CNet ι A α
  | [] => n
  | i :: is => ((n.stepOf i).getD n).exec is

theorem CNet.Reach.trans [DecidableEq ι] [DecidableEq A] {a b c : CNet ι A α} (h : CNet.Reach a b) (h' : CNet.Reach b c) :
    CNet.Reach a c := by
  induction h' with
  | refl => exact h
  | step _ s ih => exact .step ih s

theorem CNet.exec_reach [DecidableEq ι] [DecidableEq A] : ∀ (is : List ι) (n : CNet ι A α), CNet.Reach n (n.exec is)
  | [], n => .refl
  | i :: is, n => by
    refine CNet.Reach.trans ?_ (exec_reach is _)
    cases h : n.stepOf i with
    | none => exact .refl
    | some m => exact .step .refl (CNet.stepOf_step h)

theorem CNet.Step.other [DecidableEq ι] [DecidableEq A] {n m : CNet ι A α} {i j : ι} (h : CNet.Step i n m) (hj : j ≠ i) :
    m.proc j = n.proc j := by
  cases h <;> exact Function.update_of_ne hj _ _

theorem CNet.exec_other [DecidableEq ι] [DecidableEq A] {j : ι} : ∀ (is : List ι) (n : CNet ι A α), j ∉ is →
    (n.exec is).proc j = n.proc j
  | [], _, _ => rfl
  | i :: is, n, hj => by
    rw [List.mem_cons, not_or] at hj
    refine (exec_other is _ hj.2).trans ?_
    cases h : n.stepOf i with
    | none => rfl
    | some m => exact (CNet.stepOf_step h).other hj.1

/-- Process `i` returned a result with a property. -/
def CNet.returnedWith (n : CNet ι A α) (i : ι) (P : α → Bool) : Bool :=
  match n.proc i with
  | .done w => P w
  | _ => false

theorem CNet.returned_of {n : CNet ι A α} {i : ι} {P : α → Bool} (h : n.returnedWith i P = true) : ∃ w, n.proc i = .done w ∧ P w = true := by
  unfold CNet.returnedWith at h
  split at h
  · rename_i w hw; exact ⟨w, hw, h⟩
  · cases h

end DPPIR.Connect
