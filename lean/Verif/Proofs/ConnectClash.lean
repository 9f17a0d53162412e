import Verif.Proofs.ConnectSetup

/-!
# Connection set-up: two sockets at one address
-/

namespace DPPIR.Connect
open DPPIR.Config
open DPPIR.Protocol (Node)

variable {ι A H α β : Type}

/-- The program cannot return without having bound a socket to `a`. -/
inductive MustListen (a : A) : CProc ι A α → Prop where
  | here {b : Nat} {k : CProc ι A α} : MustListen a (.listen a b k)
  | fault {e : Fault} : MustListen a (.fault e)
  | listen {a' : A} {b : Nat} {k : CProc ι A α} (h : MustListen a k) : MustListen a (.listen a' b k)
  | accept {a' : A} {k : Sock ι → CProc ι A α} (h : ∀ s, MustListen a (k s)) : MustListen a (.accept a' k)
  | connect {a' : A} {k : Sock ι → CProc ι A α} (h : ∀ s, MustListen a (k s)) : MustListen a (.connect a' k)
  | send {s : Sock ι} {b : Byte} {k : CProc ι A α} (h : MustListen a k) : MustListen a (.send s b k)
  | recv {s : Sock ι} {k : Byte → CProc ι A α} (h : ∀ b, MustListen a (k b)) : MustListen a (.recv s k)

theorem MustListen.after {a : A} (p : CProc ι A α) {f : α → CProc ι A β} (h : ∀ x, MustListen a (f x)) :
    MustListen a (p.bind f) := by
  induction p with
  | done x => exact h x
  | fault => exact .fault
  | listen _ _ _ ih => exact .listen ih
  | accept _ _ ih => exact .accept ih
  | connect _ _ ih => exact .connect ih
  | send _ _ _ ih => exact .send ih
  | recv _ _ ih => exact .recv ih

theorem MustListen.before {a : A} {p : CProc ι A α} (h : MustListen a p) (f : α → CProc ι A β) : MustListen a (p.bind f) := by
  induction h with
  | here => exact .here
  | fault => exact .fault
  | listen _ ih => exact .listen ih
  | accept _ ih => exact .accept ih
  | connect _ ih => exact .connect ih
  | send _ ih => exact .send ih
  | recv _ ih => exact .recv ih

/-- Process `i` must bind a socket to `a` still, or has done so. -/
def Bound (a : A) (n : CNet ι A α) (i : ι) : Prop := MustListen a (n.proc i) ∨ ∃ b, n.listener a = some (i, b)

variable [DecidableEq ι] [DecidableEq A]

theorem Bound.step {a : A} {n m : CNet ι A α} {i j : ι} (h : Bound a n i) (hs : CNet.Step j n m) : Bound a m i := by
  rcases h with h | ⟨b, h⟩
  · by_cases e : j = i
    · subst e
      cases hs with
      | listen hp free =>
        rename_i a' b' k
        by_cases ea : a' = a
        · subst ea
          exact Or.inr ⟨b', by simp⟩
        · left
          rw [hp] at h
          cases h with
          | here => exact absurd rfl ea
          | listen h => simpa using h
      | inUse hp taken => left; simp only [Function.update_self]; exact .fault
      | accept hp w => left; rw [hp] at h; cases h with | accept h => simpa using h _
      | connect hp up room => left; rw [hp] at h; cases h with | connect h => simpa using h _
      | send hp => left; rw [hp] at h; cases h with | send h => simpa using h
      | recv hp d => left; rw [hp] at h; cases h with | recv h => simpa using h _
    · left
      have : m.proc i = n.proc i := by
        cases hs <;> simp only [Function.update_of_ne (Ne.symm e)]
      rw [this]; exact h
  · right
    refine ⟨b, ?_⟩
    cases hs with
    | listen hp free =>
      rename_i a' b' k
      have : a ≠ a' := by rintro rfl; rw [h] at free; cases free
      simpa only [Function.update_of_ne this] using h
    | inUse => exact h
    | accept => exact h
    | connect => exact h
    | send => exact h
    | recv => exact h

theorem Bound.reach {a : A} {n m : CNet ι A α} {i : ι} (h : Bound a n i) (hr : CNet.Reach n m) : Bound a m i := by
  induction hr with
  | refl => exact h
  | step _ s ih => exact ih.step s

theorem Bound.returned {a : A} {n : CNet ι A α} {i : ι} {w : α} (h : Bound a n i) (hw : n.Returned i w) :
    ∃ b, n.listener a = some (i, b) := by
  rcases h with h | h
  · rw [hw] at h; cases h
  · exact h

/-- Two processes that bind to the same address never both return. -/
theorem clash_two {a : A} {prog : ι → CProc ι A α} {i j : ι} (hij : i ≠ j) (hi : MustListen a (prog i)) (hj : MustListen a (prog j))
    {n : CNet ι A α} (hr : CNet.Reach (CNet.start prog) n) {w w' : α} (h1 : n.Returned i w) (h2 : n.Returned j w') : False := by
  obtain ⟨b, e1⟩ := Bound.returned (Bound.reach (a := a) (Or.inl hi) hr) h1
  obtain ⟨b', e2⟩ := Bound.returned (Bound.reach (a := a) (Or.inl hj) hr) h2
  rw [e1] at e2
  cases e2
  exact hij rfl

/-- A process that binds to the same address twice does not return. -/
theorem clash_one {a : A} {prog : ι → CProc ι A α} {i : ι} {b : Nat} {k : CProc ι A α} (hi : prog i = .listen a b k) (hk : MustListen a k)
    {n : CNet ι A α} (hr : CNet.Reach (CNet.start prog) n) {w : α} (h1 : n.Returned i w) : False := by
  have : n.proc i = .listen a b k ∨ (MustListen a (n.proc i) ∧ n.listener a ≠ none) ∨ ∃ e, n.proc i = .fault e := by
    clear h1
    induction hr with
    | refl => exact Or.inl hi
    | step _ s ih =>
      rename_i m m' j _
      by_cases e : j = i
      · subst e
        rcases ih with ih | ⟨ih, hl⟩ | ⟨e, ih⟩
        · cases s with
          | listen hp free =>
            rw [ih] at hp
            cases hp
            right; left
            simpa using hk
          | inUse hp taken => exact Or.inr (Or.inr ⟨_, by simp only [Function.update_self]; rfl⟩)
          | accept hp => rw [ih] at hp; cases hp
          | connect hp => rw [ih] at hp; cases hp
          | send hp => rw [ih] at hp; cases hp
          | recv hp => rw [ih] at hp; cases hp
        · cases s with
          | listen hp free =>
            rename_i a' b' k'
            have ea : a' ≠ a := by rintro rfl; exact hl free
            right; left
            rw [hp] at ih
            cases ih with
            | here => exact absurd rfl ea
            | listen h => exact ⟨by simpa using h, by simpa only [Function.update_of_ne (Ne.symm ea)] using hl⟩
          | inUse hp taken => exact Or.inr (Or.inr ⟨_, by simp only [Function.update_self]; rfl⟩)
          | accept hp w => right; left; rw [hp] at ih; cases ih with | accept h => exact ⟨by simpa using h _, hl⟩
          | connect hp up room => right; left; rw [hp] at ih; cases ih with | connect h => exact ⟨by simpa using h _, hl⟩
          | send hp => right; left; rw [hp] at ih; cases ih with | send h => exact ⟨by simpa using h, hl⟩
          | recv hp d => right; left; rw [hp] at ih; cases ih with | recv h => exact ⟨by simpa using h _, hl⟩
        · cases s with
          | listen hp => rw [ih] at hp; cases hp
          | inUse hp => rw [ih] at hp; cases hp
          | accept hp => rw [ih] at hp; cases hp
          | connect hp => rw [ih] at hp; cases hp
          | send hp => rw [ih] at hp; cases hp
          | recv hp => rw [ih] at hp; cases hp
      · have hp : m'.proc i = m.proc i := by
          cases s <;> simp only [Function.update_of_ne (Ne.symm e)]
        rw [hp]
        rcases ih with ih | ⟨ih, hl⟩ | ih
        · exact Or.inl ih
        · refine Or.inr (Or.inl ⟨ih, ?_⟩)
          cases s with
          | listen hq free =>
            rename_i a' b' k'
            have ea : a' ≠ a := by rintro rfl; exact hl free
            simpa only [Function.update_of_ne (Ne.symm ea)] using hl
          | inUse => exact hl
          | accept => exact hl
          | connect => exact hl
          | send => exact hl
          | recv => exact hl
        · exact Or.inr (Or.inr ih)
  rw [show n.proc i = .done w from h1] at this
  rcases this with h | ⟨h, -⟩ | ⟨e, h⟩ <;> cases h

omit [DecidableEq ι] [DecidableEq A]

theorem mustListen_siblings (h : Hosts H) (c : Config) {k s : Nat} {v : ServerConfig} (hv : At c k s v) (h0 : 0 < s) :
    MustListen (h.here (k + 1, s) v.parallelPort) (siblings h c k s) := by
  unfold siblings parallelInit
  rw [if_pos h0, hv.siblingAt]
  exact .here

/-- After binding its port, a server with lower siblings must bind the other one. -/
theorem setup_listens (h : Hosts H) (c : Config) {k s : Nat} {v : ServerConfig} (hv : At c k s v) (hk : k < c.partyCount.toNat)
    (hs : s < c.serverCount.toNat) :
    ∃ p, setup h c (k + 1, s) = .listen (h.here (k + 1, s) v.port) 1 p ∧
      (0 < s → MustListen (h.here (k + 1, s) v.parallelPort) p) := by
  unfold setup
  rw [if_pos hs, if_neg (show ¬ k + 1 = 0 by omega)]
  by_cases hlt : k + 1 < c.partyCount.toNat
  · rw [if_pos hlt]
    unfold partySetup
    show ∃ p, (CProc.lift (serverAt c (k + 1 - 1) s)).bind _ = _ ∧ _
    rw [Nat.add_sub_cancel, hv.serverAt]
    show ∃ p, (backInit (h.here (k + 1, s) v.port)).bind _ = _ ∧ _
    rw [backInit_bind]
    refine ⟨_, rfl, fun h0 => .accept (fun b => ?_)⟩
    refine MustListen.after _ (fun w => MustListen.after _ (fun x => ?_))
    rw [if_neg (by omega)]
    exact (mustListen_siblings h c hv h0).before _
  · rw [if_neg hlt, if_pos (show k + 1 = c.partyCount.toNat by omega)]
    have hk : c.partyCount.toNat - 1 = k := by omega
    unfold backendSetup
    simp only [hk]
    rw [hv.serverAt]
    show ∃ p, (backInit (h.here (k + 1, s) v.port)).bind _ = _ ∧ _
    rw [backInit_bind]
    refine ⟨_, rfl, fun h0 => .accept (fun b => ?_)⟩
    rw [if_pos (by omega)]
    exact (mustListen_siblings h c hv h0).before _

variable [DecidableEq H]

/-- If all processes return, no two sockets listen at the same address. -/
theorem noClash_of_returned (h : Hosts H) (c : Config) (hin : ∀ k s v, At c k s v → k < c.partyCount.toNat ∧ s < c.serverCount.toNat)
    {n : CNet Node (Addr H) (Wiring Node)} (hr : CNet.Reach (CNet.start (setup h c)) n) (hall : ∀ i, ∃ w, n.Returned i w) :
    h.NoClash c := by
  intro k s v k' s' v' hv hv' hm
  obtain ⟨p, hp, hp'⟩ := setup_listens h c hv (hin _ _ _ hv).1 (hin _ _ _ hv).2
  obtain ⟨q, hq, hq'⟩ := setup_listens h c hv' (hin _ _ _ hv').1 (hin _ _ _ hv').2
  have hne : (k, s) ≠ (k', s') → ((k + 1, s) : Node) ≠ (k' + 1, s') := by
    intro h e
    simp only [Prod.mk.injEq] at e
    exact h (by rw [show k = k' by omega, e.2])
  have here : ∀ {x y : BitVec 32}, port16 x = port16 y → h.here (k + 1, s) x = h.here (k' + 1, s') y := by
    intro x y e; simp only [Hosts.here, hm, e]
  obtain ⟨w, hw⟩ := hall (k + 1, s)
  obtain ⟨w', hw'⟩ := hall (k' + 1, s')
  refine ⟨fun e ep => ?_, fun e h0 h0' ep => ?_, fun h0 ep => ?_⟩
  · refine clash_two (hne e) (a := h.here (k + 1, s) v.port) ?_ ?_ hr hw hw'
    · rw [hp]; exact .here
    · rw [hq, ← here ep]; exact .here
  · refine clash_two (hne e) (a := h.here (k + 1, s) v.parallelPort) ?_ ?_ hr hw hw'
    · rw [hp]; exact .listen (hp' h0)
    · rw [hq, here ep]; exact .listen (hq' h0')
  · by_cases e : (k, s) = (k', s')
    · cases e
      have hvv : v = v' := by
        have := hv.serverAt; rw [hv'.serverAt] at this; cases this; rfl
      subst hvv
      exact clash_one hp (by rw [here ep]; exact hp' h0) hr hw
    · refine clash_two (hne e) (a := h.here (k + 1, s) v.port) ?_ ?_ hr hw hw'
      · rw [hp]; exact .here
      · rw [hq, here ep]; exact .listen (hq' h0)

end DPPIR.Connect
