import Verif.Proofs.ConnectRun
import Verif.Spec.Connect

/-!
# Connection set-up: the programs of the configured processes
-/

namespace DPPIR.Connect
open DPPIR.Config
open DPPIR.Protocol (Node)

variable {ι A H : Type}

theorem CProc.bind_assoc {α β γ : Type} (p : CProc ι A α) (f : α → CProc ι A β) (g : β → CProc ι A γ) :
    (p.bind f).bind g = p.bind (fun a => (f a).bind g) := by
  induction p with
  | done => rfl
  | fault => rfl
  | listen _ _ _ ih => simp only [CProc.bind, ih]
  | accept _ _ ih => simp only [CProc.bind]; congr 1; funext s; exact ih s
  | connect _ _ ih => simp only [CProc.bind]; congr 1; funext s; exact ih s
  | send _ _ _ ih => simp only [CProc.bind, ih]
  | recv _ _ ih => simp only [CProc.bind]; congr 1; funext s; exact ih s

theorem bind_eq {α β : Type} (p : CProc ι A α) (f : α → CProc ι A β) : (p >>= f) = p.bind f := rfl
theorem pure_eq {α : Type} (a : α) : (pure a : CProc ι A α) = .done a := rfl

/-- Only the addresses of the siblings in the range matter. -/
theorem dialSiblings_congr (me : Nat) {addr addr' : Nat → Res A} : ∀ (n id : Nat) (t : Nat → Option (Sock ι)),
    (∀ u, id ≤ u → u < id + n → addr u = addr' u) → dialSiblings me addr n id t = dialSiblings me addr' n id t := by
  intro n
  induction n with
  | zero => intros; rfl
  | succ n ih =>
    intro id t h
    simp only [dialSiblings]
    rw [h id (le_refl _) (by omega)]
    congr 1; funext a; congr 1; funext s; congr 1
    exact ih _ _ (fun u h1 h2 => h u (by omega) (by omega))

/-- The configuration of a server, if there is one. -/
def conf (c : Config) (i : Node) : ServerConfig :=
  match serverAt c (i.1 - 1) i.2 with
  | .ok v => v
  | .error _ => ⟨0, 0, 0, []⟩

/-- The plan of a deployment. -/
def planOf (h : Hosts H) (c : Config) : Plan (Addr H) where
  P := c.partyCount.toNat
  S := c.serverCount.toNat
  ad i k := h.here i (if k then (conf c i).parallelPort else (conf c i).port)

/-- Every server of every party is configured. -/
def Complete (c : Config) : Prop := ∀ k s, k < c.partyCount.toNat → s < c.serverCount.toNat → ∃ v, At c k s v

theorem At.serverAt {c : Config} {k s : Nat} {v : ServerConfig} (h : At c k s v) : Connect.serverAt c k s = .ok v := by
  obtain ⟨p, h1, h2⟩ := h
  unfold Connect.serverAt
  rw [h1]; simp only; rw [h2]

theorem At.siblingAt {c : Config} {k s : Nat} {v : ServerConfig} (h : At c k s v) : Connect.siblingAt c k s = .ok v := by
  obtain ⟨p, h1, h2⟩ := h
  unfold Connect.siblingAt
  rw [h1]
  show rd p.servers s = _
  unfold rd
  rw [h2]

theorem At.conf {c : Config} {k s : Nat} {v : ServerConfig} (h : At c k s v) : Connect.conf c (k + 1, s) = v := by
  unfold Connect.conf
  rw [Nat.add_sub_cancel, h.serverAt]

/-- `siblings_.Initialize` is the plan's. -/
theorem siblings_eq (h : Hosts H) (c : Config) (hc : Complete c) (hr : h.Reaches c) {k s : Nat} (hk : k < c.partyCount.toNat)
    (hs : s < c.serverCount.toNat) (b x : Option (Sock Node)) :
    (siblings h c k s).bind (fun t => .done { back := b, next := x, sib := t }) = (planOf h c).sibPart (k + 1, s) b x := by
  have hd : ∀ t, dialSiblings (ι := Node) s (fun t => do let v ← siblingAt c k t; .ok (h.there (k + 1, s) v.ip v.parallelPort))
      (c.serverCount.toNat - s - 1) (s + 1) t =
      dialSiblings s (fun t => .ok ((planOf h c).ad (k + 1, t) true)) (c.serverCount.toNat - s - 1) (s + 1) t := by
    intro t
    refine dialSiblings_congr _ _ _ _ (fun u h1 h2 => ?_)
    obtain ⟨v, hv⟩ := hc k u hk (by omega)
    rw [hv.siblingAt]
    show Except.ok _ = Except.ok _
    simp only [planOf, if_true, hv.conf, Hosts.there, Hosts.here, (hr k u v hv).2 s (by omega)]
  obtain ⟨v, hv⟩ := hc k s hk hs
  unfold siblings parallelInit Plan.sibPart
  rw [if_neg (show ¬ (k + 1 = 0) by omega)]
  by_cases h0 : s > 0
  · rw [if_pos h0, if_pos (show ((k + 1, s) : Node).2 > 0 from h0)]
    rw [hv.siblingAt]
    show (CProc.listen (h.here (k + 1, s) v.parallelPort) s ((acceptLoop (h.here (k + 1, s) v.parallelPort) s []).bind
      (fun fds => (identify s fds (fun _ => none)).bind (fun t => dialSiblings s _ _ _ t)))).bind _ = _
    have ha : (planOf h c).ad (k + 1, s) true = h.here (k + 1, s) v.parallelPort := by
      simp only [planOf, if_true, hv.conf]
    simp only [CProc.bind]
    rw [ha]
    congr 1
    unfold Plan.accepts
    rw [ha, CProc.bind_assoc]
    congr 1
    funext fds
    rw [CProc.bind_assoc]
    unfold Plan.idents Plan.dials
    congr 1
    funext t
    rw [hd t]
    rfl
  · rw [if_neg h0, if_neg (show ¬ ((k + 1, s) : Node).2 > 0 from h0)]
    show (dialSiblings _ _ _ _ _).bind _ = _
    rw [hd]
    rfl

/-- A single server has no siblings. -/
theorem sibPart_one (h : Hosts H) (c : Config) {k : Nat} (h1 : c.serverCount.toNat = 1) (b x : Option (Sock Node)) :
    (planOf h c).sibPart (k + 1, 0) b x = .done { back := b, next := x } := by
  unfold Plan.sibPart
  rw [if_neg (show ¬ (k + 1 = 0) by omega), if_neg (show ¬ ((k + 1, 0) : Node).2 > 0 from by simp)]
  have : (planOf h c).S - 0 - 1 = 0 := by show c.serverCount.toNat - 0 - 1 = 0; omega
  unfold Plan.dials
  show (dialSiblings 0 _ ((planOf h c).S - 0 - 1) _ _).bind _ = _
  rw [this]
  rfl

theorem backInit_bind {β : Type} (a : A) (f : Sock ι → CProc ι A β) :
    (backInit a).bind f = .listen a 1 (.accept a f) := rfl

/-- Every process runs the plan. -/
theorem setup_eq (h : Hosts H) (c : Config) (hc : Complete c) (hP : 0 < c.partyCount.toNat) (hr : h.Reaches c) (i : Node)
    (hi : (planOf h c).In i) : setup h c i = (planOf h c).start i := by
  obtain ⟨l, s⟩ := i
  have hl : l ≤ c.partyCount.toNat := hi.1
  have hs : s < c.serverCount.toNat := hi.2
  have hx : l < c.partyCount.toNat → ∃ w, At c l s w ∧ (planOf h c).ad (l + 1, s) false = h.there (l, s) w.ip w.port := by
    intro hl
    obtain ⟨w, hw⟩ := hc l s hl hs
    refine ⟨w, hw, ?_⟩
    simp only [planOf, Hosts.here, Hosts.there, hw.conf, (hr l s w hw).1]
    rfl
  unfold setup Plan.start
  rw [if_pos hs]
  rcases Nat.eq_zero_or_pos l with rfl | h0
  · rw [if_pos rfl, if_pos rfl]
    obtain ⟨w, hw, ha⟩ := hx hP
    unfold clientSetup Plan.nextPart
    rw [if_pos (show (0 : Nat) < (planOf h c).P from hP), hw.serverAt, ha]
    rfl
  · rw [if_neg (show ¬ l = 0 by omega), if_neg (show ¬ l = 0 by omega)]
    obtain ⟨k, rfl⟩ : ∃ k, l = k + 1 := ⟨l - 1, by omega⟩
    obtain ⟨v, hv⟩ := hc k s (by omega) hs
    have hb : (planOf h c).ad (k + 1, s) false = h.here (k + 1, s) v.port := by
      simp only [planOf, hv.conf]; rfl
    by_cases hlt : k + 1 < c.partyCount.toNat
    · rw [if_pos hlt]
      obtain ⟨w, hw, ha⟩ := hx hlt
      unfold partySetup
      show (CProc.lift (serverAt c (k + 1 - 1) s)).bind _ = _
      rw [Nat.add_sub_cancel, hv.serverAt]
      show (backInit (h.here (k + 1, s) v.port)).bind _ = _
      rw [backInit_bind, hb]
      congr 2
      funext b
      unfold Plan.nextPart
      rw [if_pos (show k + 1 < (planOf h c).P from hlt), ha, hw.serverAt]
      show CProc.connect _ _ = _
      congr 1
      funext x
      by_cases h1 : c.serverCount.toNat = 1
      · obtain rfl : s = 0 := by omega
        rw [sibPart_one h c h1]
        show (CProc.done x).bind _ = _
        show (if c.serverCount.toNat = 1 then _ else _) = _
        rw [if_pos h1]; rfl
      · rw [← siblings_eq h c hc hr (by omega) hs]
        show (if c.serverCount.toNat = 1 then _ else _) = _
        rw [if_neg h1]; rfl
    · rw [if_neg hlt, if_pos (show k + 1 = c.partyCount.toNat by omega)]
      have hk : c.partyCount.toNat - 1 = k := by omega
      unfold backendSetup
      simp only [hk]
      rw [hv.serverAt]
      show (backInit (h.here (k + 1, s) v.port)).bind _ = _
      rw [backInit_bind, hb]
      congr 2
      funext b
      unfold Plan.nextPart
      rw [if_neg (show ¬ k + 1 < (planOf h c).P from hlt)]
      by_cases h1 : c.serverCount.toNat > 1
      · rw [if_pos h1, ← siblings_eq h c hc hr (by omega) hs]; rfl
      · obtain rfl : s = 0 := by omega
        rw [if_neg h1, sibPart_one h c (by omega)]; rfl

theorem setup_out (h : Hosts H) (c : Config) (i : Node) (hi : ¬ (planOf h c).In i) : setup h c i = .done {} := by
  unfold setup
  by_cases hs : i.2 < c.serverCount.toNat
  · have : ¬ i.1 ≤ c.partyCount.toNat := fun h' => hi ⟨h', hs⟩
    rw [if_pos hs, if_neg (by omega), if_neg (by omega), if_neg (by omega)]
  · rw [if_neg hs]

/-- Without clashes, all listening sockets of the plan have different addresses. -/
theorem planOf_distinct (h : Hosts H) (c : Config) (hc : Complete c) (hn : h.NoClash c) : (planOf h c).Distinct := by
  rintro ⟨l, s⟩ k ⟨l', s'⟩ k' ⟨⟨h1, h2⟩, h3, h4⟩ ⟨⟨h1', h2'⟩, h3', h4'⟩ e
  obtain ⟨l, rfl⟩ : ∃ k, l = k + 1 := ⟨l - 1, by simp only at h3; omega⟩
  obtain ⟨l', rfl⟩ : ∃ k, l' = k + 1 := ⟨l' - 1, by simp only at h3'; omega⟩
  obtain ⟨v, hv⟩ := hc l s (by simp only [planOf] at h1; omega) h2
  obtain ⟨v', hv'⟩ := hc l' s' (by simp only [planOf] at h1'; omega) h2'
  simp only [planOf, Hosts.here, hv.conf, hv'.conf, Prod.mk.injEq] at e
  obtain ⟨e1, e2⟩ := e
  have a := hn _ _ _ _ _ _ hv hv' e1
  have b := hn _ _ _ _ _ _ hv' hv e1.symm
  have hpair : ((l, s) : Nat × Nat) = (l', s') → ((l + 1, s) : Node) = (l' + 1, s') := by
    intro h; simp only [Prod.mk.injEq] at h ⊢; omega
  cases k <;> cases k' <;> simp only [if_true, if_false, Bool.false_eq_true] at e2
  · exact ⟨hpair (by by_contra hne; exact a.1 hne e2), rfl⟩
  · exact absurd e2 (a.2.2 (h4' rfl))
  · exact absurd e2.symm (b.2.2 (h4 rfl))
  · exact ⟨hpair (by by_contra hne; exact a.2.1 hne (h4 rfl) (h4' rfl) e2), rfl⟩

/-- The sockets of the plan. -/
theorem wired (h : Hosts H) (c : Config) (i : Node) (hi : i.2 < c.serverCount.toNat) : Wired c (planOf h c).link i ((planOf h c).wiring i) := by
  refine ⟨rfl, rfl, fun t => ?_⟩
  unfold Plan.wiring
  by_cases h0 : 0 < i.1
  · rw [if_pos h0]
    simp only [h0, true_and, Plan.tabD]
    have hS : (planOf h c).S = c.serverCount.toNat := rfl
    rw [hS]
    by_cases h1 : t < i.2
    · rw [if_pos h1, if_pos (show t < c.serverCount.toNat ∧ t ≠ i.2 by omega), if_pos h1]
    · rw [if_neg h1]
      by_cases h2 : i.2 < t ∧ t < c.serverCount.toNat
      · rw [if_pos h2, if_pos (show t < c.serverCount.toNat ∧ t ≠ i.2 by omega), if_neg h1]
      · rw [if_neg h2, if_neg (by omega)]
  · rw [if_neg h0, if_neg (fun h => h0 h.1)]

/-- A program that has not returned is about to do something. -/
theorem progAt_next_act {pl : Plan A} {i : Node} (hi : pl.In i) {s : St} (hok : pl.Ok i s) (hs : s ≠ .fin) :
    (∃ a b k, pl.progAt i s = .listen a b k) ∨ (∃ a k, pl.progAt i s = .accept a k) ∨ (∃ a k, pl.progAt i s = .connect a k) ∨
      (∃ x b k, pl.progAt i s = .send x b k) ∨ ∃ x k, pl.progAt i s = .recv x k := by
  cases s with
  | back0 => exact Or.inl ⟨_, _, _, rfl⟩
  | back1 => exact Or.inr (Or.inl ⟨_, _, rfl⟩)
  | next =>
    refine Or.inr (Or.inr (Or.inl ⟨pl.ad (i.1 + 1, i.2) false, fun x => pl.sibPart i (pl.backSock i) (some x), ?_⟩))
    show pl.nextPart i _ = _
    unfold Plan.nextPart
    rw [if_pos (show i.1 < pl.P from hok)]
  | sib0 => exact Or.inl ⟨_, _, _, rfl⟩
  | sibAcc l =>
    obtain ⟨-, h2, -⟩ := hok
    obtain ⟨m, hm⟩ : ∃ m, i.2 - l.length = m + 1 := ⟨i.2 - l.length - 1, by omega⟩
    refine Or.inr (Or.inl ?_)
    show ∃ a k, pl.accepts i _ _ (i.2 - l.length) _ = .accept a k
    rw [hm]
    exact ⟨_, _, rfl⟩
  | ident r l =>
    obtain ⟨-, h2, -⟩ := hok
    cases l with
    | nil => exact absurd rfl h2
    | cons t l => exact Or.inr (Or.inr (Or.inr (Or.inr ⟨_, _, rfl⟩)))
  | dial t =>
    obtain ⟨-, -, h3⟩ := hok
    obtain ⟨m, hm⟩ : ∃ m, pl.S - t = m + 1 := ⟨pl.S - t - 1, by omega⟩
    refine Or.inr (Or.inr (Or.inl ?_))
    show ∃ a k, pl.dials i _ _ (pl.S - t) _ _ = .connect a k
    rw [hm]
    exact ⟨_, _, rfl⟩
  | greet t => exact Or.inr (Or.inr (Or.inr (Or.inl ⟨_, _, _, rfl⟩)))
  | fin => exact absurd rfl hs

theorem progAt_not_fault {pl : Plan A} (i : Node) (hi : pl.In i) (s : St) (e : Fault) (hok : pl.Ok i s) :
    pl.progAt i s ≠ .fault e := by
  intro h
  by_cases hs : s = .fin
  · subst hs; cases h
  · rcases progAt_next_act hi hok hs with ⟨_, _, _, h'⟩ | ⟨_, _, h'⟩ | ⟨_, _, h'⟩ | ⟨_, _, _, h'⟩ | ⟨_, _, h'⟩ <;>
      rw [h'] at h <;> cases h

theorem progAt_done {pl : Plan A} (i : Node) (hi : pl.In i) {s : St} (hok : pl.Ok i s) {w : Wiring Node}
    (h : pl.progAt i s = .done w) : s = .fin ∧ w = pl.wiring i := by
  by_cases hs : s = .fin
  · subst hs; cases h; exact ⟨rfl, rfl⟩
  · rcases progAt_next_act hi hok hs with ⟨_, _, _, h'⟩ | ⟨_, _, h'⟩ | ⟨_, _, h'⟩ | ⟨_, _, _, h'⟩ | ⟨_, _, h'⟩ <;>
      rw [h'] at h <;> cases h

end DPPIR.Connect
