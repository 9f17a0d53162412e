import Verif.Model.Crash
import Verif.Proofs.Barrier

/-!
# Nothing is read before it was sent

A message of `z` bytes goes out after the call that sends it, and the call that reads it
returns after its `z` bytes have come in. So at every moment no more messages have been
read than sent.
-/

namespace DPPIR.PNet
open DPPIR Proc

variable {ι O α β γ : Type}

/-- As `Later.split`, with what becomes of the first part. -/
theorem Later.cut {A B l : List (Seg ι O)} (h : Later (A ++ B) l) : (∃ A', l = A' ++ B ∧ Later A A') ∨ Later B l := by
  generalize hl : A ++ B = l0 at h
  induction h with
  | refl => exact .inl ⟨A, hl.symm, .refl _⟩
  | @drop l' x h ih =>
    rcases ih with ⟨A', h1, h2⟩ | h1
    · cases A' with
      | nil =>
        rw [List.nil_append] at h1
        exact .inr (by rw [← h1]; exact .drop (.refl _))
      | cons y A' => exact .inl ⟨A', (List.cons.inj h1).2, h2.drop⟩
    · exact .inr (.drop h1)
  | @shrink l' os os' is is' av av' h h2 h3 ih =>
    rcases ih with ⟨A', h1, h4⟩ | h1
    · cases A' with
      | nil =>
        rw [List.nil_append] at h1
        exact .inr (by rw [← h1]; exact .shrink (.refl _) h2 h3)
      | cons y A' =>
        obtain ⟨rfl, h5⟩ := List.cons.inj h1
        exact .inl ⟨.xchg os' is' av' :: A', congrArg (_ :: ·) h5, .shrink h4 h2 h3⟩
    · exact .inr (.shrink h1 h2 h3)

/-- What is left of single actions is the last ones of them. -/
theorem Later.acts {as : List (Act ι O)} {l : List (Seg ι O)} (h : Later (as.map Seg.act) l) : ∃ A B, as = A ++ B ∧ l = B.map Seg.act := by
  generalize hl : as.map Seg.act = l0 at h
  induction h with
  | refl => exact ⟨[], as, rfl, hl.symm⟩
  | @drop l' x h ih =>
    obtain ⟨A, B, h1, h2⟩ := ih
    cases B with
    | nil => cases h2
    | cons b B => exact ⟨A ++ [b], B, by simp [h1], (List.cons.inj h2).2⟩
  | @shrink l' os os' is is' av av' h h2 h3 ih =>
    obtain ⟨A, B, h1, h2⟩ := ih
    cases B with
    | nil => cases h2
    | cons b B => cases (List.cons.inj h2).1

/-- Number of observations of some kind. -/
def kind (f : O → Option β) (l : List (Seg ι O)) : Nat := ((segObs l).filterMap f).length

theorem kind_append (f : O → Option β) (l m : List (Seg ι O)) : kind f (l ++ m) = kind f l + kind f m := by
  simp [kind]

theorem kind_later {l m : List (Seg ι O)} (h : Later l m) (f : O → Option β) : kind f m ≤ kind f l :=
  (h.obs.sublist.filterMap f).length_le

variable [DecidableEq ι]

theorem later_of_suffix {X l : List (Seg ι O)} (h : l <:+ X) : Later X l := by
  obtain ⟨A, rfl⟩ := h
  induction A with
  | nil => exact .refl _
  | cons x A ih => exact (Later.drop (.refl _)).trans ih

/-- No more bytes go to `d` than `z` for every call. -/
def Calls (z : Nat) (f : O → Option β) (d : ι) (X : List (Seg ι O)) : Prop :=
  ∀ l, Later X l → (segSent d X).length + z * kind f l ≤ z * kind f X + (segSent d l).length

/-- At least `z` bytes come from `s` for every call that has returned. -/
def Returns (z : Nat) (g : O → Option β) (s : ι) (X : List (Seg ι O)) : Prop :=
  ∀ l, Later X l → z * kind g X + (segRcvd s l).length ≤ (segRcvd s X).length + z * kind g l

theorem Calls.append {z : Nat} {f : O → Option β} {d : ι} {X Y : List (Seg ι O)} (h : Calls z f d X) (h' : Calls z f d Y) :
    Calls z f d (X ++ Y) := by
  intro l hl
  rw [segSent_append, kind_append, List.length_append, Nat.mul_add]
  rcases hl.cut with ⟨A, rfl, h1⟩ | h1
  · have := h A h1
    rw [segSent_append, kind_append, List.length_append, Nat.mul_add]
    omega
  · have h2 := h' l h1
    have h3 := h [] (later_of_suffix List.nil_suffix)
    simp [kind] at h3
    have h4 : (segSent d X).length ≤ z * kind f X := h3
    omega

theorem Returns.append {z : Nat} {f : O → Option β} {d : ι} {X Y : List (Seg ι O)} (h : Returns z f d X) (h' : Returns z f d Y) :
    Returns z f d (X ++ Y) := by
  intro l hl
  rw [segRcvd_append, kind_append, List.length_append, Nat.mul_add]
  rcases hl.cut with ⟨A, rfl, h1⟩ | h1
  · have := h A h1
    rw [segRcvd_append, kind_append, List.length_append, Nat.mul_add]
    omega
  · have h2 := h' l h1
    have h3 := h [] (later_of_suffix List.nil_suffix)
    simp [kind] at h3
    have h4 : z * kind f X ≤ (segRcvd d X).length := h3
    omega

theorem Calls.quiet {z : Nat} {f : O → Option β} {d : ι} {X : List (Seg ι O)} (h : segSent d X = []) : Calls z f d X := by
  intro l hl
  have h1 := Nat.mul_le_mul_left z (kind_later hl f)
  rw [h]
  simp only [List.length_nil]
  omega

theorem Returns.quiet {z : Nat} {f : O → Option β} {d : ι} {X : List (Seg ι O)} (h : (segObs X).filterMap f = []) : Returns z f d X := by
  intro l hl
  have h1 := hl.rcvd d
  have h2 : kind f X = 0 := by rw [kind, h]; rfl
  rw [h2]
  omega

theorem segSent_acts (d : ι) (A : List (Act ι O)) : segSent d (A.map Seg.act) = sentTo d A := by
  induction A with
  | nil => rfl
  | cons a A ih =>
    rw [List.map_cons, segSent_cons, ih]
    cases a with
    | send d' b => rw [sentTo_send]; by_cases h : d' = d <;> simp [Seg.sent, h]
    | recv d' b => rfl
    | obs o => rfl

theorem segRcvd_acts (d : ι) (A : List (Act ι O)) : segRcvd d (A.map Seg.act) = rcvdFrom d A := by
  induction A with
  | nil => rfl
  | cons a A ih =>
    rw [List.map_cons, segRcvd_cons, ih]
    cases a with
    | recv d' b => rw [rcvdFrom_recv]; by_cases h : d' = d <;> simp [Seg.rcvd, h]
    | send d' b => rfl
    | obs o => rfl

/-- The calls come before their bytes. -/
theorem Calls.acts {z : Nat} {f : O → Option β} {d : ι} {as : List (Act ι O)}
    (h : ∀ A B, as = A ++ B → (sentTo d A).length ≤ z * ((obsOf A).filterMap f).length) : Calls z f d (as.map Seg.act) := by
  intro l hl
  obtain ⟨A, B, rfl, rfl⟩ := hl.acts
  have := h A B rfl
  have e := congrArg List.length (segSent_acts d A)
  have e2 : kind f (A.map (Seg.act (ι := ι) (O := O))) = ((obsOf A).filterMap f).length := by rw [kind, segObs_acts]
  rw [List.map_append, segSent_append, kind_append, List.length_append, Nat.mul_add, e, e2]
  omega

/-- A message that is read: its bytes, then calls among which at most one of the kind. -/
theorem Returns.message {z : Nat} {f : O → Option β} {d : ι} (bytes : List Byte) (os : List O) (hb : z ≤ bytes.length)
    (ho : (os.filterMap f).length ≤ 1) :
    Returns z f d ((bytes.map (Act.recv d) ++ os.map Act.obs : List (Act ι O)).map Seg.act) := by
  intro l hl
  have e1 : ∀ l : List Byte, segRcvd d ((l.map (Act.recv d)).map (Seg.act (ι := ι) (O := O))) = l := by
    intro l
    induction l with
    | nil => rfl
    | cons b l ih => rw [List.map_cons, List.map_cons, segRcvd_cons, ih]; simp [Seg.rcvd]
  have e2 : ∀ l : List O, segRcvd d ((l.map Act.obs).map (Seg.act (ι := ι) (O := O))) = [] := by
    intro l
    induction l with
    | nil => rfl
    | cons b l ih => rw [List.map_cons, List.map_cons, segRcvd_cons, ih]; rfl
  have e3 : ∀ l : List Byte, kind f ((l.map (Act.recv d)).map (Seg.act (ι := ι) (O := O))) = 0 := by
    intro l; rw [kind, segObs_acts, obsOf_map_recv]; rfl
  rw [List.map_append] at hl ⊢
  rw [segRcvd_append, kind_append, e1, e2, e3, List.append_nil, Nat.zero_add]
  have e4 : kind f ((os.map Act.obs).map (Seg.act (ι := ι) (O := O))) ≤ 1 := by
    rw [kind, segObs_acts]
    refine le_trans (le_of_eq ?_) ho
    congr 2
    clear hl ho
    induction os with
    | nil => rfl
    | cons o os ih => rw [List.map_cons, obsOf_obs, ih]
  rcases hl.cut with ⟨A, rfl, h1⟩ | h1
  · rw [segRcvd_append, kind_append, e2, List.append_nil, Nat.mul_add]
    have := h1.rcvd d
    rw [e1] at this
    omega
  · have := h1.rcvd d
    rw [e2, List.length_nil] at this
    have := Nat.mul_le_mul_left z e4
    omega

theorem Returns.messages {δ : Type} {z : Nat} {f : O → Option β} {d : ι} (l : List δ) (m : δ → List (Act ι O))
    (h : ∀ x ∈ l, Returns z f d ((m x).map Seg.act)) : Returns z f d ((l.flatMap m).map Seg.act) := by
  induction l with
  | nil => exact Returns.quiet rfl
  | cons x l ih =>
    rw [List.flatMap_cons, List.map_append]
    exact (h x List.mem_cons_self).append (ih (fun y hy => h y (List.mem_cons_of_mem _ hy)))

/-- At no moment has one read more messages than the other one has sent. -/
theorem causal {z : Nat} (hz : 0 < z) {f : O → Option β} {g : O → Option γ} {i j : ι} {pre post pre' post' li lj : List (Seg ι O)}
    {si sj : List O} (hi : Later (pre ++ post) li) (hj : Later (pre' ++ post') lj) (ei : si ++ segObs li = segObs (pre ++ post))
    (ej : sj ++ segObs lj = segObs (pre' ++ post')) (hc : (segSent j li).length ≤ (segRcvd i lj).length)
    (ht : (segRcvd i post').length ≤ (segSent j post).length) (hp : (segObs pre').filterMap g = []) (hs : Calls z f j post)
    (hr : Returns z g i post') : (sj.filterMap g).length ≤ (si.filterMap f).length := by
  have ki : (si.filterMap f).length + kind f li = kind f pre + kind f post := by
    have := congrArg (fun l => (l.filterMap f).length) ei
    simpa [kind] using this
  have kj : (sj.filterMap g).length + kind g lj = kind g post' := by
    have := congrArg (fun l => (l.filterMap g).length) ej
    simpa [kind, hp] using this
  have A : (segSent j post).length ≤ z * (si.filterMap f).length + (segSent j li).length := by
    rcases hi.cut with ⟨A, rfl, -⟩ | h1
    · rw [segSent_append, List.length_append]
      omega
    · have h2 := hs li h1
      have h3 := kind_later h1 f
      obtain ⟨y, hy⟩ : ∃ y, (si.filterMap f).length = y + (kind f post - kind f li) := ⟨kind f pre, by omega⟩
      rw [hy, Nat.mul_add, Nat.mul_sub]
      have := Nat.mul_le_mul_left z h3
      omega
  rcases hj.cut with ⟨A', rfl, -⟩ | h1
  · rw [kind_append] at kj
    omega
  · have h2 := hr lj h1
    have h3 : z * (sj.filterMap g).length ≤ z * (si.filterMap f).length := by
      rw [← kj, Nat.mul_add] at h2
      omega
    exact Nat.le_of_mul_le_mul_left h3 hz

/-- Who has stopped stays so and sees nothing any more. -/
theorem CrashReach.down {cap : ι × ι → Nat} {n m : PNet ι O α} (h : CrashReach cap n m) {i : ι} (hf : n.Faulted i) :
    m.Faulted i ∧ m.seen i = n.seen i := by
  induction h with
  | refl => exact ⟨hf, rfl⟩
  | @step m m' h s ih =>
    obtain ⟨⟨e, he⟩, h2⟩ := ih
    cases s with
    | step j hs =>
      have hij : i ≠ j := by
        rintro rfl
        cases hs <;> simp_all
      cases hs with
      | obs h1 => exact ⟨⟨e, by simpa [Function.update_of_ne hij] using he⟩, by simpa [Function.update_of_ne hij] using h2⟩
      | _ => exact ⟨⟨e, by simpa [Function.update_of_ne hij] using he⟩, h2⟩
    | crash j =>
      by_cases hij : i = j
      · subst hij
        exact ⟨⟨.exception, by simp⟩, h2⟩
      · exact ⟨⟨e, by simpa [Function.update_of_ne hij] using he⟩, h2⟩
    | lose a b down l rest => exact ⟨⟨e, he⟩, h2⟩

theorem CrashReach.trans {cap : ι × ι → Nat} {n m k : PNet ι O α} (h : CrashReach cap n m) (h' : CrashReach cap m k) : CrashReach cap n k := by
  induction h' with
  | refl => exact h
  | step _ s ih => exact .step ih s

end DPPIR.PNet

namespace DPPIR.Protocol
open DPPIR Proc PNet Onion Spec Props Shuffle

variable {box : SealedBox}

section
variable {ι : Type} [DecidableEq ι] {β : Type}

theorem sentTo_le_comm (d : ι) (A : List (PAct ι)) : (sentTo d A).length ≤ (comm A).length := by
  rw [← sentTo_comm]
  exact List.length_filterMap_le _ _

theorem Sends.calls {d : ι} {as : List (PAct ι)} {bytes : List Byte} {os : List Obs} (h : Sends d as bytes os) {z : Nat} {f : Obs → Option β}
    (hf : ∀ o ∈ os, o.size ≤ z * ([o].filterMap f).length) (j : ι) : Calls z f j (as.map Seg.act) := by
  refine Calls.acts (fun A B e => (sentTo_le_comm j A).trans ?_)
  have h1 := h.ordered A B e
  rw [Nat.zero_add] at h1
  refine h1.trans ?_
  have h2 : obsOf A <+: os := by rw [← h.obs, e, obsOf_append]; exact List.prefix_append _ _
  unfold weight
  have h3 : ∀ o ∈ obsOf A, o.size ≤ z * ([o].filterMap f).length := fun o ho => hf o (h2.subset ho)
  generalize obsOf A = l at h3
  induction l with
  | nil => simp
  | cons o l ih =>
    have := ih (fun o ho => h3 o (List.mem_cons_of_mem _ ho))
    have := h3 o List.mem_cons_self
    rw [← List.singleton_append, List.map_append, List.filterMap_append, List.sum_append, List.length_append, Nat.mul_add]
    simp only [List.map_cons, List.map_nil, List.sum_singleton]
    omega

theorem returns_queries (d : ι) (l : List QTicket) {f : Obs → Option β} :
    Returns querySize f d ((l.flatMap (fun q => aRecvQuery d q.query)).map Seg.act) :=
  Returns.messages _ _ (fun q _ => Returns.message q.query.encode [Obs.recvQuery q.query] q.query.encode_length.ge
    (List.length_filterMap_le _ _))

theorem returns_responses (d : ι) (l : List QTicket) {f : Obs → Option β} :
    Returns responseSize f d ((l.flatMap (fun q => aRecvResponse d q.resp)).map Seg.act) :=
  Returns.messages _ _ (fun q _ => Returns.message q.resp.encode [Obs.recvResponse q.resp] q.resp.encode_length.ge
    (List.length_filterMap_le _ _))

end

namespace Grid
section
variable {g : Grid box} {offline : Bool} {n : PNet Node Obs Unit} {pre post L : Node → List (Seg Node Obs)}

/-- Somebody's online part calls before it sends queries, and before it sends responses. -/
theorem Where.calls_query (w : g.Where offline n pre post L) {β : Type} {f : Obs → Option β} (hf : ∀ q, (f (.sendQuery q)).isSome = true)
    {k s : Nat} (hk : k < g.parties) (hs : s < g.servers) : Calls querySize f (k + 1, s) (post (k, s)) := by
  have h1 : ∀ q, ([Obs.sendQuery q].filterMap f).length = 1 := by
    intro q
    obtain ⟨x, hx⟩ := Option.isSome_iff_exists.1 (hf q)
    simp [hx]
  rcases Nat.eq_zero_or_pos k with rfl | h0
  · obtain ⟨sq, e, h2⟩ := ((w.does 0 s hs).cuts rfl).client rfl
    rw [e, List.map_append]
    refine (h2.calls ?_ _).append (Calls.quiet (segSent_of_recvs (comm_recvs (1, s) _ _ (fun j => (g.clientQs offline s j).resp.encode)
      (by intro j; simp [aRecvResponse])) _))
    intro o ho
    obtain ⟨q, -, ho⟩ := List.mem_flatMap.1 ho
    rcases List.mem_cons.1 ho with rfl | ho
    · exact Nat.zero_le _
    · rw [List.mem_singleton.1 ho, h1]
      exact le_refl _
  · obtain ⟨sq, sr, e, h2, h3⟩ := ((w.does k s hs).cuts rfl).party h0 hk
    rw [e]
    have hr : ∀ o, Calls querySize f (k + 1, s) [rseg (lvl g.servers k) (sibs k) o s] := by
      intro o
      refine Calls.quiet ?_
      rw [segSent_cons, rseg_sent_other _ _ _ _ _ _ (by omega)]
      rfl
    refine (Calls.quiet (segSent_of_recvs (comm_queries _ _) _)).append ((hr _).append (((hr _).append (hr _)).append
      ((h2.calls ?_ _).append ((Calls.quiet (segSent_of_recvs (comm_responses _ _) _)).append (((hr _).append (hr _)).append
      ((hr _).append (Calls.quiet ?_)))))))
    · intro o ho
      obtain ⟨q, -, rfl⟩ := List.mem_map.1 ho
      rw [h1]
      exact le_refl _
    · rw [segSent_of_sends h3.comm, if_neg (by intro e; have := congrArg Prod.fst e; simp at this)]

theorem Where.calls_response (w : g.Where offline n pre post L) {β : Type} {f : Obs → Option β} (hf : ∀ q, (f (.sendResponse q)).isSome = true)
    {k s : Nat} (hk : k < g.parties) (hs : s < g.servers) : Calls responseSize f (k, s) (post (k + 1, s)) := by
  have h1 : ∀ q, ([Obs.sendResponse q].filterMap f).length = 1 := by
    intro q
    obtain ⟨x, hx⟩ := Option.isSome_iff_exists.1 (hf q)
    simp [hx]
  rcases Nat.lt_or_ge (k + 1) g.parties with hp | hp
  · obtain ⟨sq, sr, e, h2, h3⟩ := ((w.does (k + 1) s hs).cuts rfl).party (by omega) hp
    rw [e]
    have hr : ∀ o, Calls responseSize f (k, s) [rseg (lvl g.servers (k + 1)) (sibs (k + 1)) o s] := by
      intro o
      refine Calls.quiet ?_
      rw [segSent_cons, rseg_sent_other _ _ _ _ _ _ (by omega)]
      rfl
    refine (Calls.quiet (segSent_of_recvs (comm_queries _ _) _)).append ((hr _).append (((hr _).append (hr _)).append
      ((Calls.quiet ?_).append ((Calls.quiet (segSent_of_recvs (comm_responses _ _) _)).append (((hr _).append (hr _)).append
      ((hr _).append (h3.calls ?_ _)))))))
    · rw [segSent_of_sends h2.comm, if_neg (by intro e; have := congrArg Prod.fst e; simp at this; omega)]
    · intro o ho
      obtain ⟨q, -, rfl⟩ := List.mem_map.1 ho
      rw [h1]
      exact le_refl _
  · obtain ⟨sr, e, h2⟩ := ((w.does (k + 1) s hs).cuts rfl).backend (by omega)
    rw [e, List.map_append]
    refine (Calls.quiet (segSent_of_recvs (comm_queries _ _) _)).append (h2.calls ?_ _)
    intro o ho
    obtain ⟨q, -, ho⟩ := List.mem_flatMap.1 ho
    rcases List.mem_cons.1 ho with rfl | ho
    · exact Nat.zero_le _
    · rw [List.mem_singleton.1 ho, h1]
      exact le_refl _

theorem filterMap_map_none {γ β : Type} {f : Obs → Option β} {o : γ → Obs} (l : List γ) (h : ∀ x, f (o x) = none) :
    (l.map o).filterMap f = [] := by
  rw [List.filterMap_map, List.filterMap_eq_nil_iff]
  exact fun x _ => h x

theorem filterMap_flatMap_none {γ β : Type} {f : Obs → Option β} {o : γ → List Obs} (l : List γ) (h : ∀ x, (o x).filterMap f = []) :
    (l.flatMap o).filterMap f = [] := by
  rw [List.filterMap_flatMap, List.flatMap_eq_nil_iff]
  exact fun x _ => h x

theorem Where.returns_query (w : g.Where offline n pre post L) {β : Type} {f : Obs → Option β} (h1 : ∀ q, f (.sendQuery q) = none)
    (h2 : ∀ q, f (.recvResponse q) = none) (h3 : ∀ q, f (.sendResponse q) = none) (h4 : ∀ q, f (.lookup q) = none)
    {k s : Nat} (hk : k < g.parties) (hs : s < g.servers) : Returns querySize f (k, s) (post (k + 1, s)) := by
  rcases Nat.lt_or_ge (k + 1) g.parties with hp | hp
  · obtain ⟨sq, sr, e, a2, a3⟩ := ((w.does (k + 1) s hs).cuts rfl).party (by omega) hp
    rw [e]
    refine (returns_queries _ _).append (Returns.quiet ?_)
    simp only [segObs_append, segObs_cons, segObs_acts, obs_responses, a2.obs, a3.obs, segObs_nil, List.filterMap_append,
      filterMap_map_none _ (fun q : QTicket => h1 q.query), filterMap_map_none _ (fun q : QTicket => h2 q.resp),
      filterMap_map_none _ (fun q : QTicket => h3 q.resp)]
    simp [Seg.obsv, rseg]
  · obtain ⟨sr, e, a2⟩ := ((w.does (k + 1) s hs).cuts rfl).backend (by omega)
    rw [e, List.map_append]
    refine (returns_queries _ _).append (Returns.quiet ?_)
    rw [segObs_acts, a2.obs]
    exact filterMap_flatMap_none _ (fun q => by simp [h3, h4])

theorem Where.returns_response (w : g.Where offline n pre post L) {β : Type} {f : Obs → Option β} (h1 : ∀ q, f (.sendQuery q) = none)
    (h2 : ∀ q, f (.recvQuery q) = none) (h3 : ∀ q, f (.sendResponse q) = none) (h4 : ∀ q, f (.want q) = none)
    (h5 : ∀ q, f (.result q) = none) {k s : Nat} (hk : k < g.parties) (hs : s < g.servers) :
    Returns responseSize f (k + 1, s) (post (k, s)) := by
  rcases Nat.eq_zero_or_pos k with rfl | h0
  · obtain ⟨sq, e, a2⟩ := ((w.does 0 s hs).cuts rfl).client rfl
    rw [e, List.map_append]
    refine Returns.append (Returns.quiet ?_) (Returns.messages _ _ (fun j _ => ?_))
    · rw [segObs_acts, a2.obs]
      exact filterMap_flatMap_none _ (fun q => by simp [h1, h4])
    · have := Returns.message (ι := Node) (f := f) (d := (1, s)) (g.clientQs offline s j).resp.encode
        [Obs.recvResponse (g.clientQs offline s j).resp, Obs.result (Database.row (g.clientQs offline s j).key)]
        (Response.encode_length _).ge (by
          rw [List.filterMap_cons]
          split
          · simp [h5]
          · simp [h5])
      simpa [aRecvResponse] using this
  · obtain ⟨sq, sr, e, a2, a3⟩ := ((w.does k s hs).cuts rfl).party h0 hk
    rw [e]
    have hr : ∀ o, Returns responseSize f (k + 1, s) [rseg (lvl g.servers k) (sibs k) o s] := fun o => Returns.quiet rfl
    refine (Returns.quiet ?_).append ((hr _).append (((hr _).append (hr _)).append
      ((Returns.quiet ?_).append ((returns_responses _ _).append (((hr _).append (hr _)).append
      ((hr _).append (Returns.quiet ?_)))))))
    · rw [segObs_acts, obs_queries]
      exact filterMap_map_none _ (fun q : QTicket => h2 q.query)
    · rw [segObs_acts, a2.obs]
      exact filterMap_map_none _ (fun q : QTicket => h1 q.query)
    · rw [segObs_acts, a3.obs]
      exact filterMap_map_none _ (fun q : QTicket => h3 q.resp)

theorem Where.chan_le (w : g.Where offline n pre post L) (i j : Node) : (segSent j (L i)).length ≤ (segRcvd i (L j)).length := by
  have := congrArg List.length (w.inv.chan i j)
  rw [List.length_append] at this
  omega

end

variable {g : Grid box} (h : g.Valid) (offline : Bool) (hd : offline = true → g.DistinctTags) (cap : Node × Node → Nat)
  (n : PNet Node Obs Unit) (hn : Reach cap (g.net offline true) n)
include h hd hn

theorem queries_causal {k s : Nat} (hk : k < g.parties) (hs : s < g.servers) :
    queriesRead (n.seen (k + 1, s)) <+: queriesSent (n.seen (k, s)) := by
  obtain ⟨pre, post, L, a1, a2, a3⟩ := where_are h offline hd cap n hn
  have w : g.Where offline n pre post L := ⟨a1, a2, a3⟩
  have h1 := Chain.queriesRead_prefix (w.prefix (k + 1) s hs)
  rw [queriesRead_pos g offline s k hk] at h1
  have h2 := Chain.queriesSent_prefix (w.prefix k s hs)
  have h3 : queriesSent (g.obsAll offline true k s) = (g.qs offline k s).map QTicket.query := by
    rcases k with _ | k
    · exact queriesSent_client g offline s
    · exact queriesSent_party g offline s k hk
  rw [h3] at h2
  refine List.prefix_of_prefix_length_le h1 h2 ?_
  refine causal (z := querySize) (by decide) (w.later (k, s)) (w.later (k + 1, s)) (w.inv.seen (k, s)) (w.inv.seen (k + 1, s)) (w.chan_le _ _)
    (w.bytes h k (k + 1) s s hs hs).ge ?_ (w.calls_query (fun _ => rfl) hk hs)
    (w.returns_query (fun _ => rfl) (fun _ => rfl) (fun _ => rfl) (fun _ => rfl) hk hs)
  rw [(w.does _ s hs).obsPre]
  exact obsOff_none (by intros; rfl) (by intros; rfl) rfl rfl (by intros; rfl) (by intros; rfl) (by intros; rfl) _ _

theorem responses_causal {k s : Nat} (hk : k < g.parties) (hs : s < g.servers) :
    responsesRead (n.seen (k, s)) <+: responsesSent (n.seen (k + 1, s)) := by
  obtain ⟨pre, post, L, a1, a2, a3⟩ := where_are h offline hd cap n hn
  have w : g.Where offline n pre post L := ⟨a1, a2, a3⟩
  have h1 := Chain.responsesSent_prefix (w.prefix (k + 1) s hs)
  rw [responsesSent_pos g offline s k hk] at h1
  have h2 := Chain.responsesRead_prefix (w.prefix k s hs)
  have h3 : responsesRead (g.obsAll offline true k s) = (g.qs offline k s).map QTicket.resp := by
    rcases k with _ | k
    · exact responsesRead_client g offline s
    · exact responsesRead_party g offline s k hk
  rw [h3] at h2
  refine List.prefix_of_prefix_length_le h2 h1 ?_
  refine causal (z := responseSize) (by decide) (w.later (k + 1, s)) (w.later (k, s)) (w.inv.seen (k + 1, s)) (w.inv.seen (k, s)) (w.chan_le _ _)
    (w.bytes h (k + 1) k s s hs hs).ge ?_ (w.calls_response (fun _ => rfl) hk hs)
    (w.returns_response (fun _ => rfl) (fun _ => rfl) (fun _ => rfl) (fun _ => rfl) (fun _ => rfl) hk hs)
  rw [(w.does _ s hs).obsPre]
  exact obsOff_none (by intros; rfl) (by intros; rfl) rfl rfl (by intros; rfl) (by intros; rfl) (by intros; rfl) _ _

end Grid

namespace Chain
section
variable {c : Chain box} {offline : Bool} {n : Net Nat Obs} {pre post pr rest : Nat → List (PAct Nat)}

theorem calls_quiet {z : Nat} {β : Type} {f : Obs → Option β} {d : Nat} {as : List (PAct Nat)} (h : sentTo d as = []) :
    Calls z f d (as.map Seg.act) := Calls.quiet (by rw [segSent_acts, h])

theorem Where.calls_query (w : c.Where offline n pre post pr rest) {β : Type} {f : Obs → Option β}
    (hf : ∀ q, (f (.sendQuery q)).isSome = true) {k : Nat} (hk : k < c.parties) : Calls querySize f (k + 1) ((post k).map Seg.act) := by
  have h1 : ∀ q, ([Obs.sendQuery q].filterMap f).length = 1 := by
    intro q
    obtain ⟨x, hx⟩ := Option.isSome_iff_exists.1 (hf q)
    simp [hx]
  rcases Nat.eq_zero_or_pos k with rfl | h0
  · obtain ⟨sq, e, h2⟩ := ((w.does 0).cuts rfl).client rfl
    rw [e, List.map_append]
    refine (h2.calls ?_ _).append (calls_quiet (sentTo_of_recvs (comm_recvs 1 _ _ (fun j => (c.clientQs offline j).resp.encode)
      (by intro j; simp [aRecvResponse])) _))
    intro o ho
    obtain ⟨q, -, ho⟩ := List.mem_flatMap.1 ho
    rcases List.mem_cons.1 ho with rfl | ho
    · exact Nat.zero_le _
    · rw [List.mem_singleton.1 ho, h1]
      exact le_refl _
  · obtain ⟨sq, sr, e, h2, h3⟩ := ((w.does k).cuts rfl).party h0 hk
    rw [e, List.map_append, List.map_append, List.map_append]
    refine (calls_quiet (sentTo_of_recvs (comm_queries _ _) _)).append ((h2.calls ?_ _).append
      ((calls_quiet (sentTo_of_recvs (comm_responses _ _) _)).append (calls_quiet ?_)))
    · intro o ho
      obtain ⟨q, -, rfl⟩ := List.mem_map.1 ho
      rw [h1]
      exact le_refl _
    · rw [sentTo_of_sends h3.comm, if_neg (by omega)]

theorem Where.calls_response (w : c.Where offline n pre post pr rest) {β : Type} {f : Obs → Option β}
    (hf : ∀ q, (f (.sendResponse q)).isSome = true) {k : Nat} (hk : k < c.parties) :
    Calls responseSize f k ((post (k + 1)).map Seg.act) := by
  have h1 : ∀ q, ([Obs.sendResponse q].filterMap f).length = 1 := by
    intro q
    obtain ⟨x, hx⟩ := Option.isSome_iff_exists.1 (hf q)
    simp [hx]
  rcases Nat.lt_or_ge (k + 1) c.parties with hp | hp
  · obtain ⟨sq, sr, e, h2, h3⟩ := ((w.does (k + 1)).cuts rfl).party (by omega) hp
    rw [e, List.map_append, List.map_append, List.map_append]
    refine (calls_quiet (sentTo_of_recvs (comm_queries _ _) _)).append ((calls_quiet ?_).append
      ((calls_quiet (sentTo_of_recvs (comm_responses _ _) _)).append (h3.calls ?_ _)))
    · rw [sentTo_of_sends h2.comm, if_neg (by omega)]
    · intro o ho
      obtain ⟨q, -, rfl⟩ := List.mem_map.1 ho
      rw [h1]
      exact le_refl _
  · obtain ⟨sr, e, h2⟩ := ((w.does (k + 1)).cuts rfl).backend (by omega)
    rw [e, List.map_append]
    refine (calls_quiet (sentTo_of_recvs (comm_queries _ _) _)).append (h2.calls ?_ _)
    intro o ho
    obtain ⟨q, -, ho⟩ := List.mem_flatMap.1 ho
    rcases List.mem_cons.1 ho with rfl | ho
    · exact Nat.zero_le _
    · rw [List.mem_singleton.1 ho, h1]
      exact le_refl _

theorem Where.returns_query (w : c.Where offline n pre post pr rest) {β : Type} {f : Obs → Option β} (h1 : ∀ q, f (.sendQuery q) = none)
    (h2 : ∀ q, f (.recvResponse q) = none) (h3 : ∀ q, f (.sendResponse q) = none) (h4 : ∀ q, f (.lookup q) = none)
    {k : Nat} (hk : k < c.parties) : Returns querySize f k ((post (k + 1)).map Seg.act) := by
  rcases Nat.lt_or_ge (k + 1) c.parties with hp | hp
  · obtain ⟨sq, sr, e, a2, a3⟩ := ((w.does (k + 1)).cuts rfl).party (by omega) hp
    rw [e, List.map_append]
    refine (returns_queries _ _).append (Returns.quiet ?_)
    rw [segObs_acts, obsOf_append, obsOf_append, obs_responses, a2.obs, a3.obs, List.filterMap_append, List.filterMap_append,
      Grid.filterMap_map_none _ (fun q : QTicket => h1 q.query), Grid.filterMap_map_none _ (fun q : QTicket => h2 q.resp),
      Grid.filterMap_map_none _ (fun q : QTicket => h3 q.resp)]
    rfl
  · obtain ⟨sr, e, a2⟩ := ((w.does (k + 1)).cuts rfl).backend (by omega)
    rw [e, List.map_append]
    refine (returns_queries _ _).append (Returns.quiet ?_)
    rw [segObs_acts, a2.obs]
    exact Grid.filterMap_flatMap_none _ (fun q => by simp [h3, h4])

theorem Where.returns_response (w : c.Where offline n pre post pr rest) {β : Type} {f : Obs → Option β} (h1 : ∀ q, f (.sendQuery q) = none)
    (h2 : ∀ q, f (.recvQuery q) = none) (h3 : ∀ q, f (.sendResponse q) = none) (h4 : ∀ q, f (.want q) = none)
    (h5 : ∀ q, f (.result q) = none) {k : Nat} (hk : k < c.parties) : Returns responseSize f (k + 1) ((post k).map Seg.act) := by
  rcases Nat.eq_zero_or_pos k with rfl | h0
  · obtain ⟨sq, e, a2⟩ := ((w.does 0).cuts rfl).client rfl
    rw [e, List.map_append]
    refine Returns.append (Returns.quiet ?_) (Returns.messages _ _ (fun j _ => ?_))
    · rw [segObs_acts, a2.obs]
      exact Grid.filterMap_flatMap_none _ (fun q => by simp [h1, h4])
    · have := Returns.message (ι := Nat) (f := f) (d := 1) (c.clientQs offline j).resp.encode
        [Obs.recvResponse (c.clientQs offline j).resp, Obs.result (Database.row (c.clientQs offline j).key)]
        (Response.encode_length _).ge (by
          rw [List.filterMap_cons]
          split
          · simp [h5]
          · simp [h5])
      simpa [aRecvResponse] using this
  · obtain ⟨sq, sr, e, a2, a3⟩ := ((w.does k).cuts rfl).party h0 hk
    rw [e, List.map_append, List.map_append, List.map_append]
    refine (Returns.quiet ?_).append ((Returns.quiet ?_).append ((returns_responses _ _).append (Returns.quiet ?_)))
    · rw [segObs_acts, obs_queries]
      exact Grid.filterMap_map_none _ (fun q : QTicket => h2 q.query)
    · rw [segObs_acts, a2.obs]
      exact Grid.filterMap_map_none _ (fun q : QTicket => h1 q.query)
    · rw [segObs_acts, a3.obs]
      exact Grid.filterMap_map_none _ (fun q : QTicket => h3 q.resp)

theorem Where.later (w : c.Where offline n pre post pr rest) (i : Nat) :
    Later ((pre i).map Seg.act ++ (post i).map Seg.act) ((rest i).map Seg.act : List (Seg Nat Obs)) := by
  refine later_of_suffix ⟨(pr i).map Seg.act, ?_⟩
  rw [← List.map_append, ← List.map_append]
  exact congrArg _ (w.prog.split i).symm

theorem Where.seen (w : c.Where offline n pre post pr rest) (i : Nat) :
    n.seen i ++ segObs ((rest i).map Seg.act : List (Seg Nat Obs)) = segObs ((pre i).map Seg.act ++ (post i).map Seg.act) := by
  rw [← List.map_append, segObs_acts, segObs_acts, w.prog.seen i, ← obsOf_append]
  exact congrArg _ (w.prog.split i).symm

theorem Where.chan_le (w : c.Where offline n pre post pr rest) (i j : Nat) :
    (segSent j ((rest i).map Seg.act : List (Seg Nat Obs))).length ≤ (segRcvd i ((rest j).map Seg.act : List (Seg Nat Obs))).length := by
  have h1 := congrArg List.length (w.cons i j)
  have h2 := congrArg (fun l => (sentTo j l).length) (w.prog.split i)
  have h3 := congrArg (fun l => (rcvdFrom i l).length) (w.prog.split j)
  have h4 := congrArg List.length (w.prog.chan i j)
  simp only [sentTo_append, rcvdFrom_append, List.length_append] at h1 h2 h3 h4
  rw [segSent_acts, segRcvd_acts]
  omega

theorem Where.bytes (w : c.Where offline n pre post pr rest) (i j : Nat) :
    (segSent j ((post i).map Seg.act : List (Seg Nat Obs))).length = (segRcvd i ((post j).map Seg.act : List (Seg Nat Obs))).length := by
  have e : ∀ i, comm (post i) = Net.proj i (down c.parties (c.queryB offline) ++ up c.parties (c.respB offline)) := by
    intro i
    rw [(w.does i).commPost, proj_append, proj_down, proj_up]
    rfl
  rw [segSent_acts, segRcvd_acts, ← sentTo_comm, ← rcvdFrom_comm, e, e, Net.proj_consistent]

end

variable {c : Chain box} (h : c.Valid) (offline : Bool) (cap : Nat × Nat → Nat) (s : List Nat) (n : Net Nat Obs)
  (hn : (c.net offline true).run cap s = some n)
include h hn

theorem queries_causal {k : Nat} (hk : k < c.parties) : queriesRead (n.seen (k + 1)) <+: queriesSent (n.seen k) := by
  obtain ⟨pre, post, pr, rest, w⟩ := where_are h offline cap s n hn
  have h1 := queriesRead_prefix (w.prefix (k + 1))
  rw [queriesRead_pos c offline k hk] at h1
  have h2 := queriesSent_prefix (w.prefix k)
  have h3 : queriesSent (c.obsAll offline true k) = (c.qs offline k).map QTicket.query := by
    rcases k with _ | k
    · exact queriesSent_client c offline
    · exact queriesSent_party c offline k hk
  rw [h3] at h2
  refine List.prefix_of_prefix_length_le h1 h2 ?_
  refine causal (z := querySize) (by decide) (w.later k) (w.later (k + 1)) (w.seen k) (w.seen (k + 1)) (w.chan_le _ _)
    (w.bytes k (k + 1)).ge ?_ (w.calls_query (fun _ => rfl) hk)
    (w.returns_query (fun _ => rfl) (fun _ => rfl) (fun _ => rfl) (fun _ => rfl) hk)
  rw [segObs_acts, (w.does _).obsPre]
  exact obsOff_none (by intros; rfl) (by intros; rfl) rfl rfl (by intros; rfl) (by intros; rfl) (by intros; rfl) _

theorem responses_causal {k : Nat} (hk : k < c.parties) : responsesRead (n.seen k) <+: responsesSent (n.seen (k + 1)) := by
  obtain ⟨pre, post, pr, rest, w⟩ := where_are h offline cap s n hn
  have h1 := responsesSent_prefix (w.prefix (k + 1))
  rw [responsesSent_pos c offline k hk] at h1
  have h2 := responsesRead_prefix (w.prefix k)
  have h3 : responsesRead (c.obsAll offline true k) = (c.qs offline k).map QTicket.resp := by
    rcases k with _ | k
    · exact responsesRead_client c offline
    · exact responsesRead_party c offline k hk
  rw [h3] at h2
  refine List.prefix_of_prefix_length_le h2 h1 ?_
  refine causal (z := responseSize) (by decide) (w.later (k + 1)) (w.later k) (w.seen (k + 1)) (w.seen k) (w.chan_le _ _)
    (w.bytes (k + 1) k).ge ?_ (w.calls_response (fun _ => rfl) hk)
    (w.returns_response (fun _ => rfl) (fun _ => rfl) (fun _ => rfl) (fun _ => rfl) (fun _ => rfl) hk)
  rw [segObs_acts, (w.does _).obsPre]
  exact obsOff_none (by intros; rfl) (by intros; rfl) rfl rfl (by intros; rfl) (by intros; rfl) (by intros; rfl) _

end Chain
end DPPIR.Protocol

namespace DPPIR.Protocol
open DPPIR Proc PNet Onion Spec Props Shuffle

variable {box : SealedBox}

/-- Calls that come in pairs. -/
theorem paired {δ β γ : Type} {f : Obs → Option β} {g : Obs → Option γ} (qs : List δ) (a b : δ → Obs) (hf : ∀ x, (f (a x)).isSome = true)
    (hg : ∀ x, g (a x) = none) (l : List Obs) (h : l <+: qs.flatMap (fun x => [a x, b x])) :
    (l.filterMap g).length ≤ (l.filterMap f).length := by
  induction qs generalizing l with
  | nil => rw [List.prefix_nil.1 h]; simp
  | cons x qs ih =>
    match l, h with
    | [], _ => simp
    | [o], h =>
      obtain ⟨rfl, -⟩ := List.cons_prefix_cons.1 h
      simp [hg]
    | o :: o' :: l, h =>
      obtain ⟨rfl, h'⟩ := List.cons_prefix_cons.1 h
      obtain ⟨rfl, h''⟩ := List.cons_prefix_cons.1 h'
      have h1 := ih l h''
      obtain ⟨y, hy⟩ := Option.isSome_iff_exists.1 (hf x)
      have e1 : (List.filterMap g (a x :: b x :: l)).length ≤ (l.filterMap g).length + 1 := by
        rw [List.filterMap_cons, hg]
        simp only [List.filterMap_cons]
        split <;> simp
      have e2 : (l.filterMap f).length + 1 ≤ (List.filterMap f (a x :: b x :: l)).length := by
        rw [List.filterMap_cons, hy]
        simp only [List.filterMap_cons]
        split <;> simp
      omega

/-- The same after calls of other kinds. -/
theorem paired_after {δ β γ : Type} {f : Obs → Option β} {g : Obs → Option γ} {P : List Obs} (hP : P.filterMap g = []) (qs : List δ)
    (a b : δ → Obs) (hf : ∀ x, (f (a x)).isSome = true) (hg : ∀ x, g (a x) = none) (l : List Obs)
    (h : l <+: P ++ qs.flatMap (fun x => [a x, b x])) : (l.filterMap g).length ≤ (l.filterMap f).length := by
  obtain ⟨r, h⟩ := h
  rcases List.append_eq_append_iff.1 h with ⟨x, rfl, -⟩ | ⟨x, rfl, h2⟩
  · rw [List.filterMap_append, List.append_eq_nil_iff] at hP
    rw [hP.1]
    simp
  · have := paired (f := f) (g := g) qs a b hf hg x ⟨r, h2.symm⟩
    simp only [List.filterMap_append, hP, List.nil_append, List.length_append]
    omega

namespace Chain

theorem responses_after_lookups {c : Chain box} (offline : Bool) (hP : 0 < c.parties) {l : List Obs} (h : l <+: c.obsAll offline true c.parties) :
    (responsesSent l).length ≤ (lookups l).length := by
  obtain ⟨k, hk⟩ : ∃ k, k + 1 = c.parties := ⟨c.parties - 1, by omega⟩
  rw [← hk] at h
  have e : c.obsAll offline true (k + 1) = (c.obsOff offline (k + 1) ++ (c.qs offline k).map (fun q => .recvQuery q.query)) ++
      (c.qs offline k).flatMap (fun q => [.lookup q.key, .sendResponse q.resp]) := by
    unfold obsAll obsOn
    rw [if_pos rfl, if_neg (by omega), if_neg (by omega), if_pos hk, List.append_assoc]
    rfl
  rw [e] at h
  refine paired_after ?_ _ (fun q : QTicket => .lookup q.key) _ (fun _ => rfl) (fun _ => rfl) l h
  rw [List.filterMap_append, obsOff_none (by intros; rfl) (by intros; rfl) rfl rfl (by intros; rfl) (by intros; rfl) (by intros; rfl),
    Grid.filterMap_map_none _ (fun _ => rfl)]
  rfl

theorem results_after_responses {c : Chain box} (offline : Bool) {l : List Obs} (h : l <+: c.obsAll offline true 0) :
    (results l).length ≤ (responsesRead l).length := by
  have e : c.obsAll offline true 0 = (c.obsOff offline 0 ++ (c.qs offline 0).flatMap (fun q => [.want q.key, .sendQuery q.query])) ++
      (c.qs offline 0).flatMap (fun q => [.recvResponse q.resp, .result (Database.row q.key)]) := by
    unfold obsAll obsOn
    rw [if_pos rfl, if_pos rfl, List.append_assoc]
  rw [e] at h
  refine paired_after ?_ _ (fun q : QTicket => .recvResponse q.resp) _ (fun _ => rfl) (fun _ => rfl) l h
  rw [List.filterMap_append, obsOff_none (by intros; rfl) (by intros; rfl) rfl rfl (by intros; rfl) (by intros; rfl) (by intros; rfl),
    Grid.filterMap_flatMap_none _ (fun _ => rfl)]
  rfl

end Chain

namespace Grid

theorem responses_after_lookups {g : Grid box} (offline : Bool) (hP : 0 < g.parties) {s : Nat} {l : List Obs}
    (h : l <+: g.obsAll offline true g.parties s) : (responsesSent l).length ≤ (lookups l).length := by
  obtain ⟨k, hk⟩ : ∃ k, k + 1 = g.parties := ⟨g.parties - 1, by omega⟩
  rw [← hk] at h
  have e : g.obsAll offline true (k + 1) s = (g.obsOff offline (k + 1) s ++ (g.qs offline k s).map (fun q => .recvQuery q.query)) ++
      (g.qs offline k s).flatMap (fun q => [.lookup q.key, .sendResponse q.resp]) := by
    unfold obsAll obsOn
    rw [if_pos rfl, if_neg (by omega), if_neg (by omega), if_pos hk, List.append_assoc]
    rfl
  rw [e] at h
  refine paired_after ?_ _ (fun q : QTicket => .lookup q.key) _ (fun _ => rfl) (fun _ => rfl) l h
  rw [List.filterMap_append, obsOff_none (by intros; rfl) (by intros; rfl) rfl rfl (by intros; rfl) (by intros; rfl) (by intros; rfl),
    filterMap_map_none _ (fun _ => rfl)]
  rfl

theorem results_after_responses {g : Grid box} (offline : Bool) {s : Nat} {l : List Obs} (h : l <+: g.obsAll offline true 0 s) :
    (results l).length ≤ (responsesRead l).length := by
  have e : g.obsAll offline true 0 s = (g.obsOff offline 0 s ++ (g.qs offline 0 s).flatMap (fun q => [.want q.key, .sendQuery q.query])) ++
      (g.qs offline 0 s).flatMap (fun q => [.recvResponse q.resp, .result (Database.row q.key)]) := by
    unfold obsAll obsOn
    rw [if_pos rfl, if_pos rfl, List.append_assoc]
  rw [e] at h
  refine paired_after ?_ _ (fun q : QTicket => .recvResponse q.resp) _ (fun _ => rfl) (fun _ => rfl) l h
  rw [List.filterMap_append, obsOff_none (by intros; rfl) (by intros; rfl) rfl rfl (by intros; rfl) (by intros; rfl) (by intros; rfl),
    filterMap_flatMap_none _ (fun _ => rfl)]
  rfl

/-- In a run: everything in order at the backend and at the clients. -/
theorem ends_causal {g : Grid box} (h : g.Valid) (offline : Bool) (hd : offline = true → g.DistinctTags) (cap : Node × Node → Nat)
    (n : PNet Node Obs Unit) (hn : Reach cap (g.net offline true) n) (s : Nat) (hs : s < g.servers) :
    (responsesSent (n.seen (g.parties, s))).length ≤ (lookups (n.seen (g.parties, s))).length ∧
    (results (n.seen (0, s))).length ≤ (responsesRead (n.seen (0, s))).length := by
  obtain ⟨pre, post, L, a1, a2, a3⟩ := where_are h offline hd cap n hn
  have w : g.Where offline n pre post L := ⟨a1, a2, a3⟩
  have hP := h.parties
  exact ⟨responses_after_lookups offline (by omega) (w.prefix _ s hs), results_after_responses offline (w.prefix _ s hs)⟩

end Grid

theorem Chain.ends_causal {c : Chain box} (h : c.Valid) (offline : Bool) (cap : Nat × Nat → Nat) (s : List Nat) (n : Net Nat Obs)
    (hn : (c.net offline true).run cap s = some n) :
    (responsesSent (n.seen c.parties)).length ≤ (lookups (n.seen c.parties)).length ∧
    (results (n.seen 0)).length ≤ (responsesRead (n.seen 0)).length := by
  obtain ⟨pre, post, pr, rest, w⟩ := where_are h offline cap s n hn
  have hP := h.parties
  exact ⟨responses_after_lookups offline (by omega) (w.prefix _), results_after_responses offline (w.prefix _)⟩

end DPPIR.Protocol
