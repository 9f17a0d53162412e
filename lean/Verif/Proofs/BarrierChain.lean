import Verif.Proofs.ChainFacts

/-!
# Batches are complete before they go on: one server per party
-/

namespace DPPIR.Net
open DPPIR Proc

variable {ι O : Type} [DecidableEq ι]

section
variable {as : ι → List (Act ι O)} {c : Net ι O} {pre rest : ι → List (Act ι O)}

/-- A process is before a point of its script or past it. -/
theorem Progress.before_or_past (h : Progress as c pre rest) {i : ι} {A B : List (Act ι O)} (e : as i = A ++ B) :
    (∃ A', A = pre i ++ A' ∧ rest i = A' ++ B) ∨ rest i <:+ B := by
  have h1 := h.split i
  rw [e] at h1
  rcases List.append_eq_append_iff.1 h1 with ⟨x, h2, h3⟩ | ⟨x, h2, h3⟩
  · exact .inr ⟨x, h3.symm⟩
  · exact .inl ⟨x, h2, h3⟩

theorem Progress.past (h : Progress as c pre rest) (hcons : ∀ i j, sentTo j (as i) = rcvdFrom i (as j)) {i j : ι} {A B Bj : List (Act ι O)}
    (hj : rest j <:+ Bj) (e : as i = A ++ B) (hlt : (rcvdFrom i Bj).length < (sentTo j B).length) : rest i <:+ B := by
  rcases h.before_or_past e with ⟨A', -, h2⟩ | h2
  · exfalso
    have h3 := congrArg List.length (hcons i j)
    rw [h.split i, h.split j, sentTo_append, rcvdFrom_append, h.chan i j, h2, sentTo_append] at h3
    obtain ⟨X, hX⟩ := hj
    have h4 := congrArg (fun l => (rcvdFrom i l).length) hX
    simp only [rcvdFrom_append, List.length_append] at h3 h4
    omega
  · exact h2

theorem Progress.past_obs (h : Progress as c pre rest) {i : ι} {A B : List (Act ι O)} (e : as i = A ++ B) {β : Type} {f : O → Option β}
    (ho : (c.seen i).filterMap f ≠ []) (hA : (obsOf A).filterMap f = []) : rest i <:+ B := by
  rcases h.before_or_past e with ⟨A', h1, -⟩ | h2
  · rw [h1, obsOf_append, List.filterMap_append, List.append_eq_nil_iff, ← h.seen] at hA
    exact absurd hA.1 ho
  · exact h2

theorem Progress.obs_past (h : Progress as c pre rest) {i : ι} {A B : List (Act ι O)} (e : as i = A ++ B) (hl : rest i <:+ B) :
    obsOf A <+: c.seen i := by
  obtain ⟨X, rfl⟩ := hl
  have h1 := h.split i
  rw [e, ← List.append_assoc] at h1
  rw [h.seen, ← List.append_cancel_right h1, obsOf_append]
  exact List.prefix_append _ _

end
end DPPIR.Net

namespace DPPIR.Protocol
open DPPIR Proc Onion Spec Props Shuffle

variable {box : SealedBox}

section
variable {ι : Type} [DecidableEq ι]

theorem sentTo_of_recvs {as : List (PAct ι)} {d : ι} {l : List Byte} (h : comm as = l.map (Act.recv d)) (j : ι) : sentTo j as = [] := by
  rw [← sentTo_comm, h]
  clear h
  induction l with
  | nil => rfl
  | cons b l ih => exact ih

theorem rcvdFrom_of_sends {as : List (PAct ι)} {d : ι} {l : List Byte} (h : comm as = l.map (Act.send d)) (j : ι) : rcvdFrom j as = [] := by
  rw [← rcvdFrom_comm, h]
  clear h
  induction l with
  | nil => rfl
  | cons b l ih => exact ih

theorem rcvdFrom_of_recvs {as : List (PAct ι)} {d : ι} {l : List Byte} (h : comm as = l.map (Act.recv d)) (j : ι) :
    rcvdFrom j as = if d = j then l else [] := by
  rw [← rcvdFrom_comm, h]
  clear h
  induction l with
  | nil => simp
  | cons b l ih =>
    rw [List.map_cons, rcvdFrom_recv, ih]
    by_cases e : d = j <;> simp [e]

theorem sentTo_of_sends {as : List (PAct ι)} {d : ι} {l : List Byte} (h : comm as = l.map (Act.send d)) (j : ι) :
    sentTo j as = if d = j then l else [] := by
  rw [← sentTo_comm, h]
  clear h
  induction l with
  | nil => simp
  | cons b l ih =>
    rw [List.map_cons, sentTo_send, ih]
    by_cases e : d = j <;> simp [e]

theorem comm_queries (d : ι) (l : List QTicket) :
    comm (l.flatMap (fun q => aRecvQuery d q.query)) = (l.flatMap (fun q => q.query.encode)).map (Act.recv d) :=
  comm_recvs d _ _ (fun q : QTicket => q.query.encode) (by intro j; simp [aRecvQuery])

theorem comm_responses (d : ι) (l : List QTicket) :
    comm (l.flatMap (fun q => aRecvResponse d q.resp)) = (l.flatMap (fun q => q.resp.encode)).map (Act.recv d) :=
  comm_recvs d _ _ (fun q : QTicket => q.resp.encode) (by intro j; simp [aRecvResponse])

theorem obs_queries (d : ι) (l : List QTicket) :
    obsOf (l.flatMap (fun q => aRecvQuery d q.query)) = l.map (fun q => Obs.recvQuery q.query) := by
  rw [obsOf_recvs _ _ (fun q : QTicket => [.recvQuery q.query]) (by intro j; simp [aRecvQuery]), ← List.map_eq_flatMap]

theorem obs_responses (d : ι) (l : List QTicket) :
    obsOf (l.flatMap (fun q => aRecvResponse d q.resp)) = l.map (fun q => Obs.recvResponse q.resp) := by
  rw [obsOf_recvs _ _ (fun q : QTicket => [.recvResponse q.resp]) (by intro j; simp [aRecvResponse]), ← List.map_eq_flatMap]

theorem length_queriesRead (l : List QTicket) : (queriesRead (l.map (fun q => Obs.recvQuery q.query))).length = l.length := by
  unfold queriesRead
  rw [List.filterMap_map]
  show (List.filterMap (fun q : QTicket => some q.query) _).length = _
  rw [List.filterMap_eq_map', List.length_map]

theorem length_responsesRead (l : List QTicket) : (responsesRead (l.map (fun q => Obs.recvResponse q.resp))).length = l.length := by
  unfold responsesRead
  rw [List.filterMap_map]
  show (List.filterMap (fun q : QTicket => some q.resp) _).length = _
  rw [List.filterMap_eq_map', List.length_map]

end

namespace Chain

theorem queryB_pos {c : Chain box} {offline : Bool} {k : Nat} (h : 0 < (c.qs offline k).length) : 0 < (c.queryB offline k).length := by
  unfold queryB
  cases hq : c.qs offline k with
  | nil => rw [hq] at h; exact absurd h (lt_irrefl _)
  | cons q l =>
    rw [List.flatMap_cons, List.length_append, Query.encode_length]
    exact Nat.add_pos_left (by decide) _

theorem respB_pos {c : Chain box} {offline : Bool} {k : Nat} (h : 0 < (c.qs offline k).length) : 0 < (c.respB offline k).length := by
  unfold respB
  cases hq : c.qs offline k with
  | nil => rw [hq] at h; exact absurd h (lt_irrefl _)
  | cons q l =>
    rw [List.flatMap_cons, List.length_append, Response.encode_length]
    exact Nat.add_pos_left (by decide) _

/-- The offline stage has no queries and no responses. -/
theorem obsOff_none {c : Chain box} {offline : Bool} {β : Type} {f : Obs → Option β} (h1 : ∀ x, f (.sendCount x) = none) (h2 : ∀ x, f (.recvCount x) = none)
    (h3 : f .sendReady = none) (h4 : f .recvReady = none) (h5 : ∀ x, f (.sendCipher x) = none) (h6 : ∀ x, f (.recvCipher x) = none)
    (h7 : ∀ x, f (.store x) = none) (i : Nat) : (c.obsOff offline i).filterMap f = [] := by
  rw [List.filterMap_eq_nil_iff]
  intro o ho
  unfold obsOff at ho
  split_ifs at ho <;> simp only [List.append_nil, List.mem_append, List.mem_cons, List.mem_map, List.mem_flatMap, List.not_mem_nil, or_false] at ho
  all_goals aesop

/-- How far everybody is. -/
structure Where (c : Chain box) (offline : Bool) (n : Net Nat Obs) (pre post pr rest : Nat → List (PAct Nat)) : Prop where
  does : ∀ i, c.Does offline true i (pre i) (post i)
  prog : Net.Progress (fun i => pre i ++ post i) n pr rest
  cons : ∀ i j, sentTo j (pre i ++ post i) = rcvdFrom i (pre j ++ post j)

theorem where_are {c : Chain box} (h : c.Valid) (offline : Bool) (cap : Nat × Nat → Nat) (s : List Nat) (n : Net Nat Obs)
    (hn : (c.net offline true).run cap s = some n) : ∃ pre post pr rest, c.Where offline n pre post pr rest := by
  choose pre post hd hout using proc_does h offline true
  have hcons : ∀ i j, sentTo j (pre i ++ post i) = rcvdFrom i (pre j ++ post j) := by
    intro i j
    rw [← sentTo_comm, ← rcvdFrom_comm, comm_append, comm_append, (hd i).commPre, (hd i).commPost, (hd j).commPre,
      (hd j).commPost, ← proj_script, ← proj_script]
    exact Net.proj_consistent _ _ _
  obtain ⟨pr, rest, hp⟩ := Net.progress_run hcons s _ _ (Net.progress_start (fun i => (hd i).runs)) hn
  exact ⟨pre, post, pr, rest, hd, hp, hcons⟩

section
variable {c : Chain box} {offline : Bool} {n : Net Nat Obs} {pre post pr rest : Nat → List (PAct Nat)}

theorem Where.prefix (w : c.Where offline n pre post pr rest) (i : Nat) : n.seen i <+: c.obsAll offline true i := by
  have := congrArg obsOf (w.prog.split i)
  simp only [obsOf_append] at this
  rw [← w.prog.seen i, (w.does i).obsPre, (w.does i).obsPost] at this
  exact ⟨_, this.symm⟩

/-- The rest of a process after it has read its queries. -/
structure Rest (c : Chain box) (offline : Bool) (i : Nat) (pre post M : List (PAct Nat)) : Prop where
  split : pre ++ post = pre ++ (c.qs offline (i - 1)).flatMap (fun q => aRecvQuery (i - 1) q.query) ++ M
  rcvd : rcvdFrom (i - 1) M = []
  sent : i < c.parties → sentTo (i + 1) M = c.queryB offline i

theorem Where.reads (w : c.Where offline n pre post pr rest) (i : Nat) (h0 : 0 < i) (hi : i ≤ c.parties) : ∃ M, c.Rest offline i (pre i) (post i) M := by
  rcases Nat.lt_or_ge i c.parties with h | h
  · obtain ⟨sq, sr, h1, h2, h3⟩ := ((w.does i).cuts rfl).party h0 h
    refine ⟨_, ⟨by rw [h1, List.append_assoc], ?_, ?_⟩⟩
    · rw [rcvdFrom_append, rcvdFrom_append, rcvdFrom_of_sends h2.1, rcvdFrom_of_sends h3.1, rcvdFrom_of_recvs (comm_responses _ _),
        if_neg (by omega)]
      rfl
    · intro _
      rw [sentTo_append, sentTo_append, sentTo_of_sends h2.1, sentTo_of_sends h3.1, sentTo_of_recvs (comm_responses _ _),
        if_pos rfl, if_neg (by omega), List.append_nil, List.append_nil]
  · obtain ⟨sr, h1, h2⟩ := ((w.does i).cuts rfl).backend (by omega)
    exact ⟨sr, ⟨by rw [h1, List.append_assoc], rcvdFrom_of_sends h2.1 _, fun hi => by omega⟩⟩

/-- One that has read its queries: so have all before. -/
theorem Where.full (w : c.Where offline n pre post pr rest) (h : c.Valid) {i : Nat} (h0 : 0 < i) (hi : i ≤ c.parties) {M : List (PAct Nat)}
    (r : c.Rest offline i (pre i) (post i) M) (hp : rest i <:+ M) (j : Nat) (hj0 : 0 < j) (hj : j ≤ i) :
    (queriesRead (n.seen j)).length = c.queries (j - 1) := by
  have up : ∀ k, k < c.parties → (queriesRead (n.seen (k + 1))).length ≤ c.queries k := by
    intro k hk
    have h4 := (queriesRead_prefix (w.prefix (k + 1))).length_le
    rwa [queriesRead_pos c offline k hk, List.length_map, (qs_spec h offline k hk).1] at h4
  have key : ∀ d i M, i = j + d → i ≤ c.parties → c.Rest offline i (pre i) (post i) M → rest i <:+ M →
      (queriesRead (n.seen j)).length = c.queries (j - 1) := by
    intro d
    induction d with
    | zero =>
      intro i M e hi r hp
      obtain rfl : j = i := e.symm
      have h1 := (queriesRead_prefix (w.prog.obs_past r.split hp)).length_le
      rw [obsOf_append, obs_queries] at h1
      have h2 := length_queriesRead (c.qs offline (j - 1))
      rw [(qs_spec h offline (j - 1) (by omega)).1] at h2
      have h3 := up (j - 1) (by omega)
      rw [Nat.sub_add_cancel hj0] at h3
      simp only [queriesRead, List.filterMap_append, List.length_append] at h1 h2 h3 ⊢
      omega
    | succ d ih =>
      rintro i M rfl hi r hp
      rcases Nat.eq_zero_or_pos (c.queries (j + d)) with hz | hz
      · have h1 := c.queries_mono (show j - 1 ≤ j + d by omega)
        have h2 := up (j - 1) (by omega)
        rw [Nat.sub_add_cancel hj0] at h2
        omega
      · obtain ⟨N, r'⟩ := w.reads (j + d) (by omega) (by omega)
        refine ih (j + d) N rfl (by omega) r' (w.prog.past w.cons hp r'.split ?_)
        rw [show rcvdFrom (j + d) M = [] from r.rcvd]
        show _ < (sentTo (j + d + 1) N).length
        rw [r'.sent (by omega)]
        exact queryB_pos (by rw [(qs_spec h offline (j + d) (by omega)).1]; exact hz)
  exact key (i - j) i M (by omega) hi r hp

/-- The rest of a process after it has read its responses. -/
structure Back (c : Chain box) (offline : Bool) (i : Nat) (pre post A R : List (PAct Nat)) : Prop where
  split : pre ++ post = A ++ R
  rcvd : rcvdFrom (i + 1) R = []
  sent : sentTo (i - 1) R = c.respB offline (i - 1)
  obs : obsOf A = c.obsOff offline i ++ ((c.qs offline (i - 1)).map (fun q => .recvQuery q.query) ++
    ((c.qs offline i).map (fun q => .sendQuery q.query) ++ (c.qs offline i).map (fun q => .recvResponse q.resp)))

theorem Where.back (w : c.Where offline n pre post pr rest) (i : Nat) (h0 : 0 < i) (hi : i < c.parties) :
    ∃ A R, c.Back offline i (pre i) (post i) A R := by
  obtain ⟨sq, sr, h1, h2, h3⟩ := ((w.does i).cuts rfl).party h0 hi
  refine ⟨pre i ++ ((c.qs offline (i - 1)).flatMap (fun q => aRecvQuery (i - 1) q.query) ++
      (sq ++ (c.qs offline i).flatMap (fun q => aRecvResponse (i + 1) q.resp))), sr, ⟨by rw [h1]; simp, rcvdFrom_of_sends h3.1 _, ?_, ?_⟩⟩
  · rw [sentTo_of_sends h3.1, if_pos rfl]
  · rw [obsOf_append, obsOf_append, obsOf_append, (w.does i).obsPre, obs_queries, obs_responses, h2.2]

theorem Where.full_back (w : c.Where offline n pre post pr rest) (h : c.Valid) {i : Nat} (h0 : 0 < i) (hq : 0 < c.queries i) {A R : List (PAct Nat)}
    (r : c.Back offline i (pre i) (post i) A R) (hp : rest i <:+ R) (j : Nat) (hj : i ≤ j) (hjp : j < c.parties) :
    (responsesRead (n.seen j)).length = c.queries j := by
  obtain ⟨d, rfl⟩ : ∃ d, j = i + d := ⟨j - i, by omega⟩
  suffices hs : ∃ A R, c.Back offline (i + d) (pre (i + d)) (post (i + d)) A R ∧ rest (i + d) <:+ R by
    obtain ⟨A, R, r, hp⟩ := hs
    obtain ⟨k, hk⟩ : ∃ k, i + d = k + 1 := ⟨i + d - 1, by omega⟩
    rw [hk] at r hp hjp ⊢
    have hl := (qs_spec h offline (k + 1) hjp).1
    have h1 := (responsesRead_prefix (w.prog.obs_past r.split hp)).length_le
    rw [r.obs] at h1
    have h2 := length_responsesRead (c.qs offline (k + 1))
    have h4 := (responsesRead_prefix (w.prefix (k + 1))).length_le
    rw [responsesRead_party c offline k hjp, List.length_map] at h4
    simp only [responsesRead, List.filterMap_append, List.length_append] at h1 h2 h4 ⊢
    omega
  clear hj
  induction d with
  | zero => exact ⟨A, R, r, hp⟩
  | succ d ih =>
    obtain ⟨A', R', r', hp'⟩ := ih (by omega)
    obtain ⟨A2, R2, r2⟩ := w.back (i + d + 1) (by omega) hjp
    refine ⟨A2, R2, r2, w.prog.past w.cons hp' r2.split ?_⟩
    show (rcvdFrom (i + d + 1) R').length < _
    rw [r'.rcvd, show sentTo (i + d) R2 = _ from r2.sent]
    refine respB_pos ?_
    have := c.queries_mono (show i ≤ i + d by omega)
    rw [Nat.add_sub_cancel, (qs_spec h offline (i + d) (by omega)).1]
    omega

end

/-! ### What has been read -/

variable {c : Chain box} (h : c.Valid) (offline : Bool) (cap : Nat × Nat → Nat) (s : List Nat) (n : Net Nat Obs)
    (hn : (c.net offline true).run cap s = some n)
include h hn

theorem queries_wait {k : Nat} (h0 : 0 < k) (hk : k < c.parties) (hq : queriesSent (n.seen k) ≠ []) (j : Nat) (hj0 : 0 < j) (hj : j ≤ k) :
    (queriesRead (n.seen j)).length = c.queries (j - 1) := by
  obtain ⟨pre, post, pr, rest, w⟩ := where_are h offline cap s n hn
  obtain ⟨M, r⟩ := w.reads k h0 (by omega)
  refine w.full h h0 (by omega) r (w.prog.past_obs r.split hq ?_) j hj0 hj
  rw [obsOf_append, obs_queries, (w.does _).obsPre, List.filterMap_append,
    obsOff_none (by intros; rfl) (by intros; rfl) rfl rfl (by intros; rfl) (by intros; rfl) (by intros; rfl), List.filterMap_map]
  rw [List.filterMap_eq_nil_iff.2 (by intro a _; rfl)]
  rfl

theorem lookups_wait (hP : 0 < c.parties) (hq : lookups (n.seen c.parties) ≠ []) (j : Nat) (hj0 : 0 < j) (hj : j ≤ c.parties) :
    (queriesRead (n.seen j)).length = c.queries (j - 1) := by
  obtain ⟨pre, post, pr, rest, w⟩ := where_are h offline cap s n hn
  obtain ⟨M, r⟩ := w.reads c.parties hP le_rfl
  refine w.full h hP le_rfl r (w.prog.past_obs r.split hq ?_) j hj0 hj
  rw [obsOf_append, obs_queries, (w.does _).obsPre, List.filterMap_append,
    obsOff_none (by intros; rfl) (by intros; rfl) rfl rfl (by intros; rfl) (by intros; rfl) (by intros; rfl), List.filterMap_map]
  rw [List.filterMap_eq_nil_iff.2 (by intro a _; rfl)]
  rfl

theorem responses_wait {k : Nat} (h0 : 0 < k) (hk : k < c.parties) (hq : responsesSent (n.seen k) ≠ []) (j : Nat) (hj : k ≤ j)
    (hjp : j < c.parties) : (responsesRead (n.seen j)).length = c.queries j := by
  obtain ⟨pre, post, pr, rest, w⟩ := where_are h offline cap s n hn
  obtain ⟨A, R, r⟩ := w.back k h0 hk
  refine w.full_back h h0 ?_ r (w.prog.past_obs r.split hq ?_) j hj hjp
  · obtain ⟨i, rfl⟩ : ∃ i, k = i + 1 := ⟨k - 1, by omega⟩
    have h4 := (responsesSent_prefix (w.prefix (i + 1))).length_le
    rw [responsesSent_pos c offline i (by omega), List.length_map, (qs_spec h offline i (by omega)).1] at h4
    have h5 := List.length_pos_iff.2 hq
    have := c.queries_mono (show i ≤ i + 1 by omega)
    omega
  · rw [r.obs, List.filterMap_append,
      obsOff_none (by intros; rfl) (by intros; rfl) rfl rfl (by intros; rfl) (by intros; rfl) (by intros; rfl), List.filterMap_append,
      List.filterMap_append, List.filterMap_map, List.filterMap_map, List.filterMap_map]
    rw [List.filterMap_eq_nil_iff.2 (by intro a _; rfl), List.filterMap_eq_nil_iff.2 (by intro a _; rfl),
      List.filterMap_eq_nil_iff.2 (by intro a _; rfl)]
    rfl

theorem results_wait (hq : responsesRead (n.seen 0) ≠ []) (j : Nat) (hj0 : 0 < j) (hjp : j < c.parties) :
    (responsesRead (n.seen j)).length = c.queries j := by
  obtain ⟨pre, post, pr, rest, w⟩ := where_are h offline cap s n hn
  obtain ⟨A, R, r⟩ := w.back 1 (by omega) (by omega)
  have h4 := (responsesRead_prefix (w.prefix 0)).length_le
  rw [responsesRead_client c offline, List.length_map, (qs_spec h offline 0 (by omega)).1] at h4
  have h5 := List.length_pos_iff.2 hq
  have hc : 0 < c.queries 0 := by omega
  have hc1 := c.queries_mono (show 0 ≤ 1 by omega)
  refine w.full_back h (by omega) (by omega) r ?_ j hj0 hjp
  obtain ⟨sq, h1, h2⟩ := ((w.does 0).cuts rfl).client rfl
  obtain ⟨m, hm⟩ : ∃ m, c.count = m + 1 := ⟨c.count - 1, by have : c.queries 0 = c.count := rfl; omega⟩
  have hB : rcvdFrom 1 ((List.range c.count).flatMap (fun j => aRecvResponse 1 (c.clientQs offline j).resp ++
      [.obs (.result (Database.row (c.clientQs offline j).key))])) = c.respB offline 0 := by
    rw [rcvdFrom_of_recvs (comm_recvs 1 _ _ (fun j => (c.clientQs offline j).resp.encode) (by intro j; simp [aRecvResponse])), if_pos rfl,
      respB, qs, List.flatMap_map]
  rw [hm, List.range_succ_eq_map, List.flatMap_cons] at h1 hB
  generalize hE : (List.map Nat.succ (List.range m)).flatMap (fun j => aRecvResponse 1 (c.clientQs offline j).resp ++
      [.obs (.result (Database.row (c.clientQs offline j).key))]) = E at h1 hB
  generalize c.clientQs offline 0 = q at h1 hB
  have e0 : aRecvResponse 1 q.resp ++ [.obs (.result (Database.row q.key))] ++ E =
      q.resp.encode.map (Act.recv 1) ++ ([.obs (.recvResponse q.resp), .obs (.result (Database.row q.key))] ++ E) := by
    simp [aRecvResponse]
  rw [e0] at h1 hB
  have e : pre 0 ++ post 0 = (pre 0 ++ (sq ++ q.resp.encode.map (Act.recv 1))) ++
      (([.obs (.recvResponse q.resp), .obs (.result (Database.row q.key))] ++ E : List (PAct Nat))) := by
    rw [h1]
    simp
  have hl := w.prog.past_obs e hq (by
    rw [obsOf_append, obsOf_append, h2.2, (w.does _).obsPre, List.filterMap_append, List.filterMap_append,
      obsOff_none (by intros; rfl) (by intros; rfl) rfl rfl (by intros; rfl) (by intros; rfl) (by intros; rfl)]
    rw [List.nil_append, List.append_eq_nil_iff]
    refine ⟨List.filterMap_eq_nil_iff.2 ?_, ?_⟩
    · intro o ho
      obtain ⟨q, -, ho⟩ := List.mem_flatMap.1 ho
      rcases List.mem_cons.1 ho with rfl | ho
      · rfl
      · rw [List.mem_singleton.1 ho]
    · rw [obsOf_map_recv]
      rfl)
  refine w.prog.past w.cons hl r.split ?_
  generalize ([.obs (.recvResponse q.resp), .obs (.result (Database.row q.key))] ++ E : List (PAct Nat)) = F at hB ⊢
  rw [show sentTo 0 R = _ from r.sent, Nat.sub_self, ← hB, rcvdFrom_append, List.length_append,
    rcvdFrom_of_recvs (d := 1) (l := q.resp.encode) (comm_map_recv _ _), if_pos rfl, Response.encode_length]
  exact Nat.lt_add_of_pos_left (by decide)

end Chain
end DPPIR.Protocol
