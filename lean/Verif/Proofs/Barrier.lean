import Verif.Proofs.BarrierChain
import Verif.Proofs.GridInstall
import Verif.Proofs.TrafficGrid

/-!
# Batches are complete before they go on

A server of a party sends its first query after it has met its siblings, who have read
all of theirs by then; likewise for responses.
-/

namespace DPPIR.PNet
open DPPIR Proc

variable {ι O α : Type} [DecidableEq ι]

/-- One who has made calls of some kind is past the point before which there are none. -/
theorem Inv.past_obs {Q : ι → α → Prop} {G : List (GSeg ι)} {os : ι → List O} {n : PNet ι O α} {L : ι → List (Seg ι O)} (h : Inv Q G os n L)
    {i : ι} {A B : List (Seg ι O)} (hl : Later (A ++ B) (L i)) (hos : os i = segObs (A ++ B)) {β : Type} {f : O → Option β}
    (ho : (n.seen i).filterMap f ≠ []) (hA : (segObs A).filterMap f = []) : Later B (L i) := by
  rcases hl.split with ⟨A', h1⟩ | h1
  · have h2 := h.seen i
    rw [h1, hos, segObs_append, segObs_append, ← List.append_assoc] at h2
    rw [← List.append_cancel_right h2, List.filterMap_append, List.append_eq_nil_iff] at hA
    exact absurd hA.1 ho
  · exact h1

/-- One who is past a point has observed what comes before. -/
theorem Inv.obs_past {Q : ι → α → Prop} {G : List (GSeg ι)} {os : ι → List O} {n : PNet ι O α} {L : ι → List (Seg ι O)} (h : Inv Q G os n L)
    {i : ι} {A B : List (Seg ι O)} (hl : Later B (L i)) (hos : os i = segObs (A ++ B)) : segObs A <+: n.seen i := by
  obtain ⟨Y, hY⟩ := hl.obs
  have h2 := h.seen i
  rw [hos, segObs_append, ← hY, ← List.append_assoc] at h2
  rw [List.append_cancel_right h2]
  exact List.prefix_append _ _

end DPPIR.PNet

namespace DPPIR.Protocol
open DPPIR Proc PNet Onion Spec Props Shuffle

variable {box : SealedBox}

theorem segSent_of_recvs {as : List (PAct Node)} {d : Node} {l : List Byte} (h : Proc.comm as = l.map (Act.recv d)) (j : Node) :
    segSent j (as.map Seg.act) = [] := by
  rw [segSent_of_comm (m := recvs d l) (by rw [segComm_acts, h]; rfl)]
  clear h
  induction l with
  | nil => rfl
  | cons b l ih =>
    show segSent j (.act (.recv d b) :: recvs d l) = _
    rw [segSent_cons, ih]
    rfl

theorem segRcvd_of_recvs {as : List (PAct Node)} {d : Node} {l : List Byte} (h : Proc.comm as = l.map (Act.recv d)) (j : Node) :
    segRcvd j (as.map Seg.act) = if d = j then l else [] := by
  rw [segRcvd_of_comm (m := recvs d l) (by rw [segComm_acts, h]; rfl), Grid.segRcvd_recvs]

theorem segRcvd_of_sends {as : List (PAct Node)} {d : Node} {l : List Byte} (h : Proc.comm as = l.map (Act.send d)) (j : Node) :
    segRcvd j (as.map Seg.act) = [] := by
  rw [segRcvd_of_comm (m := sends d l) (by rw [segComm_acts, h]; rfl), Grid.segRcvd_sends]

theorem segSent_of_sends {as : List (PAct Node)} {d : Node} {l : List Byte} (h : Proc.comm as = l.map (Act.send d)) (j : Node) :
    segSent j (as.map Seg.act) = if d = j then l else [] := by
  rw [segSent_of_comm (m := sends d l) (by rw [segComm_acts, h]; rfl)]
  clear h
  induction l with
  | nil => simp [sends]
  | cons b l ih =>
    show segSent j (.act (.send d b) :: sends d l) = _
    rw [segSent_cons, ih]
    by_cases h : d = j <;> simp [Seg.sent, h]

namespace Grid

theorem wait_rcvd_sib (g : Grid box) (i s t : Nat) (hs : s < g.servers) (ht : t < g.servers) (hst : s ≠ t) :
    Seg.rcvd (i, t) (rseg (lvl g.servers i) (sibs i) g.wait s : Seg Node Obs) = [1] := by
  show roundIns (lvl g.servers i) g.wait s (i, t) = [1]
  unfold roundIns lvl
  rw [if_pos ⟨rfl, ht⟩]
  show toOne s (castOut g.servers readyMsg t) = _
  rw [toOne_cast, if_pos ⟨hs, hst⟩]
  rfl

/-- Exchanges among siblings say nothing to others. -/
theorem rseg_sent_other (S i j s t : Nat) (o : Nat → List (Nat × Byte)) (hij : i ≠ j) :
    Seg.sent (j, t) (rseg (lvl S i) (sibs i) o s : Seg Node Obs) = [] := by
  show List.filterMap _ _ = []
  rw [List.filterMap_eq_nil_iff]
  intro o ho
  rw [List.mem_map] at ho
  obtain ⟨x, -, rfl⟩ := ho
  rw [if_neg (by intro e; exact hij (congrArg Prod.fst e))]

theorem rseg_rcvd_other (S i j s t : Nat) (o : Nat → List (Nat × Byte)) (hij : i ≠ j) :
    Seg.rcvd (j, t) (rseg (lvl S i) (sibs i) o s : Seg Node Obs) = [] := by
  show roundIns (lvl S i) o s (j, t) = []
  unfold roundIns lvl
  rw [if_neg (by rintro ⟨h, -⟩; exact hij h.symm)]

theorem queryB_pos {g : Grid box} {offline : Bool} {k s : Nat} (h : 0 < (g.qs offline k s).length) : 0 < (g.queryB offline k s).length := by
  unfold queryB
  cases hq : g.qs offline k s with
  | nil => rw [hq] at h; exact absurd h (lt_irrefl _)
  | cons q l =>
    rw [List.flatMap_cons, List.length_append, Query.encode_length]
    exact Nat.add_pos_left (by decide) _

theorem respB_pos {g : Grid box} {offline : Bool} {k s : Nat} (h : 0 < (g.qs offline k s).length) : 0 < (g.respB offline k s).length := by
  unfold respB
  cases hq : g.qs offline k s with
  | nil => rw [hq] at h; exact absurd h (lt_irrefl _)
  | cons q l =>
    rw [List.flatMap_cons, List.length_append, Response.encode_length]
    exact Nat.add_pos_left (by decide) _

/-- How far everybody is. -/
theorem where_are {g : Grid box} (h : g.Valid) (offline : Bool) (hd : offline = true → g.DistinctTags) (cap : Node × Node → Nat)
    (n : PNet Node Obs Unit) (hn : Reach cap (g.net offline true) n) :
    ∃ pre post L : Node → List (Seg Node Obs), (∀ i s, s < g.servers → g.Does offline true i s (pre (i, s)) (post (i, s))) ∧
      Inv (fun _ _ => True) (g.script offline true) (fun i => segObs (pre i ++ post i)) n L ∧ ∀ i, Later (pre i ++ post i) (L i) := by
  have key : ∀ i : Node, ∃ pre post, PProc.Does (fun _ => True) (g.prog offline true i) (pre ++ post) ∧
      segComm (pre ++ post) = proj i (g.script offline true) ∧ (i.2 < g.servers → g.Does offline true i.1 i.2 pre post) := by
    rintro ⟨i, s⟩
    by_cases hs : s < g.servers
    · obtain ⟨pre, post, h1⟩ := proc_does h offline true hd i s hs
      exact ⟨pre, post, h1.runs, by rw [proj_script g offline true i s hs, segComm_append, h1.commPre, h1.commPost], fun _ => h1⟩
    · refine ⟨[], [], ?_, (proj_script_out g offline true i s hs).symm, fun h => absurd h hs⟩
      unfold prog
      rw [if_neg hs]
      exact .done trivial
  choose pre post h1 h2 h3 using key
  obtain ⟨cap', hc'⟩ := exists_roomy g
  obtain ⟨L, hI, hl⟩ := (Inv.start (script_ok h hc' offline true) h1 h2).reach_later hn
  exact ⟨pre, post, L, fun i s hs => h3 (i, s) hs, hI, hl⟩

/-- What `where_are` says, with names. -/
structure Where (g : Grid box) (offline : Bool) (n : PNet Node Obs Unit) (pre post L : Node → List (Seg Node Obs)) : Prop where
  does : ∀ i s, s < g.servers → g.Does offline true i s (pre (i, s)) (post (i, s))
  inv : Inv (fun _ _ => True) (g.script offline true) (fun i => segObs (pre i ++ post i)) n L
  later : ∀ i, Later (pre i ++ post i) (L i)

section
variable {g : Grid box} {offline : Bool} {n : PNet Node Obs Unit} {pre post L : Node → List (Seg Node Obs)}

theorem Where.bytes (w : g.Where offline n pre post L) (h : g.Valid) (i j s t : Nat) (hs : s < g.servers) (ht : t < g.servers) :
    (segSent (j, t) (post (i, s))).length = (segRcvd (i, s) (post (j, t))).length := by
  rw [segSent_of_comm (w.does i s hs).commPost, segRcvd_of_comm (w.does j t ht).commPost, on_match h offline true i j s t hs ht]

/-- The rest of a party after its first barrier, and after its last one. -/
structure Rest (g : Grid box) (offline : Bool) (post : Node → List (Seg Node Obs)) (M R : Nat → Nat → List (Seg Node Obs)) : Prop where
  first : ∀ i s, s < g.servers → 0 < i → i < g.parties →
    post (i, s) = ((g.qs offline (i - 1) s).flatMap (fun q => aRecvQuery (i - 1, s) q.query)).map Seg.act ++
      (rseg (lvl g.servers i) (sibs i) g.wait s :: M i s)
  last : ∀ i s, s < g.servers → 0 < i → i < g.parties → ∃ sq sr, M i s = [rseg (lvl g.servers i) (sibs i) (g.queryR offline (i - 1)) s,
        rseg (lvl g.servers i) (sibs i) g.wait s] ++ (sq.map Seg.act ++
      (((g.qs offline i s).flatMap (fun q => aRecvResponse (i + 1, s) q.resp)).map Seg.act ++
      ([rseg (lvl g.servers i) (sibs i) (g.backR offline (i - 1)) s, rseg (lvl g.servers i) (sibs i) g.wait s] ++
      (rseg (lvl g.servers i) (sibs i) g.wait s :: R i s)))) ∧ R i s = sr.map Seg.act ∧
    Sends (i + 1, s) sq (g.queryB offline i s) ((g.qs offline i s).map (fun q => .sendQuery q.query)) ∧
    Sends (i - 1, s) sr (g.respB offline (i - 1) s) ((g.qs offline (i - 1) s).map (fun q => .sendResponse q.resp))

theorem Where.rest (w : g.Where offline n pre post L) : ∃ M R, g.Rest offline post M R := by
  have key : ∀ i s, ∃ sq sr : List (PAct Node), s < g.servers → 0 < i → i < g.parties →
    post (i, s) = ((g.qs offline (i - 1) s).flatMap (fun q => aRecvQuery (i - 1, s) q.query)).map Seg.act ++
      (rseg (lvl g.servers i) (sibs i) g.wait s :: ([rseg (lvl g.servers i) (sibs i) (g.queryR offline (i - 1)) s,
        rseg (lvl g.servers i) (sibs i) g.wait s] ++ (sq.map Seg.act ++
      (((g.qs offline i s).flatMap (fun q => aRecvResponse (i + 1, s) q.resp)).map Seg.act ++
      ([rseg (lvl g.servers i) (sibs i) (g.backR offline (i - 1)) s, rseg (lvl g.servers i) (sibs i) g.wait s] ++
      (rseg (lvl g.servers i) (sibs i) g.wait s :: sr.map Seg.act)))))) ∧
    Sends (i + 1, s) sq (g.queryB offline i s) ((g.qs offline i s).map (fun q => .sendQuery q.query)) ∧
    Sends (i - 1, s) sr (g.respB offline (i - 1) s) ((g.qs offline (i - 1) s).map (fun q => .sendResponse q.resp)) := by
    intro i s
    by_cases hc : s < g.servers ∧ 0 < i ∧ i < g.parties
    · obtain ⟨sq, sr, h1⟩ := ((w.does i s hc.1).cuts rfl).party hc.2.1 hc.2.2
      exact ⟨sq, sr, fun _ _ _ => h1⟩
    · exact ⟨[], [], fun h1 h2 h3 => absurd ⟨h1, h2, h3⟩ hc⟩
  choose sq sr hc using key
  exact ⟨_, fun i s => (sr i s).map Seg.act, ⟨fun i s hs h0 hi => (hc i s hs h0 hi).1,
    fun i s hs h0 hi => ⟨sq i s, sr i s, rfl, rfl, (hc i s hs h0 hi).2⟩⟩⟩

variable {M R : Nat → Nat → List (Seg Node Obs)}

theorem Where.prefix (w : g.Where offline n pre post L) (i s : Nat) (hs : s < g.servers) : n.seen (i, s) <+: g.obsAll offline true i s := by
  have := w.inv.seen (i, s)
  rw [segObs_append, (w.does _ s hs).obsPre, (w.does _ s hs).obsPost] at this
  exact ⟨_, this⟩

theorem suffix_of_eq {α : Type} {a b l : List α} (h : l = a ++ b) : b <:+ l := ⟨a, h.symm⟩

/-- One server past the first barrier: its siblings have read everything. -/
theorem Where.siblings (w : g.Where offline n pre post L) (r : g.Rest offline post M R) (h : g.Valid) {i t : Nat} (ht : t < g.servers)
    (h0 : 0 < i) (hi : i < g.parties) (hp : Later (M i t) (L (i, t))) (s : Nat) (hs : s < g.servers) :
    Later (rseg (lvl g.servers i) (sibs i) g.wait s :: M i s) (L (i, s)) := by
  by_cases hst : s = t
  · subst hst
    exact (Later.drop (.refl _)).trans hp
  · refine w.inv.past w.later hp ((suffix_of_eq (r.first i s hs h0 hi)).trans (List.suffix_append _ _)) ?_
    have e := w.bytes h i i s t hs ht
    rw [r.first i s hs h0 hi, r.first i t ht h0 hi, segSent_append, segRcvd_append, segSent_of_recvs (comm_queries _ _),
      segRcvd_of_recvs (comm_queries _ _), if_neg (by intro e; have := congrArg Prod.fst e; simp at this; omega), segRcvd_cons,
      wait_rcvd_sib g i t s ht hs (Ne.symm hst), segSent_cons, wait_sent g i s t ht (Ne.symm hst)] at e
    rw [segSent_cons, wait_sent g i s t ht (Ne.symm hst)]
    simp only [List.nil_append, List.length_append, List.length_cons, List.length_nil] at e ⊢
    omega

/-- A server that has read everything: the one before it is past its first barrier. -/
theorem Where.before (w : g.Where offline n pre post L) (r : g.Rest offline post M R) (h : g.Valid) {i s : Nat} (hs : s < g.servers)
    (h0 : 0 < i) (hi : i < g.parties) {B A : List (Seg Node Obs)} (hB : post (i + 1, s) = A ++ B)
    (hA : (segRcvd (i, s) A).length = (g.queryB offline i s).length) (hq : 0 < (g.qs offline i s).length)
    (hp : Later B (L (i + 1, s))) : Later (M i s) (L (i, s)) := by
  refine w.inv.past w.later hp ((((List.suffix_cons _ _).trans (suffix_of_eq (r.first i s hs h0 hi)))).trans (List.suffix_append _ _)) ?_
  have e := w.bytes h i (i + 1) s s hs hs
  rw [r.first i s hs h0 hi, hB, segSent_append, segSent_of_recvs (comm_queries _ _), segSent_cons,
    wait_sent_other g i (i + 1) s s (by omega), segRcvd_append] at e
  simp only [List.nil_append, List.length_append, List.length_nil] at e
  have := queryB_pos hq
  omega

theorem Where.read_all (w : g.Where offline n pre post L) (r : g.Rest offline post M R) (h : g.Valid) {i : Nat} (h0 : 0 < i)
    (hi : i < g.parties) {s : Nat} (hs : s < g.servers)
    (hp : Later (rseg (lvl g.servers i) (sibs i) g.wait s :: M i s) (L (i, s))) : (queriesRead (n.seen (i, s))).length = g.load (i - 1) s := by
  obtain ⟨k, rfl⟩ : ∃ k, i = k + 1 := ⟨i - 1, by omega⟩
  rw [Nat.add_sub_cancel]
  have hl := (qs_spec h offline k (by omega) s hs).1
  have h1 := w.inv.obs_past (A := pre (k + 1, s) ++ ((g.qs offline k s).flatMap (fun q => aRecvQuery (k, s) q.query)).map Seg.act) hp (by
    rw [List.append_assoc]
    exact congrArg (fun x => segObs (pre (k + 1, s) ++ x)) (r.first _ s hs h0 hi))
  have h2 := (Chain.queriesRead_prefix h1).length_le
  rw [segObs_append, segObs_acts, obs_queries] at h2
  have h3 : n.seen (k + 1, s) <+: g.obsAll offline true (k + 1) s := w.prefix _ s hs
  have h4 := (Chain.queriesRead_prefix h3).length_le
  rw [queriesRead_pos g offline s k (by omega), List.length_map, hl] at h4
  have h5 : (queriesRead (segObs (pre (k + 1, s)) ++ (g.qs offline k s).map (fun q => Obs.recvQuery q.query))).length =
      (queriesRead (segObs (pre (k + 1, s)))).length + g.load k s := by
    unfold queriesRead
    rw [List.filterMap_append, List.length_append, List.filterMap_map]
    congr 1
    rw [← hl]
    show (List.filterMap (fun q : QTicket => some q.query) _).length = _
    rw [List.filterMap_eq_map', List.length_map]
  omega

/-- All servers of all parties up to one have read all queries, if one server of that one
is past its first barrier. -/
theorem Where.full (w : g.Where offline n pre post L) (r : g.Rest offline post M R) (h : g.Valid) {i t : Nat} (ht : t < g.servers)
    (h0 : 0 < i) (hi : i < g.parties) (hp : Later (M i t) (L (i, t))) (j : Nat) (hj0 : 0 < j) (hj : j ≤ i) (s : Nat) (hs : s < g.servers) :
    (queriesRead (n.seen (j, s))).length = g.load (j - 1) s := by
  have key : ∀ d i t, i = j + d → t < g.servers → i < g.parties → Later (M i t) (L (i, t)) →
      (queriesRead (n.seen (j, s))).length = g.load (j - 1) s := by
    intro d
    induction d with
    | zero =>
      rintro i t rfl ht hi hp
      exact w.read_all r h (by omega) hi hs (w.siblings r h ht (by omega) hi hp s hs)
    | succ d ih =>
      rintro i t rfl ht hi hp
      have hall := w.siblings r h ht (by omega) hi hp
      by_cases htot : 0 < g.total (j + d)
      · rw [← load_sum g h.pos] at htot
        obtain ⟨u, x, hu, hx, -⟩ := preSum_find _ _ _ htot
        refine ih (j + d) u rfl hu (by omega) (w.before r h hu (by omega) (by omega) (r.first _ u hu (by omega) hi) ?_ ?_ (hall u hu))
        · rw [segRcvd_of_recvs (comm_queries _ _)]
          show (if (j + d, u) = (j + d, u) then _ else _ : List Byte).length = _
          rw [if_pos rfl]
          rfl
        · rw [(qs_spec h offline (j + d) (by omega) u hu).1]
          omega
      · have h1 := total_mono g (show j - 1 ≤ j + d by omega)
        have h2 : g.load (j - 1) s ≤ g.total (j - 1) := by
          rw [← load_sum g h.pos]
          have := preSum_mono (g.load (j - 1)) (show s + 1 ≤ g.servers by omega)
          rw [preSum_succ] at this
          omega
        have h3 : n.seen (j, s) <+: g.obsAll offline true j s := w.prefix _ s hs
        have h4 := (Chain.queriesRead_prefix h3).length_le
        obtain ⟨k, rfl⟩ : ∃ k, j = k + 1 := ⟨j - 1, by omega⟩
        rw [queriesRead_pos g offline s k (by omega), List.length_map, (qs_spec h offline k (by omega) s hs).1] at h4
        rw [Nat.add_sub_cancel] at *
        omega
  exact key (i - j) i t (by omega) ht hi hp

/-- The offline stage has no queries and no responses. -/
theorem obsOff_none {β : Type} {f : Obs → Option β} (h1 : ∀ x, f (.sendCount x) = none) (h2 : ∀ x, f (.recvCount x) = none)
    (h3 : f .sendReady = none) (h4 : f .recvReady = none) (h5 : ∀ x, f (.sendCipher x) = none) (h6 : ∀ x, f (.recvCipher x) = none)
    (h7 : ∀ x, f (.store x) = none) (i s : Nat) : (g.obsOff offline i s).filterMap f = [] := by
  rw [List.filterMap_eq_nil_iff]
  intro o ho
  unfold obsOff at ho
  split_ifs at ho <;> simp only [List.append_nil, List.mem_append, List.mem_cons, List.mem_map, List.mem_flatMap, List.not_mem_nil, or_false] at ho
  all_goals aesop

/-- A server that has sent a query is past the first barrier. -/
theorem Where.sent_query (w : g.Where offline n pre post L) (r : g.Rest offline post M R) {i t : Nat} (ht : t < g.servers)
    (h0 : 0 < i) (hi : i < g.parties) (hq : queriesSent (n.seen (i, t)) ≠ []) : Later (M i t) (L (i, t)) := by
  have e : pre (i, t) ++ post (i, t) = (pre (i, t) ++ (((g.qs offline (i - 1) t).flatMap (fun q => aRecvQuery (i - 1, t) q.query)).map Seg.act ++
      [rseg (lvl g.servers i) (sibs i) g.wait t])) ++ M i t := by
    rw [r.first i t ht h0 hi]
    simp
  refine w.inv.past_obs (by rw [← e]; exact w.later _) (congrArg segObs e) hq ?_
  rw [segObs_append, segObs_append, segObs_acts, obs_queries, (w.does _ t ht).obsPre, List.filterMap_append, List.filterMap_append,
    obsOff_none (by intros; rfl) (by intros; rfl) rfl rfl (by intros; rfl) (by intros; rfl) (by intros; rfl), List.filterMap_map]
  rw [List.filterMap_eq_nil_iff.2 (by intro a _; rfl)]
  rfl

/-- What a party does up to its last barrier. -/
theorem Rest.split (r : g.Rest offline post M R) {i s : Nat} (hs : s < g.servers) (h0 : 0 < i) (hi : i < g.parties) :
    ∃ A, post (i, s) = A ++ (rseg (lvl g.servers i) (sibs i) g.wait s :: R i s) ∧
      segObs A = (g.qs offline (i - 1) s).map (fun q => .recvQuery q.query) ++ ((g.qs offline i s).map (fun q => .sendQuery q.query) ++
        (g.qs offline i s).map (fun q => .recvResponse q.resp)) := by
  obtain ⟨sq, sr, h1, h2, h3, h4⟩ := r.last i s hs h0 hi
  refine ⟨((g.qs offline (i - 1) s).flatMap (fun q => aRecvQuery (i - 1, s) q.query)).map Seg.act ++
      (rseg (lvl g.servers i) (sibs i) g.wait s :: ([rseg (lvl g.servers i) (sibs i) (g.queryR offline (i - 1)) s,
        rseg (lvl g.servers i) (sibs i) g.wait s] ++ (sq.map Seg.act ++
      (((g.qs offline i s).flatMap (fun q => aRecvResponse (i + 1, s) q.resp)).map Seg.act ++
      [rseg (lvl g.servers i) (sibs i) (g.backR offline (i - 1)) s, rseg (lvl g.servers i) (sibs i) g.wait s])))), ?_, ?_⟩
  · rw [r.first i s hs h0 hi, h1]
    simp
  · simp only [segObs_append, segObs_cons, segObs_acts, obs_queries, obs_responses, h3.2, segObs_nil]
    simp [Seg.obsv, rseg]

/-- A server that has sent a response is past the last barrier. -/
theorem Where.sent_response (w : g.Where offline n pre post L) (r : g.Rest offline post M R) {i t : Nat} (ht : t < g.servers)
    (h0 : 0 < i) (hi : i < g.parties) (hq : responsesSent (n.seen (i, t)) ≠ []) : Later (R i t) (L (i, t)) := by
  obtain ⟨A, hA, hobs⟩ := r.split ht h0 hi
  have e : pre (i, t) ++ post (i, t) = (pre (i, t) ++ (A ++ [rseg (lvl g.servers i) (sibs i) g.wait t])) ++ R i t := by
    rw [hA]
    simp
  refine w.inv.past_obs (by rw [← e]; exact w.later _) (congrArg segObs e) hq ?_
  rw [segObs_append, segObs_append, hobs, (w.does _ t ht).obsPre, List.filterMap_append,
    obsOff_none (by intros; rfl) (by intros; rfl) rfl rfl (by intros; rfl) (by intros; rfl) (by intros; rfl), List.filterMap_append,
    List.filterMap_append, List.filterMap_append, List.filterMap_map, List.filterMap_map, List.filterMap_map]
  rw [List.filterMap_eq_nil_iff.2 (by intro a _; rfl), List.filterMap_eq_nil_iff.2 (by intro a _; rfl),
    List.filterMap_eq_nil_iff.2 (by intro a _; rfl)]
  rfl

/-- One server past the last barrier: its siblings have read all responses. -/
theorem Where.siblings_back (w : g.Where offline n pre post L) (r : g.Rest offline post M R) {i t : Nat} (ht : t < g.servers)
    (h0 : 0 < i) (hi : i < g.parties) (hp : Later (R i t) (L (i, t))) (s : Nat) (hs : s < g.servers) :
    Later (rseg (lvl g.servers i) (sibs i) g.wait s :: R i s) (L (i, s)) := by
  by_cases hst : s = t
  · subst hst
    exact (Later.drop (.refl _)).trans hp
  · obtain ⟨A, hA, -⟩ := r.split hs h0 hi
    refine w.inv.past w.later hp ((suffix_of_eq hA).trans (List.suffix_append _ _)) ?_
    obtain ⟨sq, sr, -, h2, -, h4⟩ := r.last i t ht h0 hi
    rw [h2, segRcvd_of_sends h4.1, segSent_cons, wait_sent g i s t ht (Ne.symm hst)]
    simp

/-- A server that has a response: the one after it is past its last barrier. -/
theorem Where.after (w : g.Where offline n pre post L) (r : g.Rest offline post M R) {i s : Nat} (hs : s < g.servers)
    (hi : i + 1 < g.parties) {B : List (Seg Node Obs)} (hB : (segRcvd (i + 1, s) B).length < (g.respB offline i s).length)
    (hp : Later B (L (i, s))) : Later (R (i + 1) s) (L (i + 1, s)) := by
  obtain ⟨A, hA, -⟩ := r.split hs (by omega) hi
  refine w.inv.past w.later hp (((List.suffix_cons _ _).trans (suffix_of_eq hA)).trans (List.suffix_append _ _)) ?_
  obtain ⟨sq, sr, -, h2, -, h4⟩ := r.last (i + 1) s hs (by omega) hi
  rw [h2, segSent_of_sends h4.1]
  show _ < (if (i, s) = (i, s) then g.respB offline i s else []).length
  rwa [if_pos rfl]

theorem Where.read_back (w : g.Where offline n pre post L) (r : g.Rest offline post M R) (h : g.Valid) {i : Nat} (h0 : 0 < i)
    (hi : i < g.parties) {s : Nat} (hs : s < g.servers)
    (hp : Later (rseg (lvl g.servers i) (sibs i) g.wait s :: R i s) (L (i, s))) : (responsesRead (n.seen (i, s))).length = g.load i s := by
  obtain ⟨k, rfl⟩ : ∃ k, i = k + 1 := ⟨i - 1, by omega⟩
  have hl := (qs_spec h offline (k + 1) hi s hs).1
  obtain ⟨A, hA, hobs⟩ := r.split hs h0 hi
  have h1 := w.inv.obs_past (A := pre (k + 1, s) ++ A) hp (by
    rw [List.append_assoc]
    exact congrArg (fun x => segObs (pre (k + 1, s) ++ x)) hA)
  have h2 := (Chain.responsesRead_prefix h1).length_le
  rw [segObs_append, hobs] at h2
  have h4 := (Chain.responsesRead_prefix (w.prefix (k + 1) s hs)).length_le
  rw [responsesRead_party g offline s k hi, List.length_map, hl] at h4
  have h5 : (responsesRead ((g.qs offline (k + 1) s).map (fun q => Obs.recvResponse q.resp))).length = g.load (k + 1) s := by
    unfold responsesRead
    rw [List.filterMap_map, ← hl]
    show (List.filterMap (fun q : QTicket => some q.resp) _).length = _
    rw [List.filterMap_eq_map', List.length_map]
  simp only [responsesRead, List.filterMap_append, List.length_append] at h2 h5 h4 ⊢
  omega

/-- All servers of all parties from one on have read all responses, if one server of that one
is past its last barrier. -/
theorem Where.full_back (w : g.Where offline n pre post L) (r : g.Rest offline post M R) (h : g.Valid) {i t : Nat} (ht : t < g.servers)
    (h0 : 0 < i) (htot : 0 < g.total i) (hp : Later (R i t) (L (i, t))) (j : Nat) (hj : i ≤ j) (hjp : j < g.parties) (s : Nat)
    (hs : s < g.servers) : (responsesRead (n.seen (j, s))).length = g.load j s := by
  obtain ⟨d, rfl⟩ : ∃ d, j = i + d := ⟨j - i, by omega⟩
  suffices h : ∃ u, u < g.servers ∧ Later (R (i + d) u) (L (i + d, u)) by
    obtain ⟨u, hu, hl⟩ := h
    exact w.read_back r h (by omega) hjp hs (w.siblings_back r hu (by omega) hjp hl s hs)
  clear hj
  induction d with
  | zero => exact ⟨t, ht, hp⟩
  | succ d ih =>
    obtain ⟨v, hv, hl⟩ := ih (by omega)
    have h1 := total_mono g (show i ≤ i + d by omega)
    have h2 : 0 < g.total (i + d) := by omega
    rw [← load_sum g h.pos] at h2
    obtain ⟨u, x, hu, hx, -⟩ := preSum_find _ _ _ h2
    refine ⟨u, hu, w.after (i := i + d) r hu hjp ?_ (w.siblings_back r hv (by omega) (by omega) hl u hu)⟩
    obtain ⟨sq, sr, -, h2, -, h4⟩ := r.last (i + d) u hu (by omega) (by omega)
    rw [h2, segRcvd_cons, wait_rcvd g _ _ _ _ (by omega), segRcvd_of_sends h4.1]
    refine respB_pos ?_
    rw [(qs_spec h offline (i + d) (by omega) u hu).1]
    omega

theorem total_pos (h : g.Valid) {k s : Nat} (hs : s < g.servers) (hl : 0 < g.load k s) : 0 < g.total k := by
  rw [← load_sum g h.pos]
  have := preSum_mono (g.load k) (show s + 1 ≤ g.servers by omega)
  rw [preSum_succ] at this
  omega

/-- A backend that has looked something up has read all its queries. -/
theorem Where.looked_up (w : g.Where offline n pre post L) (r : g.Rest offline post M R) (h : g.Valid) {i t : Nat} (ht : t < g.servers)
    (hi : i + 1 = g.parties) (h0 : 0 < i) (hq : lookups (n.seen (i + 1, t)) ≠ []) : Later (M i t) (L (i, t)) := by
  obtain ⟨sr, h1, h2⟩ := ((w.does (i + 1) t ht).cuts rfl).backend hi
  rw [Nat.add_sub_cancel, List.map_append] at h1
  have e : pre (i + 1, t) ++ post (i + 1, t) = (pre (i + 1, t) ++ ((g.qs offline i t).flatMap (fun q => aRecvQuery (i, t) q.query)).map Seg.act) ++
      sr.map Seg.act := by
    rw [h1, List.append_assoc]
  have hl := w.inv.past_obs (by rw [← e]; exact w.later _) (congrArg segObs e) hq (by
    rw [segObs_append, segObs_acts, obs_queries, (w.does _ t ht).obsPre, List.filterMap_append,
      obsOff_none (by intros; rfl) (by intros; rfl) rfl rfl (by intros; rfl) (by intros; rfl) (by intros; rfl), List.filterMap_map]
    rw [List.filterMap_eq_nil_iff.2 (by intro a _; rfl)]
    rfl)
  refine w.before r h ht h0 (by omega) h1 ?_ ?_ hl
  · rw [segRcvd_of_recvs (comm_queries _ _), if_pos rfl]
    rfl
  · have h4 := (Chain.lookups_prefix (w.prefix (i + 1) t ht)).length_le
    rw [lookups_backend g offline t i hi, List.length_map] at h4
    have := List.length_pos_iff.2 hq
    omega

/-- A client that has a response: the first party is past its last barrier. -/
theorem Where.got_response (w : g.Where offline n pre post L) (r : g.Rest offline post M R) (h : g.Valid) {t : Nat} (ht : t < g.servers)
    (hP : 1 < g.parties) (hq : responsesRead (n.seen (0, t)) ≠ []) : Later (R 1 t) (L (1, t)) := by
  obtain ⟨sq, h1, h2⟩ := ((w.does 0 t ht).cuts rfl).client rfl
  have h4 := (Chain.responsesRead_prefix (w.prefix 0 t ht)).length_le
  rw [responsesRead_client g offline t, List.length_map, (qs_spec h offline 0 (by omega) t ht).1] at h4
  have h5 := List.length_pos_iff.2 hq
  have hc : 0 < g.load 0 t := by omega
  obtain ⟨c, hc'⟩ : ∃ c, g.count t = c + 1 := ⟨g.count t - 1, by have : g.load 0 t = g.count t := rfl; omega⟩
  have hB : segRcvd (1, t) (((List.range (g.count t)).flatMap (fun j => aRecvResponse (1, t) (g.clientQs offline t j).resp ++
      [.obs (.result (Database.row (g.clientQs offline t j).key))])).map Seg.act : List (Seg Node Obs)) = g.respB offline 0 t := by
    rw [segRcvd_of_recvs (comm_recvs (1, t) _ _ (fun j => (g.clientQs offline t j).resp.encode) (by intro j; simp [aRecvResponse])), if_pos rfl,
      respB, qs, List.flatMap_map]
  rw [hc', List.range_succ_eq_map, List.flatMap_cons] at h1 hB
  generalize hE : (List.map Nat.succ (List.range c)).flatMap (fun j => aRecvResponse (1, t) (g.clientQs offline t j).resp ++
      [.obs (.result (Database.row (g.clientQs offline t j).key))]) = E at h1 hB
  generalize g.clientQs offline t 0 = q at h1 hB
  have e0 : aRecvResponse (1, t) q.resp ++ [.obs (.result (Database.row q.key))] ++ E =
      q.resp.encode.map (Act.recv (1, t)) ++ ([.obs (.recvResponse q.resp), .obs (.result (Database.row q.key))] ++ E) := by
    simp [aRecvResponse]
  rw [e0, List.map_append] at h1 hB
  rw [List.map_append] at h1
  have e : pre (0, t) ++ post (0, t) = (pre (0, t) ++ (sq.map Seg.act ++ (q.resp.encode.map (Act.recv (1, t))).map Seg.act)) ++
      (([.obs (.recvResponse q.resp), .obs (.result (Database.row q.key))] ++ E : List (PAct Node))).map Seg.act := by
    rw [h1]
    simp
  have hl := w.inv.past_obs (by rw [← e]; exact w.later _) (congrArg segObs e) hq (by
    rw [segObs_append, segObs_append, segObs_acts, segObs_acts, h2.2, (w.does _ t ht).obsPre, List.filterMap_append, List.filterMap_append,
      obsOff_none (by intros; rfl) (by intros; rfl) rfl rfl (by intros; rfl) (by intros; rfl) (by intros; rfl)]
    rw [List.nil_append, List.append_eq_nil_iff]
    refine ⟨List.filterMap_eq_nil_iff.2 ?_, ?_⟩
    · intro o ho
      obtain ⟨q, -, ho⟩ := List.mem_flatMap.1 ho
      rcases List.mem_cons.1 ho with rfl | ho
      · rfl
      · rw [List.mem_singleton.1 ho]
    · rw [obsOf_map_recv]
      rfl)
  refine w.after (i := 0) r ht hP ?_ hl
  rw [← hB, segRcvd_append, List.length_append, segRcvd_of_recvs (d := (1, t)) (l := q.resp.encode) (comm_map_recv _ _), if_pos rfl, Response.encode_length]
  exact Nat.lt_add_of_pos_left (by decide)

end

/-! ### What has been read -/

variable {g : Grid box} (h : g.Valid) (offline : Bool) (hd : offline = true → g.DistinctTags) (cap : Node × Node → Nat)
    (n : PNet Node Obs Unit) (hn : Reach cap (g.net offline true) n)
include h hd hn

theorem queries_wait {k t : Nat} (h0 : 0 < k) (hk : k < g.parties) (ht : t < g.servers) (hq : queriesSent (n.seen (k, t)) ≠ [])
    (j s : Nat) (hj0 : 0 < j) (hj : j ≤ k) (hs : s < g.servers) : (queriesRead (n.seen (j, s))).length = g.load (j - 1) s := by
  obtain ⟨pre, post, L, h1, h2, h3⟩ := where_are h offline hd cap n hn
  have w : g.Where offline n pre post L := ⟨h1, h2, h3⟩
  obtain ⟨M, R, r⟩ := w.rest
  exact w.full r h ht h0 hk (w.sent_query r ht h0 hk hq) j hj0 hj s hs

theorem lookups_wait {t : Nat} (ht : t < g.servers) (hq : lookups (n.seen (g.parties, t)) ≠ [])
    (j s : Nat) (hj0 : 0 < j) (hj : j < g.parties) (hs : s < g.servers) : (queriesRead (n.seen (j, s))).length = g.load (j - 1) s := by
  obtain ⟨pre, post, L, h1, h2, h3⟩ := where_are h offline hd cap n hn
  have w : g.Where offline n pre post L := ⟨h1, h2, h3⟩
  obtain ⟨M, R, r⟩ := w.rest
  obtain ⟨i, hi⟩ : ∃ i, i + 1 = g.parties := ⟨g.parties - 1, by omega⟩
  rw [← hi] at hq
  exact w.full r h ht (by omega) (by omega) (w.looked_up r h ht hi (by omega) hq) j hj0 (by omega) s hs

theorem lookups_own {t : Nat} (ht : t < g.servers) (hq : lookups (n.seen (g.parties, t)) ≠ []) :
    (queriesRead (n.seen (g.parties, t))).length = g.load (g.parties - 1) t := by
  obtain ⟨pre, post, L, h1, h2, h3⟩ := where_are h offline hd cap n hn
  have w : g.Where offline n pre post L := ⟨h1, h2, h3⟩
  have hP := h.parties
  obtain ⟨i, hi⟩ : ∃ i, i + 1 = g.parties := ⟨g.parties - 1, by omega⟩
  rw [← hi] at hq ⊢
  rw [Nat.add_sub_cancel]
  obtain ⟨sr, h1, h2⟩ := ((w.does (i + 1) t ht).cuts rfl).backend hi
  rw [Nat.add_sub_cancel, List.map_append] at h1
  have e : pre (i + 1, t) ++ post (i + 1, t) = (pre (i + 1, t) ++ ((g.qs offline i t).flatMap (fun q => aRecvQuery (i, t) q.query)).map Seg.act) ++
      sr.map Seg.act := by
    rw [h1, List.append_assoc]
  have hl := w.inv.past_obs (by rw [← e]; exact w.later _) (congrArg segObs e) hq (by
    rw [segObs_append, segObs_acts, obs_queries, (w.does _ t ht).obsPre, List.filterMap_append,
      obsOff_none (by intros; rfl) (by intros; rfl) rfl rfl (by intros; rfl) (by intros; rfl) (by intros; rfl), List.filterMap_map]
    rw [List.filterMap_eq_nil_iff.2 (by intro a _; rfl)]
    rfl)
  have h1 := (Chain.queriesRead_prefix (w.inv.obs_past hl (congrArg segObs e))).length_le
  rw [segObs_append, segObs_acts, obs_queries] at h1
  have h2 := length_queriesRead (g.qs offline i t)
  have h4 := (Chain.queriesRead_prefix (w.prefix (i + 1) t ht)).length_le
  have hlen := (qs_spec h offline i (by omega) t ht).1
  rw [queriesRead_pos g offline t i (by omega), List.length_map] at h4
  simp only [queriesRead, List.filterMap_append, List.length_append] at h1 h2 h4 ⊢
  omega

theorem responses_wait {k t : Nat} (h0 : 0 < k) (hk : k < g.parties) (ht : t < g.servers) (hq : responsesSent (n.seen (k, t)) ≠ [])
    (j s : Nat) (hj : k ≤ j) (hjp : j < g.parties) (hs : s < g.servers) : (responsesRead (n.seen (j, s))).length = g.load j s := by
  obtain ⟨pre, post, L, h1, h2, h3⟩ := where_are h offline hd cap n hn
  have w : g.Where offline n pre post L := ⟨h1, h2, h3⟩
  obtain ⟨M, R, r⟩ := w.rest
  refine w.full_back r h ht h0 ?_ (w.sent_response r ht h0 hk hq) j hj hjp s hs
  obtain ⟨i, rfl⟩ : ∃ i, k = i + 1 := ⟨k - 1, by omega⟩
  have h4 := (Chain.responsesSent_prefix (w.prefix (i + 1) t ht)).length_le
  rw [responsesSent_pos g offline t i (by omega), List.length_map, (qs_spec h offline i (by omega) t ht).1] at h4
  have h5 := List.length_pos_iff.2 hq
  exact lt_of_lt_of_le (total_pos h ht (show 0 < g.load i t by omega)) (total_mono g (by omega))

theorem results_wait {t : Nat} (ht : t < g.servers) (hq : responsesRead (n.seen (0, t)) ≠ [])
    (j s : Nat) (hj0 : 0 < j) (hjp : j < g.parties) (hs : s < g.servers) : (responsesRead (n.seen (j, s))).length = g.load j s := by
  obtain ⟨pre, post, L, h1, h2, h3⟩ := where_are h offline hd cap n hn
  have w : g.Where offline n pre post L := ⟨h1, h2, h3⟩
  obtain ⟨M, R, r⟩ := w.rest
  refine w.full_back r h ht (by omega) ?_ (w.got_response r h ht (by omega) hq) j hj0 hjp s hs
  have h4 := (Chain.responsesRead_prefix (w.prefix 0 t ht)).length_le
  rw [responsesRead_client g offline t, List.length_map, (qs_spec h offline 0 (by omega) t ht).1] at h4
  have h5 := List.length_pos_iff.2 hq
  exact lt_of_lt_of_le (total_pos h ht (show 0 < g.load 0 t by omega)) (total_mono g (by omega))

end Grid
end DPPIR.Protocol
