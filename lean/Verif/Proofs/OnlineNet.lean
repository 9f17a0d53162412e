import Verif.Proofs.GridFacts
import Verif.Proofs.BroadcastRun
import Verif.Spec.Online

/-!
# The online stage of the servers of one party, with any successors
-/

namespace DPPIR.Protocol
open DPPIR Proc PNet Onion Shuffle Spec Additive Incremental

variable {box : SealedBox}

/-! ### The predecessors and successors -/

theorem recvAll_runs (dst : Node) (rs : List Response) (i : Nat) :
    Runs (loop rs.length i (fun _ _ => do
      let _ ← recvResponse dst
      return ()) () : Prog Node Unit) (rs.flatMap (fun r => aRecvResponse dst r)) () := by
  induction rs generalizing i with
  | nil => exact Runs.done _
  | cons r rs ih =>
    exact Runs.bind (Runs.bind' (runs_recvResponse dst r) (Runs.done _) (List.append_nil _).symm) (ih (i + 1))

theorem recvQueries_runs (src : Node) (qs : List Query) (i : Nat) (acc : List Query) :
    Runs (loop qs.length i (fun _ qs => do
      let q ← recvQuery src
      return qs ++ [q]) acc : Prog Node (List Query)) (qs.flatMap (fun q => aRecvQuery src q)) (acc ++ qs) := by
  induction qs generalizing i acc with
  | nil => rw [List.append_nil]; exact Runs.done acc
  | cons q qs ih =>
    have := ih (i + 1) (acc ++ [q])
    rw [List.append_assoc] at this
    exact Runs.bind (Runs.bind' (runs_recvQuery src q) (Runs.done _) (List.append_nil _).symm) this

theorem predecessor_runs (dst : Node) (qs : List Query) (rs : List Response) (h : rs.length = qs.length) :
    ∃ as, PProc.Does (fun _ => True) (predecessor dst qs) (as.map Seg.act) ∧
      comm as = (qs.flatMap Query.encode).map (Act.send dst) ++ (rs.flatMap Response.encode).map (Act.recv dst) ∧
      obsOf as = qs.map Obs.sendQuery ++ rs.map Obs.recvResponse := by
  obtain ⟨as, w, h2, -, h3, h4⟩ := each_buffered dst id (fun w : WBuf => w.Room querySize) (sendQuery dst) id
    (fun q : Query => q.encode) (fun q => [.sendQuery q]) qs {} (WBuf.room_empty (by decide) (by decide))
    (fun q _ w hw => sendQuery_ok dst q w hw)
  obtain ⟨h5, h6⟩ := h3.flush h4
  have h6 := h6.singles
  rw [List.map_id] at h2
  have h7 := recvAll_runs dst rs 0
  rw [h] at h7
  refine ⟨_, (PProc.Does.ofProc (Runs.bind h2 (Runs.bind h5 h7))).mono (fun _ _ => trivial), ?_, ?_⟩
  · rw [← List.append_assoc, comm_append, h6.comm, comm_recvs dst _ _ Response.encode (by intro j; simp [aRecvResponse])]
  · rw [← List.append_assoc, obsOf_append, h6.obs, obsOf_recvs _ _ (fun r => [.recvResponse r]) (by intro j; simp [aRecvResponse]),
      ← List.map_eq_flatMap]

theorem successor_runs (src : Node) (answer : List Query → List Response) (qs : List Query) :
    ∃ as, PProc.Does (fun _ => True) (successor src qs.length answer) (as.map Seg.act) ∧
      comm as = (qs.flatMap Query.encode).map (Act.recv src) ++ ((answer qs).flatMap Response.encode).map (Act.send src) ∧
      obsOf as = qs.map Obs.recvQuery ++ (answer qs).map Obs.sendResponse := by
  obtain ⟨as, w, h2, -, h3, h4⟩ := each_buffered src id (fun w : WBuf => w.Room responseSize) (sendResponse src) id
    (fun r : Response => r.encode) (fun r => [.sendResponse r]) (answer qs) {} (WBuf.room_empty (by decide) (by decide))
    (fun q _ w hw => sendResponse_ok src q w hw)
  obtain ⟨h5, h6⟩ := h3.flush h4
  have h6 := h6.singles
  rw [List.map_id] at h2
  have h7 := recvQueries_runs src qs 0 []
  rw [List.nil_append] at h7
  refine ⟨_, (PProc.Does.ofProc (Runs.bind h7 (Runs.bind h2 h5))).mono (fun _ _ => trivial), ?_, ?_⟩
  · rw [comm_append, h6.comm, comm_recvs src _ _ Query.encode (by intro j; simp [aRecvQuery])]
  · rw [obsOf_append, h6.obs, obsOf_recvs _ _ (fun r => [.recvQuery r]) (by intro j; simp [aRecvQuery]),
      ← List.map_eq_flatMap]

/-! ### Tickets -/

theorem shuffled_congr {α : Type} {S : Nat} {dests : Nat → List Nat} {b b' : Nat → List α} {B : List Nat} {t : Nat}
    (h : ∀ s, s < S → b s = b' s) : shuffled S dests b B t = shuffled S dests b' B t := by
  unfold shuffled
  rw [List.flatMap_def, List.flatMap_def, List.map_congr_left (fun s hs => by rw [h s (List.mem_range.1 hs)])]

namespace OnlineNet

variable (o : Online) (secret : Nat → BitVec 64 → PartySecret)

/-- Noise of server `s`. -/
def NQ (s : Nat) : List QTicket := (o.noiseQueries s).mapIdx (fun a q => ⟨q.tag, q.tally, Nat.pair s a, [], []⟩)

/-- Queries for server `s`. -/
def Q (s : Nat) : List QTicket := (o.input s).mapIdx (fun i q =>
  ⟨q.tag, q.tally, Nat.pair s (o.noise s + i), [(secret s q.tag).incremental], [(secret s q.tag).preshare]⟩)

/-- Queries server `t` passes on. -/
def outQ (t : Nat) : List QTicket := shuffled o.servers o.dests (rawQ (NQ o) (Q o secret)) (o.local t).backward t

/-- The same. -/
def asked (t : Nat) : List Query := (outQ o secret t).map QTicket.query

/-- The ticket with number `key` gets to place `ty.2` of server `ty.1`. -/
def Lands (key : Nat) (ty : Nat × Nat) : Prop :=
  ty.1 < o.servers ∧ ∃ k, o.Goes key.unpair.1 key.unpair.2 ty.1 k ∧ o.Slot ty.1 key.unpair.1 k ty.2

open Classical in
/-- The answer to a query. -/
noncomputable def ans (q : QTicket) : Response :=
  if h : ∃ ty, Lands o q.key ty then (o.answer h.choose.1 (asked o secret h.choose.1)).getD h.choose.2 ⟨0, fun _ => 0⟩
  else ⟨0, fun _ => 0⟩

/-- The response to the predecessor. -/
noncomputable def out (q : QTicket) : Response := Response.ofMem (bx (Response.mem (ans o secret q.next)) (q.pres.headD (fun _ => 0)))

theorem raw_query (s : Nat) (hnext : ∀ q ∈ o.input s, (secret s q.tag).nextTag = q.tag) :
    (rawQ (NQ o) (Q o secret) s).map QTicket.query = o.batch secret s := by
  unfold rawQ NQ Q Online.batch
  rw [List.map_append, List.map_map]
  congr 1
  · apply List.ext_getElem?
    intro i
    simp
    cases (o.noiseQueries s)[i]? <;> rfl
  · apply List.ext_getElem?
    intro i
    simp only [List.getElem?_map, List.getElem?_mapIdx]
    cases hi : (o.input s)[i]? with
    | none => rfl
    | some q =>
      have := hnext q (List.mem_of_getElem? hi)
      simp [passed, QTicket.query, QTicket.next, this]

theorem NQ_length (s : Nat) : (NQ o s).length = (o.noiseQueries s).length := by simp [NQ]
theorem Q_length (s : Nat) : (Q o secret s).length = (o.input s).length := by simp [Q]

theorem raw_key (s a : Nat) (q : QTicket) (hn : (o.noiseQueries s).length = o.noise s)
    (h : (rawQ (NQ o) (Q o secret) s)[a]? = some q) : q.key = Nat.pair s a := by
  unfold rawQ at h
  by_cases ha : a < (NQ o s).length
  · rw [List.getElem?_append_left ha, NQ, List.getElem?_mapIdx] at h
    cases hq : (o.noiseQueries s)[a]? with
    | none => rw [hq] at h; cases h
    | some q' => rw [hq] at h; cases h; rfl
  · rw [List.getElem?_append_right (by omega), List.getElem?_map, Q, List.getElem?_mapIdx] at h
    cases hq : (o.input s)[a - (NQ o s).length]? with
    | none => rw [hq] at h; cases h
    | some q' =>
      rw [hq] at h
      cases h
      rw [NQ_length, hn] at ha
      show Nat.pair s (o.noise s + (a - (NQ o s).length)) = _
      rw [NQ_length, hn]
      congr 1
      omega

section
variable {o secret} (h : DealOk o.toDeal)
include h

theorem lands_unique {key : Nat} {ty ty' : Nat × Nat} (hs : key.unpair.1 < o.servers) (h1 : Lands o key ty) (h2 : Lands o key ty') :
    ty = ty' := by
  obtain ⟨t, y⟩ := ty
  obtain ⟨t', y'⟩ := ty'
  obtain ⟨a1, k, a2, a3⟩ := h1
  obtain ⟨b1, k', b2, b3⟩ := h2
  simp only at a1 a2 a3 b1 b2 b3
  have e1 := (h.goes_iff hs).1 a2
  have e2 := (h.goes_iff hs).1 b2
  have : t = t' := Option.some.inj (e1.1.symm.trans e2.1)
  subst this
  have : k = k' := e1.2.symm.trans e2.2
  subst this
  have e3 := (h.slot_iff a1 hs).1 a3
  have e4 := (h.slot_iff a1 hs).1 b3
  rw [e3] at e4
  rw [Option.some.inj e4]

theorem ans_at {q : QTicket} {t y : Nat} (hs : q.key.unpair.1 < o.servers) (hl : Lands o q.key (t, y)) :
    ans o secret q = (o.answer t (asked o secret t)).getD y ⟨0, fun _ => 0⟩ := by
  unfold ans
  have hex : ∃ ty, Lands o q.key ty := ⟨_, hl⟩
  rw [dif_pos hex, lands_unique h hs hex.choose_spec hl]

variable (hcount : ∀ s, s < o.servers → o.counts[s]? = some (o.noise s + (o.input s).length))
  (hnoise : ∀ s, s < o.servers → (o.noiseQueries s).length = o.noise s)
include hcount hnoise

omit h in
theorem raw_length {s : Nat} (hs : s < o.servers) : (rawQ (NQ o) (Q o secret) s).length = o.counts.getD s 0 := by
  unfold rawQ
  rw [List.length_append, List.length_map, NQ_length, Q_length, hnoise s hs, List.getD_eq_getElem?_getD, hcount s hs]
  rfl

theorem outQ_shuffled {t : Nat} (ht : t < o.servers) : o.toDeal.Shuffled (rawQ (NQ o) (Q o secret)) t (outQ o secret t) :=
  h.result _ (fun _ hs => raw_length hcount hnoise hs) ht

theorem outQ_lands {t y : Nat} (ht : t < o.servers) {q : QTicket} (hq : (outQ o secret t)[y]? = some q) :
    q.key.unpair.1 < o.servers ∧ Lands o q.key (t, y) := by
  have hsh := outQ_shuffled (secret := secret) h hcount hnoise ht
  have hy := (List.getElem?_eq_some_iff.1 hq).1
  obtain ⟨⟨s, a⟩, ⟨hs, k, hg, hsl⟩, -⟩ := hsh.full y hy
  simp only at hs hg hsl
  have ha : a < (rawQ (NQ o) (Q o secret) s).length := by
    rw [raw_length hcount hnoise hs, ← h.length hs]
    exact (List.getElem?_eq_some_iff.1 ((h.goes_iff hs).1 hg).1).1
  obtain ⟨z, z1, z2⟩ := hsh.placed s a k _ hs hg (List.getElem?_eq_getElem ha)
  have : z = y := by
    have e1 := (h.slot_iff ht hs).1 z1
    have e2 := (h.slot_iff ht hs).1 hsl
    rw [e1] at e2
    exact Option.some.inj e2
  subst this
  rw [hq] at z2
  have hk : q.key = Nat.pair s a := raw_key o secret s a q (hnoise s hs) (by
    rw [List.getElem?_eq_getElem ha]; exact z2.symm)
  unfold Lands
  rw [hk, Nat.unpair_pair]
  exact ⟨hs, ht, k, hg, hsl⟩

theorem outQ_ans {t : Nat} (ht : t < o.servers) (hlen : (o.answer t (asked o secret t)).length = (asked o secret t).length) :
    (outQ o secret t).map (ans o secret) = o.answer t (asked o secret t) := by
  apply List.ext_getElem?
  intro y
  rw [List.getElem?_map]
  cases hq : (outQ o secret t)[y]? with
  | none =>
    have : (outQ o secret t).length ≤ y := by simpa using hq
    symm
    rw [Option.map_none, List.getElem?_eq_none_iff, hlen, asked, List.length_map]
    exact this
  | some q =>
    obtain ⟨h1, h2⟩ := outQ_lands h hcount hnoise ht hq
    rw [Option.map_some, ans_at h h1 h2]
    have hy := (List.getElem?_eq_some_iff.1 hq).1
    have : y < (o.answer t (asked o secret t)).length := by rw [hlen, asked, List.length_map]; exact hy
    rw [List.getElem?_eq_getElem this, List.getD_eq_getElem _ _ this]

end

/-! ### The network -/

/-- A barrier. -/
def wait : Nat → List (Nat × Byte) := castOut o.servers readyMsg

/-- Shuffle of the queries. -/
def queryR : Nat → List (Nat × Byte) := queryRound o.servers o.dests (fun s => (rawQ (NQ o) (Q o secret) s).map QTicket.query)

/-- Return of the responses. -/
noncomputable def backR : Nat → List (Nat × Byte) := backRound o.servers o.dests (fun s => (NQ o s).length)
  (fun s => ((Q o secret s).map QTicket.next).map (ans o secret))

/-- What the predecessor of server `s` gets. -/
noncomputable def result (s : Nat) : List Response := (Q o secret s).map (out o secret)

def queryRs (l : Nat) : List (Nat → List (Nat × Byte)) := if l = 1 then [wait o, queryR o secret, wait o] else []
noncomputable def backRs (l : Nat) : List (Nat → List (Nat × Byte)) := if l = 1 then [backR o secret, wait o, wait o] else []

def queryB (k s : Nat) : List Byte := if k = 0 then (o.input s).flatMap Query.encode else (asked o secret s).flatMap Query.encode
noncomputable def respB (k s : Nat) : List Byte :=
  if k = 0 then (result o secret s).flatMap Response.encode else (o.answer s (asked o secret s)).flatMap Response.encode

/-- The global order. -/
noncomputable def script : List (GSeg Node) := rounds o.servers 1 [noiseRound o.servers o.dests o.noise] ++
  (downWave o.servers 2 (queryB o secret) (queryRs o secret) ++ upWave o.servers 2 (respB o secret) (backRs o secret))

theorem Q_query (s : Nat) : (Q o secret s).map QTicket.query = o.input s := by
  apply List.ext_getElem?
  intro i
  simp [Q]
  cases (o.input s)[i]? <;> rfl

section
variable {o secret} {p : Nat → ParallelParty box} {rand : Nat → ParallelRand box}
variable (h : DealOk o.toDeal) (hS : 2 ≤ o.servers ∧ o.servers < 255) (hr : ∀ s, s < o.servers → (rand s).rand = o.gen)
  (hp : ∀ s, s < o.servers → o.Ready secret s (p s))
  (hans : ∀ t qs, t < o.servers → (o.answer t qs).length = qs.length)
include h hS hr hp hans

omit hr in
theorem asked_length {t : Nat} (ht : t < o.servers) : (asked o secret t).length = (p t).shuffledCount := by
  obtain ⟨ps, h1, -⟩ := h.plan ht (o.noise t)
  rw [asked, List.length_map, (hp t ht).slice ps h1]
  exact (outQ_shuffled h (fun s hs => (hp s hs).total) (fun s hs => (hp s hs).noiseCount) ht).length ps h1

theorem server_does {s : Nat} (hs : s < o.servers) :
    ∃ L : List (Seg Node Obs), PProc.Does (fun _ => True) (do
        let p ← (p s).initializeShufflers (rand s) (fun t => (1, t))
        let _ ← p.startOnline (0, s) (2, s) (fun t => (1, t))
        return ()) L ∧
      segComm L = rsegs o.servers 1 s [noiseRound o.servers o.dests o.noise] ++
        (downSeg o.servers 2 1 s (queryB o secret) (queryRs o secret) ++ upSeg o.servers 2 1 s (respB o secret) (backRs o secret)) := by
  have hgr := lvl_group o.servers 1
  have hps := hp s hs
  have hlq := Q_length o secret s
  have hln : ∀ t, t < o.servers → (NQ o t).length = o.noise t := fun t ht => by rw [NQ_length, (hp t ht).noiseCount]
  have hcount : ∀ s, s < o.servers → o.counts[s]? = some (o.noise s + (o.input s).length) := fun s hs => (hp s hs).total
  have hnoise : ∀ s, s < o.servers → (o.noiseQueries s).length = o.noise s := fun s hs => (hp s hs).noiseCount
  have hI := initializeShufflers_does hgr (rand s) (p s) s hs o.seed (o.localSeed s) o.counts o.noise _ rfl h.small (by rw [hr s hs]; rfl)
    (h.counted hs hps.toReady)
  rw [hr s hs] at hI
  obtain ⟨sq, sr, h6, h7, h8⟩ := parallel_online_any (box := box) hgr hS.2 hS.1 (0, s) (2, s) s hs o.dests h.routing (ans o secret)
    (out o secret) (NQ o) (Q o secret) (fun t ht => by
      rw [hln t ht, Q_length, h.length ht, List.getD_eq_getElem?_getD, hcount t ht]; rfl) _ _ (h.shuffler hs).2
    (fun q _ t => additiveReconstructInto_ok _ _ _) (outQ o secret s) rfl
  have hnt : ∀ t, t < o.servers → noiseTo o.dests (fun s => (NQ o s).length) s t = noiseTo o.dests o.noise s t := by
    intro t ht
    unfold noiseTo
    simp only [hln t ht]
  have hrun := PProc.Does.bind hI (R := fun _ => True) (f := fun p' => do
      let _ ← p'.startOnline (0, s) (2, s) (fun t => (1, t))
      return ()) (by
    rintro p' ⟨ps, -, hps2, rfl⟩
    simp only [PProc.bind_def]
    refine PProc.Does.bind' (h6 _ ?_ ?_) (fun _ _ => .done trivial) (List.append_nil _).symm
    · refine ⟨hps.id, hps.count, ?_, rfl, rfl, ?_, ?_, ?_, ?_, ?_, ?_, ?_⟩
      · rw [hln s hs]; exact hps2
      · rw [hlq]; exact hps.tags
      · rw [hlq]; exact hps.input
      · obtain ⟨ps, h1, h2⟩ := h.plan hs (o.noise s)
        exact (hps.slice ps h1).trans h2.slice
      · rw [hln s hs]; exact hps.noise
      · exact (tab_congr _ _ _ (fun t ht => hnt t ht)).symm
      · exact (tab_congr _ _ _ (fun t ht => preSum_congr (fun i hi => hnt i (by omega)))).symm
      · obtain ⟨q1, q2, q3, q4⟩ := hps.queries
        refine ⟨(p s).queries.ptr, ?_, ?_, ?_⟩
        · rw [hln s hs, hlq, ← q1]
          show (p s).queries = _
          cases hq : (p s).queries
          simp only [hq] at q3
          simp [q3]
        · rw [q2, q1, List.length_append, List.length_map, hln s hs, hlq]
        · intro i f hi hf
          rw [List.getElem?_range (by omega)] at hf
          obtain rfl := Option.some.inj hf
          rw [hln s hs] at hi
          have e1 := congrArg (fun l => l[i]?) q4
          simp only [List.getElem?_take, hi, if_true] at e1
          rw [e1, List.getElem?_append_left (by rw [hln s hs]; exact hi), NQ, List.getElem?_mapIdx]
          cases (o.noiseQueries s)[i]? <;> rfl
    · intro q hq
      obtain ⟨i, hi, rfl⟩ := List.mem_mapIdx.1 hq
      obtain ⟨c1, c2⟩ := hps.secrets _ (List.getElem_mem hi)
      unfold CanLoad at c1
      constructor
      · simp only
        rw [PartyState.getNextTag, c1]
        exact congrArg Except.ok c2
      · simp only
        rw [PartyState.getIncremental, c1]
        rfl
      · simp only [PartyState.getPreshare]
        simp only [PartyState.loadSecret] at c1
        rw [c1]
        rfl)
  refine ⟨_, hrun, ?_⟩
  rw [downSeg_mid _ _ _ _ _ _ (by omega) (by omega), upSeg_mid _ _ _ _ _ _ (by omega) (by omega)]
  have e0 : queryB o secret 0 s = (o.input s).flatMap Query.encode := rfl
  have e1 : queryB o secret 1 s = (asked o secret s).flatMap Query.encode := rfl
  have e2 : respB o secret 0 s = (result o secret s).flatMap Response.encode := rfl
  have e3 : respB o secret 1 s = (o.answer s (asked o secret s)).flatMap Response.encode := rfl
  simp only [Nat.sub_self, e0, e1, e2, e3]
  simp only [rsegs, queryRs, backRs, if_true, List.map_nil, List.map_cons, List.append_nil, List.nil_append, segComm_append,
    segComm_rseg, segComm_acts, h7.comm, h8.comm, List.append_assoc, List.cons_append]
  rw [comm_recvs (0, s) _ _ (fun q => q.query.encode) (by intro j; simp [aRecvQuery]),
    comm_recvs (2, s) _ _ (fun q => (ans o secret q).encode) (by intro j; simp [aRecvResponse]),
    ← outQ_ans h hcount hnoise hs (hans s _ hs), ← Q_query o secret s]
  simp only [asked, result, List.flatMap_map]
  rfl

/-- Calls of the processes of the surroundings. -/
noncomputable def obsv (o : Online) (secret : Nat → BitVec 64 → PartySecret) (i s : Nat) : List Obs :=
  if i = 0 then (o.input s).map Obs.sendQuery ++ (result o secret s).map Obs.recvResponse
  else (asked o secret s).map Obs.recvQuery ++ (o.answer s (asked o secret s)).map Obs.sendResponse

omit h hS hr hp hans in
theorem result_length (s : Nat) : (result o secret s).length = (o.input s).length := by
  rw [result, List.length_map, Q_length]

omit h hS hr hp hans in
theorem proj_script (i s : Nat) (hs : s < o.servers) : (proj (i, s) (script o secret) : List (Seg Node Obs)) =
    (if i = 1 then rsegs o.servers 1 s [noiseRound o.servers o.dests o.noise] else []) ++
    (downSeg o.servers 2 i s (queryB o secret) (queryRs o secret) ++ upSeg o.servers 2 i s (respB o secret) (backRs o secret)) := by
  unfold script
  rw [pproj_append, pproj_append, pproj_down _ _ _ _ hs, pproj_up _ _ _ _ hs, pproj_rounds]
  simp only [hs, and_true]

theorem all_do : ∃ L : Node → List (Seg Node Obs), (∀ i, PProc.Does (fun _ => True) ((o.net p rand).proc i) (L i)) ∧
      (∀ i, segComm (L i) = proj i (script o secret)) ∧
      ∀ s, s < o.servers → segObs (L (0, s)) = obsv o secret 0 s ∧ segObs (L (2, s)) = obsv o secret 2 s := by
  have key : ∀ i : Node, ∃ L, PProc.Does (fun _ => True) ((o.net p rand).proc i) L ∧
      segComm L = proj i (script o secret) ∧ (i.2 < o.servers → i.1 = 0 ∨ i.1 = 2 → segObs L = obsv o secret i.1 i.2) := by
    rintro ⟨i, s⟩
    by_cases hs : s < o.servers
    · rw [proj_script i s hs]
      have hpr : (o.net p rand).proc (i, s) = (if i = 0 then predecessor (1, s) (o.input s)
        else if i = 1 then do
          let p ← (p s).initializeShufflers (rand s) (fun t => (1, t))
          let _ ← p.startOnline (0, s) (2, s) (fun t => (1, t))
          return ()
        else if i = 2 then successor (1, s) (p s).shuffledCount (o.answer s)
        else .done ()) := by
        show (if s < o.servers then _ else _) = _
        rw [if_pos hs]
      rw [hpr]
      match i with
      | 0 =>
        obtain ⟨as, h1, h2, h3⟩ := predecessor_runs (1, s) (o.input s) (result o secret s) (result_length s)
        refine ⟨_, h1, ?_, fun _ _ => ?_⟩
        · rw [downSeg_first _ _ _ _ _ (by omega), upSeg_first _ _ _ _ _ (by omega), segComm_acts, h2, List.map_append]
          show _ = _ ++ (_ ++ (_ ++ []))
          rw [List.append_nil]
          rfl
        · rw [segObs_acts, h3]
          rfl
      | 1 =>
        obtain ⟨L, h1, h2⟩ := server_does h hS hr hp hans hs
        refine ⟨L, h1, h2, fun _ h => ?_⟩
        simp at h
      | 2 =>
        obtain ⟨as, h1, h2, h3⟩ := successor_runs (1, s) (o.answer s) (asked o secret s)
        rw [asked_length h hS hp hans hs] at h1
        refine ⟨_, h1, ?_, fun _ _ => ?_⟩
        · rw [downSeg_last _ _ _ _ _ (by omega), upSeg_last _ _ _ _ _ (by omega), segComm_acts, h2, List.map_append]
          show _ = _ ++ ((_ ++ []) ++ _)
          rw [List.append_nil]
          rfl
        · rw [segObs_acts, h3]
          rfl
      | n + 3 =>
        refine ⟨[], .done trivial, ?_, fun _ h => ?_⟩
        · rw [downSeg_none _ _ _ _ _ _ (by omega), upSeg_none _ _ _ _ _ _ (by omega)]
          simp
        · simp at h
    · refine ⟨[], ?_, ?_, fun h => absurd h hs⟩
      · show PProc.Does _ (if s < o.servers then _ else _) _
        rw [if_neg hs]
        exact .done trivial
      · unfold script
        rw [pproj_append, pproj_append, (pproj_out _ _ _ _ hs _ _).1, (pproj_out _ _ _ _ hs _ _).2.1, pproj_rounds, if_neg (by simp [hs])]
        rfl
  choose L h1 h2 h3 using key
  exact ⟨L, h1, h2, fun s hs => ⟨h3 (0, s) hs (.inl rfl), h3 (2, s) hs (.inr rfl)⟩⟩

omit hr hans in
theorem script_ok {cap : Node × Node → Nat} (hc : o.Roomy cap) : ∀ x ∈ script o secret, GSeg.Ok cap x := by
  have hln : ∀ t, t < o.servers → (NQ o t).length = o.noise t := fun t ht => by rw [NQ_length, (hp t ht).noiseCount]
  have hraw : ∀ s, s < o.servers → (rawQ (NQ o) (Q o secret) s).length = (o.dests s).length := fun s hs => by
    rw [raw_length (fun s hs => (hp s hs).total) (fun s hs => (hp s hs).noiseCount) hs, h.length hs]
  have w : Grid.RoundOk o.servers 1 cap (wait o) := Grid.castOut_round _ (fun _ _ => by unfold readyMsg; simp) (fun s t hs ht _ => hc.count s t hs ht)
  have n : Grid.RoundOk o.servers 1 cap (noiseRound o.servers o.dests o.noise) := Grid.castOut_round _ (Grid.countMsg_le _) (fun s t hs ht _ => hc.count s t hs ht)
  have q : Grid.RoundOk o.servers 1 cap (queryR o secret) := by
    refine ⟨routed_outsOk _ _ _ _ _ h.routing, fun s t hs ht _ => ?_⟩
    refine le_trans ?_ (hc.queries s t hs ht)
    rw [← h.length hs]
    exact routed_toOne_le _ _ _ _ _ ht _ (h.routing.lt s hs) _ (by rw [List.length_map, hraw s hs]) (fun x _ => Query.encode_length x)
  have b : Grid.RoundOk o.servers 1 cap (backR o secret) := by
    refine ⟨backRound_ok _ _ _ _, fun s t hs ht _ => ?_⟩
    refine le_trans ?_ (hc.responses s t hs ht)
    refine le_trans (routed_toOne_le _ _ _ _ _ ht _ (srcList_lt _ _) _ ?_ (fun x _ => Response.encode_length x)) (Nat.mul_le_mul_right _ ?_)
    · unfold answersOf
      rw [srcList_length, concat_length]
    · rw [srcList_length]
      have hle : preSum (fun a => (rowsOf o.dests (fun s => (NQ o s).length) (fun s => ((Q o secret s).map QTicket.next).map (ans o secret)) s a).length)
          o.servers ≤ sliceOf o.servers o.dests s := by
        unfold sliceOf preSum
        refine List.sum_le_sum ?_
        intro u hu
        have hu := List.mem_range.1 hu
        have hr := count_real o.dests (fun s => (NQ o s).length) (fun s => ((Q o secret s).map QTicket.next).map (ans o secret)) s u (by
          unfold realDest
          have := hraw u hu
          unfold rawQ at this
          rw [List.length_append, List.length_map] at this
          rw [List.length_map, List.length_map, List.length_drop]
          simp only
          omega)
        omega
      refine le_trans hle ?_
      have h1 := Routing.slice_total h.routing.lt
      have h2 := preSum_mono (sliceOf o.servers o.dests) (show s + 1 ≤ o.servers by omega)
      rw [preSum_succ] at h2
      have h3 : preSum (fun s => (o.dests s).length) o.servers = o.counts.sum := by
        rw [preSum_congr (fun i hi => h.length hi), preSum_list o.counts o.servers (le_refl _)]
        show (o.counts.take o.counts.length).sum = _
        rw [List.take_length]
      omega
  intro x hx
  unfold script at hx
  simp only [List.mem_append] at hx
  rcases hx with hx | hx | hx
  · refine Grid.rounds_ok' ?_ x hx
    simp only [List.mem_cons, List.not_mem_nil, or_false, forall_eq]
    exact n
  · refine (waves_ok (fun _ _ _ _ => ⟨hc.link _, hc.link _⟩) ?_).1 x hx
    intro l
    unfold queryRs
    split
    · rename_i hl
      subst hl
      refine Grid.rounds_ok' ?_
      simp only [List.mem_cons, List.not_mem_nil, or_false]
      rintro o (rfl | rfl | rfl)
      · exact w
      · exact q
      · exact w
    · intro x hx; cases hx
  · refine (waves_ok (fun _ _ _ _ => ⟨hc.link _, hc.link _⟩) ?_).2.1 x hx
    intro l
    unfold backRs
    split
    · rename_i hl
      subst hl
      refine Grid.rounds_ok' ?_
      simp only [List.mem_cons, List.not_mem_nil, or_false]
      rintro o (rfl | rfl | rfl)
      · exact b
      · exact w
      · exact w
    · intro x hx; cases hx

omit h hS hr hp hans in
theorem exists_roomy (o : Online) : ∃ cap, o.Roomy cap := by
  refine ⟨fun x => 4 + o.counts.getD x.1.2 0 * querySize + o.counts.sum * responseSize,
    fun x => by generalize o.counts.getD x.1.2 0 * querySize = a; omega, fun s t _ _ => by dsimp only; omega, fun s t _ _ => ?_, fun s t _ _ => ?_⟩
  · dsimp only
    generalize o.counts.getD s 0 * querySize = a
    omega
  · dsimp only
    generalize o.counts.getD s 0 * querySize = a
    generalize o.counts.sum * responseSize = a
    omega

theorem every_run (cap : Node × Node → Nat) :
    (∀ n, Reach cap (o.net p rand) n →
      (∀ i, ¬ n.Faulted i) ∧
      (∀ s, s < o.servers → n.seen (0, s) <+: obsv o secret 0 s ∧ n.seen (2, s) <+: obsv o secret 2 s) ∧
      (∀ s, s < o.servers → (n.Returned (0, s) () → n.seen (0, s) = obsv o secret 0 s) ∧
        (n.Returned (2, s) () → n.seen (2, s) = obsv o secret 2 s)) ∧
      (o.Roomy cap → n.CanStep cap ∨ (∀ i, n.Returned i ()) ∧ ∀ c, n.chan c = [])) ∧
    (∀ f : Nat → PNet Node Obs Unit, f 0 = o.net p rand → ¬ ∀ k, ∃ i, Step cap i (f k) (f (k + 1))) := by
  obtain ⟨L, h1, h2, h3⟩ := all_do h hS hr hp hans
  obtain ⟨cap', hc'⟩ := exists_roomy o
  have h1 : ∀ i, PProc.Does (fun _ => True) ((o.net p rand).proc i) (L i) := h1
  refine ⟨fun n hn => ?_, fun f hf => ?_⟩
  · obtain ⟨a1, a2, a3⟩ := script_safe (script_ok h hS hp hc') h1 h2 hn
    refine ⟨a1, fun s hs => ?_, fun s hs => ?_, fun hc => ?_⟩
    · rw [← (h3 s hs).1, ← (h3 s hs).2]
      exact ⟨a2 _, a2 _⟩
    · rw [← (h3 s hs).1, ← (h3 s hs).2]
      exact ⟨fun hr => (a3 _ () hr).2, fun hr => (a3 _ () hr).2⟩
    · obtain ⟨-, -, b3⟩ := script_net (script_ok h hS hp hc) h1 h2 hn
      refine b3.imp id (fun b => ⟨fun i => ?_, b.2⟩)
      obtain ⟨⟨a, ha, -⟩, -⟩ := b.1 i
      exact ha
  · refine no_infinite_run ((Finset.range 3) ×ˢ (Finset.range o.servers)) f (fun i hi => ⟨(), ?_⟩)
    rw [hf]
    obtain ⟨i, s⟩ := i
    show (if s < o.servers then _ else _) = _
    simp only [Finset.mem_product, Finset.mem_range, not_and_or] at hi
    by_cases hs : s < o.servers
    · have hi : ¬ i < 3 := hi.resolve_right (by simpa using hs)
      rw [if_pos hs]
      simp only
      rw [if_neg (show ¬ i = 0 by omega), if_neg (show ¬ i = 1 by omega), if_neg (show ¬ i = 2 by omega)]
    · rw [if_neg hs]

theorem complete_run {cap : Node × Node → Nat} (hc : o.Roomy cap) : ∃ n, Reach cap (o.net p rand) n ∧ ∀ i, n.Returned i () := by
  obtain ⟨L, h1, h2, h3⟩ := all_do h hS hr hp hans
  obtain ⟨n, hn, hno⟩ := script_complete (script_ok h hS hp hc) h1 h2 ((Finset.range 3) ×ˢ (Finset.range o.servers))
    (fun i hi => ⟨(), by
      obtain ⟨i, s⟩ := i
      show (if s < o.servers then _ else _) = _
      simp only [Finset.mem_product, Finset.mem_range, not_and_or] at hi
      by_cases hs : s < o.servers
      · have hi : ¬ i < 3 := hi.resolve_right (by simpa using hs)
        rw [if_pos hs]
        simp only
        rw [if_neg (show ¬ i = 0 by omega), if_neg (show ¬ i = 1 by omega), if_neg (show ¬ i = 2 by omega)]
      · rw [if_neg hs]⟩)
  obtain ⟨-, -, -, h4⟩ := (every_run h hS hr hp hans cap).1 n hn
  exact ⟨n, hn, ((h4 hc).resolve_left hno).1⟩

omit hS hr in
/-- The result of a query is the answer at its place, without the share. -/
theorem result_at {s i t y : Nat} (hs : s < o.servers) (ht : t < o.servers) (hat : o.At s i t y) (q : Query) (hq : (o.input s)[i]? = some q) :
    ∃ r a, (result o secret s)[i]? = some r ∧ (o.answer t (asked o secret t))[y]? = some a ∧
      ∀ target, additiveReconstructInto a (secret s q.tag).preshare target = .ok r := by
  obtain ⟨k, hg, hsl⟩ := hat
  have hcount : ∀ s, s < o.servers → o.counts[s]? = some (o.noise s + (o.input s).length) := fun s hs => (hp s hs).total
  have hnoise : ∀ s, s < o.servers → (o.noiseQueries s).length = o.noise s := fun s hs => (hp s hs).noiseCount
  have hl : Lands o (Nat.pair s (o.noise s + i)) (t, y) := by
    unfold Lands
    rw [Nat.unpair_pair]
    exact ⟨ht, k, hg, hsl⟩
  obtain ⟨tk, htk, hqi, hk, hpre⟩ : ∃ tk : QTicket, tk.key = Nat.pair s (o.noise s + i) ∧ (Q o secret s)[i]? = some tk ∧
      tk.next.key = tk.key ∧ tk.pres.headD (fun _ => 0) = (secret s q.tag).preshare := by
    refine ⟨⟨q.tag, q.tally, Nat.pair s (o.noise s + i), [(secret s q.tag).incremental], [(secret s q.tag).preshare]⟩, rfl, ?_, rfl, rfl⟩
    rw [Q, List.getElem?_mapIdx, hq]
    rfl
  have hai : (rawQ (NQ o) (Q o secret) s)[o.noise s + i]? = some tk.next := by
    unfold rawQ
    rw [List.getElem?_append_right (by rw [NQ_length, hnoise s hs]; omega), NQ_length, hnoise s hs, Nat.add_sub_cancel_left,
      List.getElem?_map, hqi]
    rfl
  obtain ⟨z, z1, z2⟩ := (outQ_shuffled h hcount hnoise ht).placed s _ k _ hs hg hai
  have : z = y := by
    have e1 := (h.slot_iff ht hs).1 z1
    have e2 := (h.slot_iff ht hs).1 hsl
    rw [e1] at e2
    exact Option.some.inj e2
  subst this
  have hlen := hans t (asked o secret t) ht
  have hz : z < (o.answer t (asked o secret t)).length := by
    rw [hlen, asked, List.length_map]
    exact (List.getElem?_eq_some_iff.1 z2).1
  refine ⟨out o secret tk, (o.answer t (asked o secret t))[z], by rw [result, List.getElem?_map, hqi, Option.map_some],
    List.getElem?_eq_getElem hz, fun target => ?_⟩
  rw [additiveReconstructInto_ok]
  unfold out
  rw [ans_at (q := tk.next) h (t := t) (y := z) (by rw [hk, htk, Nat.unpair_pair]; exact hs) (by rw [hk, htk]; exact hl),
    List.getD_eq_getElem _ _ hz, hpre]

end

end OnlineNet

end DPPIR.Protocol
