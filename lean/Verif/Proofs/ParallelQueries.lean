import Verif.Proofs.PartyRun
import Verif.Proofs.ParallelOnline

/-!
# The noise queries and the queries of a parallel party
-/

namespace DPPIR.Protocol
open DPPIR Proc PNet Onion Incremental Additive Shuffle Spec

variable {box : SealedBox} {ι : Type}

theorem isShuffler_range (n : Nat) : IsShuffler (List.range n) (List.range n) n := by
  refine ⟨List.Perm.refl _, by simp, ?_⟩
  intro i j
  simp only [List.getElem?_range', List.getElem?_eq_some_iff, List.length_range, List.getElem_range]
  constructor <;> rintro ⟨h, rfl⟩ <;> exact ⟨h, rfl⟩

theorem range_get? {n i : Nat} (h : i < n) : (List.range n)[i]? = some i := List.getElem?_range h

theorem Placed.id_eq {all : List QTicket} {ptr : List Query} (h : Placed (List.range all.length) all ptr all.length) :
    ptr = all.map QTicket.query := by
  have hl := h.length
  apply List.ext_getElem?
  intro j
  by_cases hj : j < all.length
  · rw [h.at' j j hj (range_get? hj), List.getElem?_map]
  · rw [List.getElem?_eq_none (by omega), List.getElem?_eq_none (by simp; omega)]

/-- The keys of the noise queries of a server whose part of the database begins at
`start` and has `n` rows. -/
def noiseKeysAt (sample : Nat → BitVec 32) (start n : Nat) : List Nat := (noiseKeys sample n).map (start + ·)

theorem noiseKeysAt_length (sample : Nat → BitVec 32) (start n : Nat) : (noiseKeysAt sample start n).length = sampleSum sample n := by
  rw [noiseKeysAt, List.length_map, noiseKeys_length]

theorem noiseKeysAt_lt (sample : Nat → BitVec 32) (start n : Nat) : ∀ key ∈ noiseKeysAt sample start n, key < start + n := by
  intro key h
  obtain ⟨a, ha, rfl⟩ := List.mem_map.1 h
  have := noiseKeys_lt sample n a ha
  omega

theorem noiseKeysAt_get (sample : Nat → BitVec 32) (start n j i : Nat) (hk : j < n) (h1 : sampleSum sample j ≤ i)
    (h2 : i < sampleSum sample (j + 1)) : (noiseKeysAt sample start n)[i]? = some (start + j) := by
  rw [noiseKeysAt, List.getElem?_map, noiseKeys_get sample n j i hk h1 h2]
  rfl

section
variable (p : Party box) (ns : ClientState) (sample : Nat → BitVec 32) (start rows : Nat) (NQ rest : List QTicket) (M : Nat)

theorem parallelNoiseKeyStep_ok (j : Nat) (hk : j < rows) (ptr : List Query)
    (hns : NoiseReady ns NQ.length (fun i => (NQ.getD i QTicket.zero).tag) (fun i => (NQ.getD i QTicket.zero).shares))
    (hlen : NQ.length = sampleSum sample rows) (h32 : NQ.length < 2 ^ 32)
    (hM : (NQ ++ rest).length = M)
    (htally : ∀ (i : Nat) key q, NQ[i]? = some q → (noiseKeysAt sample start rows)[i]? = some key →
      generateIncrementalTally (BitVec.ofNat 32 key) q.shares = .ok q.tally)
    (hnoise : p.noise.ptr = (List.range rows).map (fun i => (sample i).toNat)) (hst : p.noiseStart = start)
    (hpl : Placed (List.range M) (NQ ++ rest) ptr (sampleSum sample j)) :
    ∃ ptr', ParallelParty.noiseKeyStep (start + j) (sampleSum sample j, { p with
        noiseState := { ns with readIdx := sampleSum sample j }
        queries := { ptr := ptr, capacity := M, right := 0 } }) = .ok (sampleSum sample (j + 1), { p with
        noiseState := { ns with readIdx := sampleSum sample (j + 1) }
        queries := { ptr := ptr', capacity := M, right := 0 } }) ∧
      Placed (List.range M) (NQ ++ rest) ptr' (sampleSum sample (j + 1)) := by
  subst hM
  have hmono := sampleSum_mono sample (show j + 1 ≤ rows by omega)
  have hmono' := sampleSum_mono sample (show j ≤ j + 1 by omega)
  have hF := isShuffler_range (NQ ++ rest).length
  obtain ⟨p', h1, ptr', rfl, h2⟩ := forRange_inv (fun i (p' : Party box) => ∃ ptr', p' = { p with
        noiseState := { ns with readIdx := i }
        queries := { ptr := ptr', capacity := (NQ ++ rest).length, right := 0 } } ∧
      Placed (List.range (NQ ++ rest).length) (NQ ++ rest) ptr' i) (fun i p => p.makeNoiseQuery (start + j) i)
      (sampleSum sample j) (sampleSum sample (j + 1))
    { p with
      noiseState := { ns with readIdx := sampleSum sample j }
      queries := { ptr := ptr, capacity := (NQ ++ rest).length, right := 0 } } hmono' ⟨ptr, rfl, hpl⟩ (by
      rintro i p' hi1 hi2 ⟨ptr', rfl, hpl'⟩
      have hi : i < NQ.length := by omega
      have hq : (NQ ++ rest)[i]? = some NQ[i] := by
        rw [List.getElem?_append_left hi, List.getElem?_eq_getElem hi]
      have hset := hpl'.set hF (range_get? (by simp; omega)) hq
      refine ⟨{ p with
        noiseState := { ns with readIdx := i + 1 }
        queries := { ptr := ptr'.set i NQ[i].query, capacity := (NQ ++ rest).length, right := 0 } }, ?_, _, rfl, hset.2⟩
      exact makeNoiseQuery_ok _ ns NQ.length i (start + j) i NQ[i] _ _ _ hns hi h32 rfl (by rw [List.getD_eq_getElem _ _ hi])
        (by rw [List.getD_eq_getElem _ _ hi])
        (htally i (start + j) _ (List.getElem?_eq_getElem hi) (noiseKeysAt_get sample start rows j i hk hi1 hi2)) hset.1)
  refine ⟨ptr', ?_, h2⟩
  unfold ParallelParty.noiseKeyStep
  simp only
  have e1 : p.noise.get (start + j - p.noiseStart) = .ok (sample j).toNat := by
    unfold Batch.get
    rw [hnoise, hst, rd_eq_ok, Nat.add_sub_cancel_left]
    simp [hk]
  rw [e1, bind_ok, ← sampleSum_succ, wrap32_of_lt (by omega), h1, bind_ok, Nat.max_eq_right hmono']

end

theorem parallelPrepareOnline_ok (p : ParallelParty box) (ns : ClientState) (sample : Nat → BitVec 32) (start rows : Nat)
    (NQ rest : List QTicket) (M : Nat)
    (hns : NoiseReady ns NQ.length (fun i => (NQ.getD i QTicket.zero).tag) (fun i => (NQ.getD i QTicket.zero).shares))
    (hpns : p.noiseState = ns)
    (hlen : NQ.length = sampleSum sample rows) (hM32 : M < 2 ^ 32)
    (hM : (NQ ++ rest).length = M) (hpn : p.noiseCount = NQ.length) (hpi : p.inputCount = rest.length)
    (htally : ∀ (i : Nat) key q, NQ[i]? = some q → (noiseKeysAt sample start rows)[i]? = some key →
      generateIncrementalTally (BitVec.ofNat 32 key) q.shares = .ok q.tally)
    (hnoise : p.noise.ptr = (List.range rows).map (fun i => (sample i).toNat)) (hst : p.noiseStart = start)
    (hend : p.noiseEnd = start + rows) :
    ∃ ptr ns', p.prepareOnline = .ok { p with
        tags := Batch.initialize p.inputCount 0
        queries := { ptr := ptr, capacity := M, right := 0 }
        outQueries := Batch.initialize p.shuffledCount ⟨0, 0⟩
        noise := Batch.free
        noiseState := ns' } ∧
      Placed (List.range M) (NQ ++ rest) ptr NQ.length := by
  have hl : NQ.length + rest.length = M := by simpa using hM
  have hw : wrap32 (p.inputCount + p.noiseCount) = M := by rw [hpn, hpi, wrap32_of_lt (by omega)]; omega
  obtain ⟨st, h1, ptr, rfl, h2⟩ := forRange_inv (fun key (st : Nat × Party box) => ∃ ptr, st = (sampleSum sample (key - start), { p.toParty with
        tags := Batch.initialize p.inputCount 0
        noiseState := { ns with readIdx := sampleSum sample (key - start) }
        queries := { ptr := ptr, capacity := M, right := 0 } }) ∧
      Placed (List.range M) (NQ ++ rest) ptr (sampleSum sample (key - start))) ParallelParty.noiseKeyStep start (start + rows)
    (0, { p.toParty with
      tags := Batch.initialize p.inputCount 0
      queries := Batch.initialize M ⟨0, 0⟩ }) (Nat.le_add_right _ _)
    ⟨List.replicate M ⟨0, 0⟩, by
      rw [Nat.sub_self]
      have e : ({ ns with readIdx := sampleSum sample 0 } : ClientState) = p.noiseState := by
        rw [hpns]
        have := hns.read
        cases ns
        simp only at this
        subst this
        rfl
      rw [e]
      rfl, by simpa using hM.symm, by intro i f hi; simp [sampleSum] at hi⟩ (by
      rintro key st hk1 hk2 ⟨ptr, rfl, hpl⟩
      obtain ⟨j, rfl⟩ := Nat.exists_eq_add_of_le hk1
      rw [Nat.add_sub_cancel_left] at hpl ⊢
      obtain ⟨ptr', g1, g2⟩ := parallelNoiseKeyStep_ok { p.toParty with tags := Batch.initialize p.inputCount 0 } ns sample start rows
        NQ rest M j (by omega) ptr hns hlen (by omega) hM htally hnoise hst hpl
      refine ⟨_, g1, ptr', ?_, ?_⟩
      · rw [show start + j + 1 - start = j + 1 by omega]
      · rw [show start + j + 1 - start = j + 1 by omega]; exact g2)
  rw [Nat.add_sub_cancel_left] at h1 h2
  rw [← hlen] at h2
  refine ⟨ptr, ({ ns with readIdx := sampleSum sample rows } : ClientState).free, ?_, h2⟩
  unfold ParallelParty.prepareOnline ParallelParty.initializeNoiseQueries
  simp only
  rw [hw, show forRange p.noiseStart p.noiseEnd = forRange start (start + rows) by rw [hst, hend], h1, bind_ok]
  rfl

/-! ## Queries -/

theorem parallelCollectQuery_ok (p : Party box) (back : ι) (NQ Q : List QTicket) (M : Nat)
    (hM : (NQ ++ Q.map QTicket.next).length = M) (h32 : M < 2 ^ 32)
    (hs : ∀ q ∈ Q, PartyServes p.queriesState q) (j : Nat) (hj : j < Q.length) (it : Option PartySecret)
    (ptr : List Query) (hpl : Placed (List.range M) (NQ ++ Q.map QTicket.next) ptr (NQ.length + j)) :
    ∃ it' ptr', Runs (ParallelParty.collectQuery back (NQ.length + j) (p.atQueries Q M j it ptr)) (aRecvQuery back Q[j].query)
        (p.atQueries Q M (j + 1) it' ptr') ∧
      Placed (List.range M) (NQ ++ Q.map QTicket.next) ptr' (NQ.length + (j + 1)) := by
  have hlM : NQ.length + Q.length = M := by simpa using hM
  subst hM
  have hF := isShuffler_range (NQ ++ Q.map QTicket.next).length
  have hq : (NQ ++ Q.map QTicket.next)[NQ.length + j]? = some Q[j].next := by
    rw [List.getElem?_append_right (by omega)]
    simp [hj]
  obtain ⟨hset, hpl'⟩ := hpl.set hF (range_get? (by omega)) hq
  have hserv := hs _ (List.getElem_mem hj)
  refine ⟨(p.queriesState.loadSecret Q[j].tag).it, ptr.set (NQ.length + j) Q[j].next.query, ?_, hpl'⟩
  have ht : (p.atQueries Q (NQ ++ Q.map QTicket.next).length j it ptr).tags.pushBack Q[j].query.tag =
      .ok (p.atQueries Q (NQ ++ Q.map QTicket.next).length (j + 1) it ptr).tags := by
    unfold Batch.pushBack Party.atQueries
    simp only
    rw [wr_ok (by simp; omega), bind_ok, wrap32_of_lt (by omega)]
    congr 2
    have := set_at_done ((Q.take j).map QTicket.tag) Q[j].tag 0 (Q.length - (j + 1))
    rw [List.length_map, List.length_take, Nat.min_eq_left (by omega), show Q.length - (j + 1) + 1 = Q.length - j by omega] at this
    show List.set _ j Q[j].tag = _
    rw [this, List.take_succ_eq_append_getElem hj, List.map_append]
    rfl
  have hh : Party.handleQuery { p.atQueries Q (NQ ++ Q.map QTicket.next).length j it ptr with
      tags := (p.atQueries Q (NQ ++ Q.map QTicket.next).length (j + 1) it ptr).tags } Q[j].query (NQ.length + j) =
      .ok (p.atQueries Q (NQ ++ Q.map QTicket.next).length (j + 1) (p.queriesState.loadSecret Q[j].tag).it
        (ptr.set (NQ.length + j) Q[j].next.query)) := by
    unfold Party.handleQuery
    simp only
    have e : (p.atQueries Q (NQ ++ Q.map QTicket.next).length j it ptr).queriesState.loadSecret Q[j].query.tag =
      p.queriesState.loadSecret Q[j].tag := rfl
    rw [e, hserv.tag, bind_ok, hserv.share, bind_ok]
    have e2 : (p.atQueries Q (NQ ++ Q.map QTicket.next).length j it ptr).queries.set (NQ.length + j)
        ⟨Q[j].tag, incrementalReconstruct Q[j].query.tally (Q[j].shares.headD ⟨0, 1⟩)⟩ =
        .ok { ptr := ptr.set (NQ.length + j) Q[j].next.query, capacity := (NQ ++ Q.map QTicket.next).length, right := 0 } := by
      show (wr ptr (NQ.length + j) Q[j].next.query >>= _) = _
      rw [hset, bind_ok]
      rfl
    rw [e2, bind_ok]
    rfl
  exact Runs.bind' (runs_recvQuery back Q[j].query) (Runs.bind' (Runs.lift ht) (Runs.lift hh) rfl)
    (List.append_nil _).symm

theorem parallelCollectQueries_ok (p : ParallelParty box) (back : ι) (NQ Q : List QTicket) (M : Nat)
    (hM : (NQ ++ Q.map QTicket.next).length = M) (h32 : M < 2 ^ 32)
    (hs : ∀ q ∈ Q, PartyServes p.queriesState q) (htags : p.tags = Batch.initialize Q.length 0)
    (hnc : p.noiseCount = NQ.length) (ptr : List Query)
    (hq : p.queries = { ptr := ptr, capacity := M, right := 0 })
    (hpl : Placed (List.range M) (NQ ++ Q.map QTicket.next) ptr NQ.length) :
    ∃ it, Runs (p.collectQueries back) (Q.flatMap (fun q => aRecvQuery back q.query)) { p with
      tags := { ptr := Q.map QTicket.tag, capacity := Q.length, right := Q.length }
      queriesState := { p.queriesState with it := it }
      queries := { ptr := (NQ ++ Q.map QTicket.next).map QTicket.query
                   capacity := M
                   right := 0 } } := by
  obtain ⟨p', h1, it, ptr', rfl, h2⟩ := Runs.loop_list (fun j (p' : Party box) => ∃ it ptr', p' = p.toParty.atQueries Q M j it ptr' ∧
      Placed (List.range M) (NQ ++ Q.map QTicket.next) ptr' (NQ.length + j))
    (ParallelParty.collectQuery back) (fun q => aRecvQuery back q.query) Q NQ.length p.toParty
    ⟨p.queriesState.it, ptr, by
      unfold Party.atQueries
      rw [← hq]
      simp only [List.take_zero, List.map_nil, List.nil_append, Nat.sub_zero]
      rw [show ({ ptr := List.replicate Q.length 0, capacity := Q.length, right := 0 } : Batch (BitVec 64)) = p.tags from
        htags.symm], hpl⟩ (by
      rintro j p' hj ⟨it, ptr', rfl, hpl'⟩
      obtain ⟨it', ptr'', g1, g2⟩ := parallelCollectQuery_ok p.toParty back NQ Q M hM h32 hs j hj it ptr' hpl'
      exact ⟨_, g1, it', ptr'', rfl, g2⟩)
  subst hM
  have hl : NQ.length + Q.length = (NQ ++ Q.map QTicket.next).length := by simp
  rw [hl] at h2
  have h3 := h2.id_eq
  refine ⟨it, ?_⟩
  have e : p.queries.capacity - p.noiseCount = Q.length := by rw [hq, hnc]; simp
  unfold ParallelParty.collectQueries
  rw [e, show loop Q.length p.noiseCount = (loop Q.length NQ.length : (Nat → Party box → Prog ι (Party box)) → _) by rw [hnc]]
  unfold Party.atQueries at h1
  rw [List.take_of_length_le (Nat.le_refl _), Nat.sub_self, List.replicate_zero, List.append_nil, h3] at h1
  exact Runs.bind' h1 (Runs.done _) (List.append_nil _).symm

theorem parallelSendQueries_ok (next : ι) (Q' : List QTicket) :
    ∃ sq, (∀ p : ParallelParty box, p.outQueries.elements = .ok (Q'.map QTicket.query) →
        Runs (p.sendQueries next) sq { p with outQueries := Batch.free }) ∧
      Sends next sq (Q'.flatMap (fun q => q.query.encode)) (Q'.map (fun q => .sendQuery q.query)) := by
  obtain ⟨as, w, h2, -, h3, h4⟩ := each_buffered next id (fun w : WBuf => w.Room querySize) (sendQuery next) QTicket.query
    (fun q => q.query.encode) (fun q => [.sendQuery q.query]) Q' {} (WBuf.room_empty (by decide) (by decide))
    (fun q _ w hw => sendQuery_ok next q.query w hw)
  obtain ⟨h5, h6⟩ := h3.flush h4
  refine ⟨as ++ w.pending.map (Act.send next), ?_, h6.singles⟩
  intro p hq
  exact Runs.bind' (Runs.lift hq) (Runs.bind h2 (Runs.bind' h5 (Runs.done _) (List.append_nil _).symm)) rfl

theorem sendResponses_any (back : ι) (out : QTicket → Response) (Q : List QTicket) :
    ∃ sr, (∀ p : Party box, p.responses = { ptr := Q.map out, capacity := Q.length, right := 0 } →
        Runs (p.sendResponses back) sr { p with responses := Batch.free }) ∧
      Sends back sr (Q.flatMap (fun q => (out q).encode)) (Q.map (fun q => .sendResponse (out q))) := by
  obtain ⟨as, w, h2, -, h3, h4⟩ := each_buffered back id (fun w : WBuf => w.Room responseSize) (sendResponse back) out
    (fun q => (out q).encode) (fun q => [.sendResponse (out q)]) Q {} (WBuf.room_empty (by decide) (by decide))
    (fun q _ w hw => sendResponse_ok back (out q) w hw)
  obtain ⟨h5, h6⟩ := h3.flush h4
  refine ⟨as ++ w.pending.map (Act.send back), ?_, h6.singles⟩
  intro p hq
  have h1 : p.responses.elements = .ok (Q.map out) := by
    unfold Batch.elements
    rw [hq]
    simp only
    rw [slice_ok (by simp), List.drop_zero, List.take_of_length_le (by simp)]
  exact Runs.bind' (Runs.lift h1) (Runs.bind h2 (Runs.bind' h5 (Runs.done _) (List.append_nil _).symm)) rfl

/-! ## The online stage -/

theorem shuffled_map {α β : Type} (f : α → β) (S : Nat) (dests : Nat → List Nat) (batch : Nat → List α) (B : List Nat) (t : Nat) :
    shuffled S dests (fun s => (batch s).map f) B t = (shuffled S dests batch B t).map f := by
  unfold shuffled
  rw [← pick_map, List.map_flatMap]
  congr 2
  funext s
  exact selTo_map _ _ _ _

theorem selTo_drop {α : Type} (ds : List Nat) (n : Nat) (l : List α) (t : Nat) (h : ds.length = l.length) :
    (selTo ds l t).drop ((ds.take n).count t) = selTo (ds.drop n) (l.drop n) t := by
  have h1 := selTo_append (ds.take n) (ds.drop n) (l.take n) (l.drop n) t (by rw [List.length_take, List.length_take, h])
  rw [List.take_append_drop, List.take_append_drop] at h1
  rw [h1]
  have h2 := selTo_length (ds.take n) (l.take n) t (by rw [List.length_take, List.length_take, h])
  rw [← h2, List.drop_left]

/-- A server of a party, ready for the online stage. -/
structure ParallelReady (p : ParallelParty box) (S me : Nat) (dests : Nat → List Nat) (NQ Q : Nat → List QTicket) (F B : List Nat) : Prop where
  id : p.serverId = me
  count : p.serverCount = S
  planned : Planned S dests me (NQ me).length p.pshuffler
  forward : p.shuffler.forward = F
  backward : p.shuffler.backward = B
  tags : p.tags = Batch.initialize (Q me).length 0
  input : p.inputCount = (Q me).length
  slice : p.shuffledCount = sliceOf S dests me
  noise : p.noiseCount = (NQ me).length
  noiseFrom : p.noiseFrom = tab S (noiseTo dests (fun s => (NQ s).length) me)
  noisePrefix : p.noisePrefix = tab S (fun s => preSum (noiseTo dests (fun s => (NQ s).length) me) (s + 1))
  queries : ∃ ptr, p.queries = { ptr := ptr, capacity := (NQ me).length + (Q me).length, right := 0 } ∧
    Placed (List.range ((NQ me).length + (Q me).length)) (NQ me ++ (Q me).map QTicket.next) ptr (NQ me).length

/-- The queries of server `s` before the shuffle. -/
def rawQ (NQ Q : Nat → List QTicket) (s : Nat) : List QTicket := NQ s ++ (Q s).map QTicket.next

section
variable [DecidableEq ι]

/-- The online stage when the next party answers `ans q` to the query of `q`. -/
theorem parallel_online_any {idx : ι → Option Nat} {sib : Nat → ι} {S : Nat} (hg : Group idx sib S) (hS : S < 255) (h2 : 2 ≤ S)
    (back next : ι) (me : Nat) (hme : me < S) (dests : Nat → List Nat) (hplan : Routing S dests)
    (ans out : QTicket → Response) (NQ Q : Nat → List QTicket) (hlen : ∀ s, s < S → (NQ s).length + (Q s).length = (dests s).length)
    (F B : List Nat) (hF : IsShuffler F B (sliceOf S dests me)) (hQ : ∀ q ∈ Q me, ∀ t, additiveReconstructInto (ans q.next) (q.pres.headD (fun _ => 0)) t = .ok (out q))
    (Q' : List QTicket) (hQ' : Q' = shuffled S dests (rawQ NQ Q) B me) :
    ∃ sq sr, (∀ p : ParallelParty box, ParallelReady p S me dests NQ Q F B → (∀ q ∈ Q me, PartyServes p.queriesState q) → PProc.Does (fun _ => True) (p.startOnline back next sib)
        (((Q me).flatMap (fun q => aRecvQuery back q.query)).map Seg.act ++ (rseg idx sib (castOut S readyMsg) me ::
          ([rseg idx sib (queryRound S dests (fun s => (rawQ NQ Q s).map QTicket.query)) me, rseg idx sib (castOut S readyMsg) me] ++
          (sq.map Seg.act ++ ((Q'.flatMap (fun q => aRecvResponse next (ans q))).map Seg.act ++
          ([rseg idx sib (backRound S dests (fun s => (NQ s).length) (fun s => ((Q s).map QTicket.next).map ans)) me,
            rseg idx sib (castOut S readyMsg) me] ++ (rseg idx sib (castOut S readyMsg) me :: sr.map Seg.act)))))))) ∧
      Sends next sq (Q'.flatMap (fun q => q.query.encode)) (Q'.map (fun q => .sendQuery q.query)) ∧
      Sends back sr ((Q me).flatMap (fun q => (out q).encode)) ((Q me).map (fun q => .sendResponse (out q))) := by
  obtain ⟨sq, hsq, hsq'⟩ := parallelSendQueries_ok (box := box) next Q'
  obtain ⟨sr, hsr, hsr'⟩ := sendResponses_any (box := box) back out (Q me)
  refine ⟨sq, sr, fun p hp hs => ?_, hsq', hsr'⟩
  obtain ⟨ptr, hptr, hpl⟩ := hp.queries
  have hl32 := hplan.length_le hme
  have hlme := hlen me hme
  have hraw : ∀ s, (rawQ NQ Q s).length = (NQ s).length + (Q s).length := by intro s; simp [rawQ]
  unfold ParallelParty.startOnline
  simp only [PProc.bind_def]
  obtain ⟨it, h1⟩ := parallelCollectQueries_ok p back (NQ me) (Q me) ((NQ me).length + (Q me).length) (by simp) (by omega) hs hp.tags
    hp.noise ptr hptr hpl
  refine PProc.Does.runs h1 ?_
  refine PProc.Does.bind' (L := [rseg idx sib (castOut S readyMsg) me]) (by
    have := barrier_does hg hme (fun _ => false)
    unfold ParallelParty.sync
    simp only
    rw [hp.id, hp.count]
    exact this) ?_ rfl
  rintro - -
  have hB1 : (shuffled S dests (fun s => (rawQ NQ Q s).map QTicket.query) B me) = Q'.map QTicket.query := by
    rw [shuffled_map, hQ']
  have hsh := fun hsl hitems => shuffleQueries_does hg hS ({ p with
      tags := { ptr := (Q me).map QTicket.tag, capacity := (Q me).length, right := (Q me).length }
      queriesState := { p.queriesState with it := it }
      queries := { ptr := (NQ me ++ (Q me).map QTicket.next).map QTicket.query
                   capacity := (NQ me).length + (Q me).length
                   right := 0 } } : ParallelParty box) me hme dests hplan (fun s => (rawQ NQ Q s).map QTicket.query)
    (by intro s hs; rw [List.length_map, hraw, hlen s hs]) (NQ me).length hp.id hp.count hp.planned B hsl hp.slice hitems
  have hsh := hsh (by simp only; rw [hp.forward]; exact hF) (by
    unfold Batch.elements
    simp only
    rw [slice_ok (by simp), List.drop_zero, List.take_of_length_le (by simp)]
    rfl)
  refine PProc.Does.bind' hsh ?_ rfl
  rintro p2 ⟨g, hgr, rfl⟩
  rw [hB1] at hgr
  refine PProc.Does.runs (hsq _ hgr.elements) ?_
  have hall : ∀ s, s < S → (selTo (dests s) ((rawQ NQ Q s).map ans) me).length = (dests s).count me := by
    intro s hs
    exact selTo_length _ _ _ (by rw [List.length_map, hraw, hlen s hs])
  have hpk : pick B ((List.range S).flatMap (fun s => selTo (dests s) ((rawQ NQ Q s).map ans) me)) = Q'.map ans := by
    have := shuffled_map ans S dests (rawQ NQ Q) B me
    unfold shuffled at this
    rw [this, hQ']
    rfl
  have hrun := fun hcnt hnz h32 hpre hpc hnf hnp hcount hsc hB => parallelCollectResponses_ok
    ({ p with
      tags := { ptr := (Q me).map QTicket.tag, capacity := (Q me).length, right := (Q me).length }
      queriesState := { p.queriesState with it := it }
      outQueries := Batch.free
      queries := Batch.free
      pshuffler := { p.pshuffler with
        forwardIdx := (dests me).length
        forward := [] }
      shuffler := p.shuffler.finishForward } : ParallelParty box) next S hcnt (fun s => (dests s).count me)
    (noiseTo dests (fun s => (NQ s).length) me) (fun s => selTo (dests s) ((rawQ NQ Q s).map ans) me) hall hnz h32 hpre hpc hnf
    hnp hcount hsc F B hF hB
  have hrun := hrun (by omega) (fun s _ => noiseTo_le _ _ _ _) (hplan.slice_le hme) hp.planned.prefixFrom hp.planned.count hp.noiseFrom
    hp.noisePrefix hp.count hp.slice hp.backward
  rw [hpk, List.flatMap_map] at hrun
  refine PProc.Does.runs hrun ?_
  have hans : ∀ s, s < S → (((Q s).map QTicket.next).map ans).length = (realDest dests (fun s => (NQ s).length) s).length := by
    intro s hs
    have := hlen s hs
    simp only [List.length_map, realDest, List.length_drop]
    omega
  have hdr : (List.range S).flatMap (fun s => (selTo (dests s) ((rawQ NQ Q s).map ans) me).drop
      (noiseTo dests (fun s => (NQ s).length) me s)) =
      answersOf S dests (fun s => (NQ s).length) (fun s => ((Q s).map QTicket.next).map ans) me := by
    unfold answersOf rowsOf
    rw [List.flatMap_def, List.flatMap_def]
    congr 1
    apply List.map_congr_left
    intro s hs
    rw [List.mem_range] at hs
    unfold noiseTo realDest
    rw [selTo_drop _ _ _ _ (by rw [List.length_map, hraw, hlen s hs])]
    congr 1
    unfold rawQ
    simp only
    rw [List.map_append, show (NQ s).length = ((NQ s).map ans).length by simp, List.drop_left]
  have hreal : (realDest dests (fun s => (NQ s).length) me).length = (Q me).length := by
    have := hans me hme
    simpa using this.symm
  have hdes := fun hn un hid hcount hps hnoise hin hnp hun hitems => deshuffleResponses_does hg hS h2
    ({ p with
      tags := { ptr := (Q me).map QTicket.tag, capacity := (Q me).length, right := (Q me).length }
      queriesState := { p.queriesState with it := it }
      outQueries := Batch.free
      queries := Batch.free
      pshuffler := { p.pshuffler with
        forwardIdx := (dests me).length
        forward := [] }
      shuffler := p.shuffler.finishForward.finishBackward
      inResponses := { ptr := (List.range S).flatMap (fun s => (selTo (dests s) ((rawQ NQ Q s).map ans) me).drop
                         (noiseTo dests (fun s => (NQ s).length) me s))
                       capacity := ((List.range S).flatMap (fun s => (selTo (dests s) ((rawQ NQ Q s).map ans) me).drop
                         (noiseTo dests (fun s => (NQ s).length) me s))).length
                       right := 0 } } : ParallelParty box) me hme dests hplan (fun s => (NQ s).length) hn
    (fun s => ((Q s).map QTicket.next).map ans) hans un hid hcount hps hnoise hin hnp hun hitems
  have hdes := hdes (by intro s hs; have := hlen s hs; omega) (fun i => out ((Q me).getD i QTicket.zero)) hp.id hp.count
    (hp.planned.back _ _) hp.noise (hp.input.trans hreal.symm) hp.noisePrefix (by
      intro i r hi
      simp only [List.map_map, List.getElem?_map, Option.map_eq_some_iff] at hi
      obtain ⟨q, hq, rfl⟩ := hi
      have hmem := List.mem_of_getElem? hq
      refine ⟨q.tag, q.pres.headD (fun _ => 0), ?_, (hs q hmem).pre, ?_⟩
      · unfold Batch.get
        rw [rd_eq_ok, List.getElem?_map, hq]
        rfl
      · intro t
        rw [List.getD_eq_getElem?_getD, hq]
        exact hQ q hmem t) (by
      unfold Batch.elements
      simp only
      rw [slice_ok (by simp), List.drop_zero, List.take_of_length_le (Nat.le_refl _), hdr])
  refine PProc.Does.bind' hdes ?_ rfl
  rintro p3 ⟨ps, rfl⟩
  refine PProc.Does.bind' (L := [rseg idx sib (castOut S readyMsg) me]) (by
    have := barrier_does hg hme (fun _ => false)
    unfold ParallelParty.sync
    simp only
    rw [hp.id, hp.count]
    exact this) ?_ rfl
  rintro - -
  have hr := hsr ({ p with
      tags := { ptr := (Q me).map QTicket.tag, capacity := (Q me).length, right := (Q me).length }
      queriesState := { p.queriesState with it := it }
      queries := Batch.free
      shuffler := p.shuffler.finishForward.finishBackward
      responses := { ptr := (List.range p.inputCount).map (fun i => out ((Q me).getD i QTicket.zero))
                     capacity := p.inputCount
                     right := 0 } }).toParty (by
    simp only
    rw [hp.input]
    congr 1
    apply List.ext_getElem?
    intro i
    by_cases hi : i < (Q me).length
    · simp [List.getElem?_range hi, hi]
    · rw [List.getElem?_eq_none (by simp; omega), List.getElem?_eq_none (by simp; omega)])
  rw [← List.append_nil (sr.map Seg.act)]
  exact PProc.Does.runs hr (.done trivial)

theorem parallel_online {idx : ι → Option Nat} {sib : Nat → ι} {S : Nat} (hg : Group idx sib S) (hS : S < 255) (h2 : 2 ≤ S)
    (back next : ι) (me : Nat) (hme : me < S) (dests : Nat → List Nat) (hplan : Routing S dests)
    (rows m : Nat) (NQ Q : Nat → List QTicket) (hlen : ∀ s, s < S → (NQ s).length + (Q s).length = (dests s).length)
    (F B : List Nat) (hF : IsShuffler F B (sliceOf S dests me)) (hQ : ∀ q ∈ Q me, q.Good rows (m + 1))
    (Q' : List QTicket) (hQ' : Q' = shuffled S dests (rawQ NQ Q) B me) :
    ∃ sq sr, (∀ p : ParallelParty box, ParallelReady p S me dests NQ Q F B → (∀ q ∈ Q me, PartyServes p.queriesState q) → PProc.Does (fun _ => True) (p.startOnline back next sib)
        (((Q me).flatMap (fun q => aRecvQuery back q.query)).map Seg.act ++ (rseg idx sib (castOut S readyMsg) me ::
          ([rseg idx sib (queryRound S dests (fun s => (rawQ NQ Q s).map QTicket.query)) me, rseg idx sib (castOut S readyMsg) me] ++
          (sq.map Seg.act ++ ((Q'.flatMap (fun q => aRecvResponse next q.resp)).map Seg.act ++
          ([rseg idx sib (backRound S dests (fun s => (NQ s).length) (fun s => ((Q s).map QTicket.next).map QTicket.resp)) me,
            rseg idx sib (castOut S readyMsg) me] ++ (rseg idx sib (castOut S readyMsg) me :: sr.map Seg.act)))))))) ∧
      Sends next sq (Q'.flatMap (fun q => q.query.encode)) (Q'.map (fun q => .sendQuery q.query)) ∧
      Sends back sr ((Q me).flatMap (fun q => q.resp.encode)) ((Q me).map (fun q => .sendResponse q.resp)) :=
  parallel_online_any hg hS h2 back next me hme dests hplan QTicket.resp QTicket.resp NQ Q hlen F B hF
    (fun q hq t => (hQ q hq).resp_next t) Q' hQ'

end

end DPPIR.Protocol
