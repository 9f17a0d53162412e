import Verif.Proofs.Party

/-!
# What a party does with queries and responses
-/

namespace DPPIR.Protocol
open DPPIR Proc Onion Incremental Additive Spec Props Shuffle CipherBatch

variable {box : SealedBox} {ι : Type}

/-- The maps of a shuffler over `n` elements. -/
structure IsShuffler (F B : List Nat) (n : Nat) : Prop where
  perm : F.Perm (List.range n)
  back : B.length = n
  inv : ∀ i j : Nat, F[i]? = some j ↔ B[j]? = some i

namespace IsShuffler
variable {F B : List Nat} {n : Nat}

theorem length (h : IsShuffler F B n) : F.length = n := by simpa using h.perm.length_eq

theorem lt (h : IsShuffler F B n) {i j : Nat} (hij : F[i]? = some j) : i < n ∧ j < n := by
  have h1 := h.length
  have h2 := (h.inv i j).1 hij
  have h3 := (List.getElem?_eq_some_iff.1 hij).1
  have h4 := (List.getElem?_eq_some_iff.1 h2).1
  have := h.back
  omega

theorem get (h : IsShuffler F B n) {i : Nat} (hi : i < n) : ∃ j, F[i]? = some j ∧ j < n := by
  have hl := h.length
  exact ⟨F[i], List.getElem?_eq_getElem _, (h.lt (List.getElem?_eq_getElem (by omega))).2⟩

theorem getB (h : IsShuffler F B n) {j : Nat} (hj : j < n) : ∃ i, F[i]? = some j ∧ B[j]? = some i ∧ i < n := by
  have hl := h.back
  have : B[j]? = some B[j] := List.getElem?_eq_getElem _
  have h2 := (h.inv _ _).2 this
  exact ⟨B[j], h2, this, (h.lt h2).1⟩

theorem inj (h : IsShuffler F B n) {i i' j : Nat} (h1 : F[i]? = some j) (h2 : F[i']? = some j) : i = i' := by
  have h3 := (h.inv _ _).1 h1
  have h4 := (h.inv _ _).1 h2
  rw [h3] at h4
  exact Option.some.inj h4

theorem permB (h : IsShuffler F B n) : B.Perm (List.range n) := by
  have hnd : B.Nodup := by
    rw [List.nodup_iff_injective_getElem]
    rintro ⟨i, hi⟩ ⟨j, hj⟩ e
    simp only at e
    have h1 := (h.inv _ _).2 (List.getElem?_eq_getElem hi)
    have h2 := (h.inv _ _).2 (List.getElem?_eq_getElem hj)
    rw [e, h2] at h1
    simpa using (Option.some.inj h1).symm
  refine (List.perm_ext_iff_of_nodup hnd List.nodup_range).2 ?_
  intro i
  rw [List.mem_iff_getElem?, List.mem_range]
  constructor
  · rintro ⟨j, hj⟩
    exact (h.lt ((h.inv _ _).2 hj)).1
  · intro hi
    obtain ⟨j, hj, -⟩ := h.get hi
    exact ⟨j, (h.inv _ _).1 hj⟩

end IsShuffler

def QTicket.zero : QTicket := ⟨0, 0, 0, [], []⟩

/-- The first `n` queries are in their places. -/
structure Placed (F : List Nat) (all : List QTicket) (ptr : List Query) (n : Nat) : Prop where
  length : ptr.length = all.length
  at' : ∀ i f : Nat, i < n → F[i]? = some f → ptr[f]? = (all[i]?).map QTicket.query

theorem Placed.set {F B : List Nat} {all : List QTicket} {ptr : List Query} {n f : Nat} {q : QTicket}
    (h : Placed F all ptr n) (hF : IsShuffler F B all.length) (hf : F[n]? = some f) (hq : all[n]? = some q) :
    wr ptr f q.query = .ok (ptr.set f q.query) ∧ Placed F all (ptr.set f q.query) (n + 1) := by
  have hlt := (hF.lt hf).2
  have hl := h.length
  refine ⟨wr_ok (by omega), by simpa using hl, ?_⟩
  intro i g hi hg
  by_cases e : i = n
  · subst e
    rw [hf] at hg
    obtain rfl := Option.some.inj hg
    rw [List.getElem?_set_self (by omega), hq]
    rfl
  · have : f ≠ g := by
      rintro rfl
      exact e (hF.inj hg hf)
    rw [List.getElem?_set_ne this]
    exact h.at' i g (by omega) hg

theorem Placed.all_eq {F B : List Nat} {all : List QTicket} {ptr : List Query}
    (h : Placed F all ptr all.length) (hF : IsShuffler F B all.length) :
    ptr = (B.map (fun i => all.getD i QTicket.zero)).map QTicket.query := by
  have hl := h.length
  have hb := hF.back
  apply List.ext_getElem?
  intro j
  by_cases hj : j < all.length
  · obtain ⟨i, h1, h2, h3⟩ := hF.getB hj
    rw [h.at' i j h3 h1]
    simp [h2, List.getElem?_eq_getElem h3]
  · rw [List.getElem?_eq_none (by omega), List.getElem?_eq_none (by simp; omega)]

/-! ### Noise queries -/

/-- The keys of the noise queries: every key as often as sampled. -/
def noiseKeys (sample : Nat → BitVec 32) (rows : Nat) : List Nat :=
  (List.range rows).flatMap (fun key => List.replicate (sample key).toNat key)

theorem noiseKeys_succ (sample : Nat → BitVec 32) (rows : Nat) :
    noiseKeys sample (rows + 1) = noiseKeys sample rows ++ List.replicate (sample rows).toNat rows := by
  simp [noiseKeys, List.range_succ]

theorem noiseKeys_length (sample : Nat → BitVec 32) (rows : Nat) : (noiseKeys sample rows).length = sampleSum sample rows := by
  induction rows with
  | zero => rfl
  | succ rows ih => rw [noiseKeys_succ, List.length_append, ih, List.length_replicate, sampleSum_succ]

theorem noiseKeys_get (sample : Nat → BitVec 32) (rows key i : Nat) (hk : key < rows) (h1 : sampleSum sample key ≤ i)
    (h2 : i < sampleSum sample (key + 1)) : (noiseKeys sample rows)[i]? = some key := by
  induction rows with
  | zero => omega
  | succ rows ih =>
    rw [noiseKeys_succ]
    have hl := noiseKeys_length sample rows
    by_cases e : key = rows
    · subst e
      rw [sampleSum_succ] at h2
      rw [List.getElem?_append_right (by omega), List.getElem?_replicate, if_pos (by omega)]
    · have := sampleSum_mono sample (show key + 1 ≤ rows by omega)
      rw [List.getElem?_append_left (by omega)]
      exact ih (by omega)

theorem noiseKeys_lt (sample : Nat → BitVec 32) (rows : Nat) : ∀ key ∈ noiseKeys sample rows, key < rows := by
  intro key h
  simp only [noiseKeys, List.mem_flatMap, List.mem_range, List.mem_replicate] at h
  obtain ⟨a, ha, -, rfl⟩ := h
  exact ha

theorem makeNoiseQuery_ok (p : Party box) (ns : ClientState) (n i key target : Nat) (q : QTicket) (ptr : List Query)
    (tag : Nat → BitVec 64) (shares : Nat → List Share)
    (hns : NoiseReady ns n tag shares) (hi : i < n) (h32 : n < 2 ^ 32)
    (hst : p.noiseState = { ns with readIdx := i }) (ht : tag i = q.tag) (hs : shares i = q.shares)
    (htally : generateIncrementalTally (BitVec.ofNat 32 key) q.shares = .ok q.tally)
    (hw : wr p.queries.ptr target q.query = .ok ptr) :
    p.makeNoiseQuery key target = .ok { p with
      noiseState := { ns with readIdx := i + 1 }
      queries := { p.queries with ptr := ptr } } := by
  unfold Party.makeNoiseQuery
  simp only
  have e : p.noiseState.loadNext = { ns with readIdx := i + 1 } := by
    rw [hst]
    unfold ClientState.loadNext
    simp only
    rw [wrap32_of_lt (by omega)]
  have hq : (⟨q.tag, q.tally⟩ : Query) = q.query := rfl
  have hset : p.queries.set target ⟨q.tag, q.tally⟩ = .ok { p.queries with ptr := ptr } := by
    unfold Batch.set
    rw [hq, hw, bind_ok]
  rw [e, hns.tags i hi, bind_ok, hns.shares i hi, bind_ok, ht, hs, htally, bind_ok, hset, bind_ok]

theorem noiseKeyStep_ok (p : Party box) (ns : ClientState) (sample : Nat → BitVec 32) (rows key : Nat) (hk : key < rows)
    (NQ rest : List QTicket) (M : Nat) (B : List Nat) (ptr : List Query)
    (hns : NoiseReady ns NQ.length (fun i => (NQ.getD i QTicket.zero).tag) (fun i => (NQ.getD i QTicket.zero).shares))
    (hlen : NQ.length = sampleSum sample rows) (h32 : NQ.length < 2 ^ 32)
    (hM : (NQ ++ rest).length = M) (hF : IsShuffler p.shuffler.forward B M)
    (htally : ∀ (i : Nat) key q, NQ[i]? = some q → (noiseKeys sample rows)[i]? = some key →
      generateIncrementalTally (BitVec.ofNat 32 key) q.shares = .ok q.tally)
    (hnoise : p.noise.ptr = (List.range rows).map (fun i => (sample i).toNat)) (hst : p.noiseStart = 0)
    (hpl : Placed p.shuffler.forward (NQ ++ rest) ptr (sampleSum sample key)) :
    ∃ ptr', Party.noiseKeyStep key (sampleSum sample key, { p with
        noiseState := { ns with readIdx := sampleSum sample key }
        queries := { ptr := ptr, capacity := M, right := 0 } }) = .ok (sampleSum sample (key + 1), { p with
        noiseState := { ns with readIdx := sampleSum sample (key + 1) }
        queries := { ptr := ptr', capacity := M, right := 0 } }) ∧
      Placed p.shuffler.forward (NQ ++ rest) ptr' (sampleSum sample (key + 1)) := by
  subst hM
  have hmono := sampleSum_mono sample (show key + 1 ≤ rows by omega)
  have hmono' := sampleSum_mono sample (show key ≤ key + 1 by omega)
  obtain ⟨p', h1, ptr', rfl, h2⟩ := forRange_inv (fun i (p' : Party box) => ∃ ptr', p' = { p with
        noiseState := { ns with readIdx := i }
        queries := { ptr := ptr', capacity := (NQ ++ rest).length, right := 0 } } ∧
      Placed p.shuffler.forward (NQ ++ rest) ptr' i) (Party.noiseQueryStep key) (sampleSum sample key) (sampleSum sample (key + 1))
    { p with
      noiseState := { ns with readIdx := sampleSum sample key }
      queries := { ptr := ptr, capacity := (NQ ++ rest).length, right := 0 } } hmono' ⟨ptr, rfl, hpl⟩ (by
      rintro i p' hi1 hi2 ⟨ptr', rfl, hpl'⟩
      have hi : i < NQ.length := by omega
      obtain ⟨f, hf, -⟩ := hF.get (i := i) (by simp; omega)
      have hq : (NQ ++ rest)[i]? = some NQ[i] := by
        rw [List.getElem?_append_left hi, List.getElem?_eq_getElem hi]
      have hset := hpl'.set hF hf hq
      refine ⟨{ p with
        noiseState := { ns with readIdx := i + 1 }
        queries := { ptr := ptr'.set f NQ[i].query, capacity := (NQ ++ rest).length, right := 0 } }, ?_, _, rfl, hset.2⟩
      unfold Party.noiseQueryStep
      have : rd p.shuffler.forward i = .ok f := rd_eq_ok.2 hf
      simp only [LocalShuffler.shuffle]
      rw [this, bind_ok]
      exact makeNoiseQuery_ok _ ns NQ.length i key f NQ[i] _ _ _ hns hi h32 rfl (by rw [List.getD_eq_getElem _ _ hi])
        (by rw [List.getD_eq_getElem _ _ hi])
        (htally i key _ (List.getElem?_eq_getElem hi) (noiseKeys_get sample rows key i hk hi1 hi2)) hset.1)
  refine ⟨ptr', ?_, h2⟩
  unfold Party.noiseKeyStep
  simp only
  have e1 : p.noise.get (key - p.noiseStart) = .ok (sample key).toNat := by
    unfold Batch.get
    rw [hnoise, hst, rd_eq_ok]
    simp [hk]
  rw [e1, bind_ok, ← sampleSum_succ, wrap32_of_lt (by omega), h1, bind_ok, Nat.max_eq_right hmono']

theorem prepareOnline_ok (p : Party box) (ns : ClientState) (sample : Nat → BitVec 32) (rows : Nat)
    (NQ rest : List QTicket) (M : Nat) (B : List Nat)
    (hns : NoiseReady ns NQ.length (fun i => (NQ.getD i QTicket.zero).tag) (fun i => (NQ.getD i QTicket.zero).shares))
    (hpns : p.noiseState = ns)
    (hlen : NQ.length = sampleSum sample rows) (h32 : NQ.length < 2 ^ 32)
    (hM : (NQ ++ rest).length = M) (hpM : p.shuffledCount = M) (hF : IsShuffler p.shuffler.forward B M)
    (htally : ∀ (i : Nat) key q, NQ[i]? = some q → (noiseKeys sample rows)[i]? = some key →
      generateIncrementalTally (BitVec.ofNat 32 key) q.shares = .ok q.tally)
    (hnoise : p.noise.ptr = (List.range rows).map (fun i => (sample i).toNat)) (hst : p.noiseStart = 0)
    (hend : p.noiseEnd = rows) :
    ∃ ptr ns', p.prepareOnline = .ok { p with
        tags := Batch.initialize p.inputCount 0
        queries := { ptr := ptr, capacity := M, right := 0 }
        noise := Batch.free
        noiseState := ns' } ∧
      Placed p.shuffler.forward (NQ ++ rest) ptr NQ.length := by
  obtain ⟨st, h1, ptr, rfl, h2⟩ := forRange_inv (fun key (st : Nat × Party box) => ∃ ptr, st = (sampleSum sample key, { p with
        tags := Batch.initialize p.inputCount 0
        noiseState := { ns with readIdx := sampleSum sample key }
        queries := { ptr := ptr, capacity := M, right := 0 } }) ∧
      Placed p.shuffler.forward (NQ ++ rest) ptr (sampleSum sample key)) Party.noiseKeyStep 0 rows
    (0, { p with
      tags := Batch.initialize p.inputCount 0
      queries := Batch.initialize p.shuffledCount ⟨0, 0⟩ }) (Nat.zero_le _)
    ⟨List.replicate M ⟨0, 0⟩, by
      subst hpM
      have e : ({ ns with readIdx := sampleSum sample 0 } : ClientState) = p.noiseState := by
        rw [hpns]
        have := hns.read
        cases ns
        simp only at this
        subst this
        rfl
      rw [e]
      rfl, by simpa using hM.symm, by intro i f hi; simp [sampleSum] at hi⟩ (by
      rintro key st - hkey ⟨ptr, rfl, hpl⟩
      obtain ⟨ptr', g1, g2⟩ := noiseKeyStep_ok { p with tags := Batch.initialize p.inputCount 0 } ns sample rows key hkey NQ rest M B ptr
        hns hlen h32 hM hF htally hnoise hst hpl
      exact ⟨_, g1, ptr', rfl, g2⟩)
  rw [← hlen] at h2
  refine ⟨ptr, ({ ns with readIdx := sampleSum sample rows } : ClientState).free, ?_, h2⟩
  unfold Party.prepareOnline Party.initializeNoiseQueries
  simp only
  rw [show forRange p.noiseStart p.noiseEnd = forRange 0 rows by rw [hst, hend], h1, bind_ok]

/-! ### Queries -/

/-- The party while it collects queries. -/
def Party.atQueries (p : Party box) (Q : List QTicket) (M j : Nat) (it : Option PartySecret) (ptr : List Query) : Party box :=
  { p with
    tags := { ptr := (Q.take j).map QTicket.tag ++ List.replicate (Q.length - j) 0, capacity := Q.length, right := j }
    queriesState := { p.queriesState with it := it }
    queries := { ptr := ptr, capacity := M, right := 0 } }

theorem collectQuery_ok (p : Party box) (back : ι) (NQ Q : List QTicket) (M : Nat) (B : List Nat)
    (hM : (NQ ++ Q.map QTicket.next).length = M) (h32 : M < 2 ^ 32) (hF : IsShuffler p.shuffler.forward B M)
    (hs : ∀ q ∈ Q, PartyServes p.queriesState q) (j : Nat) (hj : j < Q.length) (it : Option PartySecret)
    (ptr : List Query) (hpl : Placed p.shuffler.forward (NQ ++ Q.map QTicket.next) ptr (NQ.length + j)) :
    ∃ it' ptr', Runs (Party.collectQuery back (NQ.length + j) (p.atQueries Q M j it ptr)) (aRecvQuery back Q[j].query)
        (p.atQueries Q M (j + 1) it' ptr') ∧
      Placed p.shuffler.forward (NQ ++ Q.map QTicket.next) ptr' (NQ.length + (j + 1)) := by
  have hlM : NQ.length + Q.length = M := by simpa using hM
  subst hM
  obtain ⟨f, hf, -⟩ := hF.get (i := NQ.length + j) (by omega)
  have hq : (NQ ++ Q.map QTicket.next)[NQ.length + j]? = some Q[j].next := by
    rw [List.getElem?_append_right (by omega)]
    simp [hj]
  obtain ⟨hset, hpl'⟩ := hpl.set hF hf hq
  have hserv := hs _ (List.getElem_mem hj)
  refine ⟨(p.queriesState.loadSecret Q[j].tag).it, ptr.set f Q[j].next.query, ?_, hpl'⟩
  have ht : (p.atQueries Q (NQ ++ Q.map QTicket.next).length j it ptr).tags.pushBack Q[j].query.tag =
      .ok (p.atQueries Q (NQ ++ Q.map QTicket.next).length (j + 1) it ptr).tags := by
    unfold Batch.pushBack Party.atQueries
    simp only
    rw [wr_ok (by simp; omega), bind_ok, wrap32_of_lt (by omega)]
    congr 2
    have := set_at_done ((Q.take j).map QTicket.tag) Q[j].tag 0 (Q.length - (j + 1))
    rw [List.length_map, List.length_take, Nat.min_eq_left (by omega), show Q.length - (j + 1) + 1 = Q.length - j by omega] at this
    show List.set _ j Q[j].tag = _
    rw [this, List.take_succ_eq_append_getElem hj, List.map_append]
    rfl
  have htg : (p.atQueries Q (NQ ++ Q.map QTicket.next).length j it ptr).shuffler.shuffle (NQ.length + j) = .ok f :=
    rd_eq_ok.2 hf
  have hh : Party.handleQuery { p.atQueries Q (NQ ++ Q.map QTicket.next).length j it ptr with
      tags := (p.atQueries Q (NQ ++ Q.map QTicket.next).length (j + 1) it ptr).tags } Q[j].query f =
      .ok (p.atQueries Q (NQ ++ Q.map QTicket.next).length (j + 1) (p.queriesState.loadSecret Q[j].tag).it
        (ptr.set f Q[j].next.query)) := by
    unfold Party.handleQuery
    simp only
    have e : (p.atQueries Q (NQ ++ Q.map QTicket.next).length j it ptr).queriesState.loadSecret Q[j].query.tag =
      p.queriesState.loadSecret Q[j].tag := rfl
    rw [e, hserv.tag, bind_ok, hserv.share, bind_ok]
    have e2 : (p.atQueries Q (NQ ++ Q.map QTicket.next).length j it ptr).queries.set f
        ⟨Q[j].tag, incrementalReconstruct Q[j].query.tally (Q[j].shares.headD ⟨0, 1⟩)⟩ =
        .ok { ptr := ptr.set f Q[j].next.query, capacity := (NQ ++ Q.map QTicket.next).length, right := 0 } := by
      show (wr ptr f Q[j].next.query >>= _) = _
      rw [hset, bind_ok]
      rfl
    rw [e2, bind_ok]
    rfl
  exact Runs.bind' (runs_recvQuery back Q[j].query) (Runs.bind' (Runs.lift ht) (Runs.bind' (Runs.lift htg) (Runs.lift hh) rfl) rfl)
    (List.append_nil _).symm

theorem collectQueries_ok (p : Party box) (back : ι) (NQ Q : List QTicket) (M : Nat) (B : List Nat)
    (hM : (NQ ++ Q.map QTicket.next).length = M) (h32 : M < 2 ^ 32) (hF : IsShuffler p.shuffler.forward B M)
    (hs : ∀ q ∈ Q, PartyServes p.queriesState q) (htags : p.tags = Batch.initialize Q.length 0)
    (hsc : p.shuffledCount = M) (hnc : p.noiseCount = NQ.length) (ptr : List Query)
    (hq : p.queries = { ptr := ptr, capacity := M, right := 0 })
    (hpl : Placed p.shuffler.forward (NQ ++ Q.map QTicket.next) ptr NQ.length) :
    ∃ it, Runs (p.collectQueries back) (Q.flatMap (fun q => aRecvQuery back q.query)) { p with
      tags := { ptr := Q.map QTicket.tag, capacity := Q.length, right := Q.length }
      queriesState := { p.queriesState with it := it }
      queries := { ptr := (B.map (fun i => (NQ ++ Q.map QTicket.next).getD i QTicket.zero)).map QTicket.query
                   capacity := M
                   right := 0 } } := by
  obtain ⟨p', h1, it, ptr', rfl, h2⟩ := Runs.loop_list (fun j (p' : Party box) => ∃ it ptr', p' = p.atQueries Q M j it ptr' ∧
      Placed p.shuffler.forward (NQ ++ Q.map QTicket.next) ptr' (NQ.length + j))
    (Party.collectQuery back) (fun q => aRecvQuery back q.query) Q NQ.length p
    ⟨p.queriesState.it, ptr, by
      unfold Party.atQueries
      rw [← hq]
      simp only [List.take_zero, List.map_nil, List.nil_append, Nat.sub_zero]
      rw [show ({ ptr := List.replicate Q.length 0, capacity := Q.length, right := 0 } : Batch (BitVec 64)) = p.tags from
        htags.symm], hpl⟩ (by
      rintro j p' hj ⟨it, ptr', rfl, hpl'⟩
      obtain ⟨it', ptr'', g1, g2⟩ := collectQuery_ok p back NQ Q M B hM h32 hF hs j hj it ptr' hpl'
      exact ⟨_, g1, it', ptr'', rfl, g2⟩)
  subst hM
  have hl : NQ.length + Q.length = (NQ ++ Q.map QTicket.next).length := by simp
  rw [hl] at h2
  have h3 := h2.all_eq hF
  refine ⟨it, ?_⟩
  have e : p.shuffledCount - p.noiseCount = Q.length := by rw [hsc, hnc]; simp
  unfold Party.collectQueries
  rw [e, show loop Q.length p.noiseCount = (loop Q.length NQ.length : (Nat → Party box → Prog ι (Party box)) → _) by rw [hnc]]
  unfold Party.atQueries at h1
  rw [List.take_of_length_le (Nat.le_refl _), Nat.sub_self, List.replicate_zero, List.append_nil, h3] at h1
  exact h1

theorem sendQueries_ok (p : Party box) (next : ι) (Q' : List QTicket)
    (hq : p.queries = { ptr := Q'.map QTicket.query, capacity := Q'.length, right := 0 }) :
    ∃ sq, Runs (p.sendQueries next) sq { p with
      shuffler := p.shuffler.finishForward
      queries := Batch.free } ∧
      Sends next sq (Q'.flatMap (fun q => q.query.encode)) (Q'.map (fun q => .sendQuery q.query)) := by
  have h1 : p.queries.elements = .ok (Q'.map QTicket.query) := by
    unfold Batch.elements
    rw [hq]
    simp only
    rw [slice_ok (by simp), List.drop_zero, List.take_of_length_le (by simp)]
  obtain ⟨as, w, h2, -, h3, h4⟩ := each_buffered next id (fun w : WBuf => w.Room querySize) (sendQuery next) QTicket.query
    (fun q => q.query.encode) (fun q => [.sendQuery q.query]) Q' {} (WBuf.room_empty (by decide) (by decide))
    (fun q _ w hw => sendQuery_ok next q.query w hw)
  obtain ⟨h5, h6⟩ := h3.flush h4
  refine ⟨as ++ w.pending.map (Act.send next), Runs.bind' (Runs.lift h1) (Runs.bind h2 (Runs.bind' h5 (Runs.done _) (List.append_nil _).symm)) rfl, ?_⟩
  exact h6.singles

/-! ### Responses -/

theorem collectResponses_ok (p : Party box) (next : ι) (rows m : Nat) (NQ Q : List QTicket) (M : Nat) (F B : List Nat)
    (hM : (NQ ++ Q.map QTicket.next).length = M) (hF : IsShuffler F B M)
    (hB : p.shuffler.backward = B)
    (hs : ∀ q ∈ Q, PartyServes p.queriesState q) (hQ : ∀ q ∈ Q, q.Good rows (m + 1))
    (htags : p.tags.ptr = Q.map QTicket.tag) (hin : p.inputCount = Q.length)
    (hsc : p.shuffledCount = M) (hnc : p.noiseCount = NQ.length) :
    Runs (p.collectResponses next)
      ((B.map (fun i => (NQ ++ Q.map QTicket.next).getD i QTicket.zero)).flatMap (fun q => aRecvResponse next q.resp)) { p with
      shuffler := p.shuffler.finishBackward
      tags := Batch.free
      responses := { ptr := Q.map QTicket.resp, capacity := Q.length, right := 0 } } := by
  have hl : NQ.length + Q.length = (NQ ++ Q.map QTicket.next).length := by simp
  have hbl := hF.back
  subst hM
  obtain ⟨p', h1, ptr', rfl, h2, h3⟩ := Runs.loop_list (fun j (p' : Party box) => ∃ ptr', p' = { p with
        responses := { ptr := ptr', capacity := Q.length, right := 0 } } ∧ ptr'.length = Q.length ∧
        ∀ (i : Nat) b (q : QTicket), i < j → B[i]? = some (NQ.length + b) → Q[b]? = some q → ptr'[b]? = some q.resp)
    (Party.collectResponse next) (fun q => aRecvResponse next q.resp)
    (B.map (fun i => (NQ ++ Q.map QTicket.next).getD i QTicket.zero)) 0
    { p with responses := Batch.initialize p.inputCount ⟨0, fun _ => 0⟩ }
    ⟨List.replicate Q.length ⟨0, fun _ => 0⟩, by simp only [Batch.initialize, hin], by simp, by
      intro i b q hi; omega⟩ (by
      rintro j p' hj ⟨ptr', rfl, g1, g2⟩
      rw [List.length_map] at hj
      have hBj : B[j]? = some B[j] := List.getElem?_eq_getElem hj
      have hlt := (hF.lt ((hF.inv _ _).2 hBj)).1
      have htg : p.shuffler.deshuffle (0 + j) = .ok B[j] := by
        rw [Nat.zero_add]
        unfold LocalShuffler.deshuffle
        rw [hB]
        exact rd_ok hj
      generalize hb : B[j] = t at *
      by_cases htn : NQ.length ≤ t
      · obtain ⟨c, rfl⟩ := Nat.exists_eq_add_of_le htn
        have hc : c < Q.length := by omega
        have hel : (NQ ++ Q.map QTicket.next).getD (NQ.length + c) QTicket.zero = Q[c].next := by
          rw [List.getD_eq_getElem?_getD, List.getElem?_append_right (by omega)]
          simp [hc]
        refine ⟨{ p with responses := { ptr := ptr'.set c Q[c].resp, capacity := Q.length, right := 0 } }, ?_, _, rfl,
          by simpa using g1, ?_⟩
        · have k1 : p.tags.get (NQ.length + c - p.noiseCount) = .ok Q[c].tag := by
            unfold Batch.get
            rw [hnc, htags, rd_eq_ok, Nat.add_sub_cancel_left]
            simp [hc]
          have k2 : Party.handleResponse { p with responses := { ptr := ptr', capacity := Q.length, right := 0 } } Q[c].tag
              Q[c].next.resp (NQ.length + c - p.noiseCount) =
              .ok { p with responses := { ptr := ptr'.set c Q[c].resp, capacity := Q.length, right := 0 } } := by
            unfold Party.handleResponse
            simp only
            rw [(hs _ (List.getElem_mem hc)).pre, bind_ok]
            unfold Batch.get Batch.set
            simp only
            rw [show NQ.length + c - p.noiseCount = c by omega, rd_ok (by omega), bind_ok,
              (hQ _ (List.getElem_mem hc)).resp_next, bind_ok, wr_ok (by omega), bind_ok, bind_ok]
          unfold Party.collectResponse
          rw [List.getElem_map, hb, hel]
          refine Runs.bind' (runs_recvResponse next Q[c].next.resp) (Runs.bind' (Runs.lift htg) ?_ rfl) (List.append_nil _).symm
          rw [if_pos (show NQ.length + c ≥ p.noiseCount by omega)]
          exact Runs.bind' (Runs.lift k1) (Runs.lift k2) rfl
        · intro i b q hi hb' hq
          by_cases e : i = j
          · subst e
            rw [hBj] at hb'
            have : c = b := by simpa using hb'
            subst this
            rw [List.getElem?_set_self (by omega)]
            rw [List.getElem?_eq_getElem hc] at hq
            rw [Option.some.inj hq]
          · have : c ≠ b := by
              rintro rfl
              have h4 := (hF.inv _ _).2 hBj
              have h5 := (hF.inv _ _).2 hb'
              rw [h4] at h5
              exact e (Option.some.inj h5).symm
            rw [List.getElem?_set_ne this]
            exact g2 i b q (by omega) hb' hq
      · refine ⟨{ p with responses := { ptr := ptr', capacity := Q.length, right := 0 } }, ?_, ptr', rfl, g1, ?_⟩
        · unfold Party.collectResponse
          refine Runs.bind' (runs_recvResponse next _) (Runs.bind' (Runs.lift htg) ?_ rfl) (List.append_nil _).symm
          rw [if_neg (show ¬ t ≥ p.noiseCount by omega)]
          exact Runs.done _
        · intro i b q hi hb' hq
          by_cases e : i = j
          · subst e
            rw [hBj] at hb'
            have := Option.some.inj hb'
            omega
          · exact g2 i b q (by omega) hb' hq)
  rw [List.length_map, hbl] at h3
  rw [List.length_map, hbl, ← hsc] at h1
  have hptr : ptr' = Q.map QTicket.resp := by
    apply List.ext_getElem?
    intro b
    by_cases hb : b < Q.length
    · obtain ⟨f, hf, hf2⟩ := hF.get (i := NQ.length + b) (by omega)
      rw [h3 f b Q[b] hf2 ((hF.inv _ _).1 hf) (List.getElem?_eq_getElem hb)]
      simp [hb]
    · rw [List.getElem?_eq_none (by omega), List.getElem?_eq_none (by simp; omega)]
  subst hptr
  exact Runs.bind' h1 (Runs.done _) (List.append_nil _).symm

theorem sendResponses_ok (p : Party box) (back : ι) (Q : List QTicket)
    (hq : p.responses = { ptr := Q.map QTicket.resp, capacity := Q.length, right := 0 }) :
    ∃ sr, Runs (p.sendResponses back) sr { p with responses := Batch.free } ∧
      Sends back sr (Q.flatMap (fun q => q.resp.encode)) (Q.map (fun q => .sendResponse q.resp)) := by
  have h1 : p.responses.elements = .ok (Q.map QTicket.resp) := by
    unfold Batch.elements
    rw [hq]
    simp only
    rw [slice_ok (by simp), List.drop_zero, List.take_of_length_le (by simp)]
  obtain ⟨as, w, h2, -, h3, h4⟩ := each_buffered back id (fun w : WBuf => w.Room responseSize) (sendResponse back) QTicket.resp
    (fun q => q.resp.encode) (fun q => [.sendResponse q.resp]) Q {} (WBuf.room_empty (by decide) (by decide))
    (fun q _ w hw => sendResponse_ok back q.resp w hw)
  obtain ⟨h5, h6⟩ := h3.flush h4
  refine ⟨as ++ w.pending.map (Act.send back), Runs.bind' (Runs.lift h1) (Runs.bind h2 (Runs.bind' h5 (Runs.done _) (List.append_nil _).symm)) rfl, ?_⟩
  exact h6.singles

/-- Online stage of a party. -/
theorem party_online (p : Party box) (back next : ι) (rows m : Nat) (NQ Q : List QTicket) (M : Nat) (F B : List Nat)
    (hM : (NQ ++ Q.map QTicket.next).length = M) (h32 : M < 2 ^ 32) (hF : IsShuffler F B M)
    (hpF : p.shuffler.forward = F) (hpB : p.shuffler.backward = B)
    (hs : ∀ q ∈ Q, PartyServes p.queriesState q) (hQ : ∀ q ∈ Q, q.Good rows (m + 1))
    (htags : p.tags = Batch.initialize Q.length 0) (hin : p.inputCount = Q.length)
    (hsc : p.shuffledCount = M) (hnc : p.noiseCount = NQ.length) (ptr : List Query)
    (hq : p.queries = { ptr := ptr, capacity := M, right := 0 })
    (hpl : Placed F (NQ ++ Q.map QTicket.next) ptr NQ.length) (Q' : List QTicket)
    (hQ' : Q' = B.map (fun i => (NQ ++ Q.map QTicket.next).getD i QTicket.zero)) :
    ∃ p' sq sr, Runs (p.startOnline back next)
      (Q.flatMap (fun q => aRecvQuery back q.query) ++ (sq ++ (Q'.flatMap (fun q => aRecvResponse next q.resp) ++ sr))) p' ∧
      Sends next sq (Q'.flatMap (fun q => q.query.encode)) (Q'.map (fun q => .sendQuery q.query)) ∧
      Sends back sr (Q.flatMap (fun q => q.resp.encode)) (Q.map (fun q => .sendResponse q.resp)) := by
  subst hpF
  obtain ⟨it, h1⟩ := collectQueries_ok p back NQ Q M B hM h32 hF hs htags hsc hnc ptr hq hpl
  have hlen : Q'.length = M := by rw [hQ', List.length_map, hF.back]
  rw [← hQ'] at h1
  generalize hp1 : ({ p with
      tags := { ptr := Q.map QTicket.tag, capacity := Q.length, right := Q.length }
      queriesState := { p.queriesState with it := it }
      queries := { ptr := Q'.map QTicket.query, capacity := M, right := 0 } } : Party box) = p1 at h1
  obtain ⟨sq, h2, h2'⟩ := sendQueries_ok p1 next Q' (by rw [← hp1, hlen])
  generalize hp2 : ({ p1 with
      shuffler := p1.shuffler.finishForward
      queries := Batch.free } : Party box) = p2 at h2
  have h3 := collectResponses_ok p2 next rows m NQ Q M p.shuffler.forward B hM hF (by rw [← hp2, ← hp1]; exact hpB)
    (by
      intro q hq
      rw [← hp2, ← hp1]
      exact (partyServes_it _ _ _).2 (hs q hq)) hQ (by rw [← hp2, ← hp1]) (by rw [← hp2, ← hp1]; exact hin)
    (by rw [← hp2, ← hp1]; exact hsc) (by rw [← hp2, ← hp1]; exact hnc)
  rw [← hQ'] at h3
  generalize hp3 : ({ p2 with
      shuffler := p2.shuffler.finishBackward
      tags := Batch.free
      responses := { ptr := Q.map QTicket.resp, capacity := Q.length, right := 0 } } : Party box) = p3 at h3
  obtain ⟨sr, h4, h4'⟩ := sendResponses_ok p3 back Q (by rw [← hp3])
  exact ⟨_, sq, sr, Runs.bind h1 (Runs.bind h2 (Runs.bind h3 h4)), h2', h4'⟩

end DPPIR.Protocol
