import Verif.Proofs.ChainRun
import Verif.Spec.Process

/-!
# What happens when the counters wrap
-/

namespace DPPIR
variable {ι O α β : Type}

namespace Proc

/-- The bytes read in a sequence of actions. -/
def reads (as : List (Act ι O)) : List Byte := as.filterMap (fun | .recv _ b => some b | _ => none)

theorem feed_bind {p : Proc ι O α} {as : List (Act ι O)} {a : α} (h : Runs p as a) (f : α → Proc ι O β) (rest : List Byte) :
    feed (reads as ++ rest) (p.bind f) = (feed rest (f a)).map (fun r => (obsOf as ++ r.1, r.2)) := by
  induction h with
  | done a =>
    show feed rest (f a) = _
    cases feed rest (f a) <;> rfl
  | @send d b k as a h ih =>
    show feed (reads as ++ rest) (send d b (k.bind f)) = _
    rw [feed, ih]
    rfl
  | @recv s k b as a h ih =>
    show feed (b :: (reads as ++ rest)) (recv s (fun b => (k b).bind f)) = _
    rw [feed, ih]
    rfl
  | @obs o k as a h ih =>
    show feed (reads as ++ rest) (obs o (k.bind f)) = _
    rw [feed, ih]
    cases feed rest (f a) <;> rfl

@[simp] theorem reads_append (as bs : List (Act ι O)) : reads (as ++ bs) = reads as ++ reads bs := List.filterMap_append ..
theorem reads_send (d : ι) (l : List Byte) : reads (l.map (Act.send d) : List (Act ι O)) = [] := by
  simp [reads, List.filterMap_map]
theorem reads_recv (d : ι) (l : List Byte) : reads (l.map (Act.recv d) : List (Act ι O)) = l := by
  induction l with
  | nil => rfl
  | cons b l ih => simpa [reads] using ih

end Proc

theorem forUp_add {σ : Type} (f : Nat → σ → Res σ) (a b i : Nat) (s : σ) :
    forUp (a + b) i f s = (forUp a i f s).bind (fun s' => forUp b (i + a) f s') := by
  induction a generalizing i s with
  | zero => simp [forUp, Except.bind]
  | succ a ih =>
    rw [show a + 1 + b = a + b + 1 by omega]
    simp only [forUp]
    cases f i s with
    | error e => rfl
    | ok s' =>
      simp only [bind_ok]
      rw [ih, show i + (a + 1) = i + 1 + a by omega]

theorem forRange_error {σ : Type} (f : Nat → σ → Res σ) {a b j : Nat} {s s' : σ} {e : Fault} (h1 : a ≤ j) (h2 : j < b)
    (hs : forRange a j f s = .ok s') (he : f j s' = .error e) : forRange a b f s = .error e := by
  unfold forRange at hs ⊢
  rw [show b - a = (j - a) + ((b - j - 1) + 1) by omega, forUp_add, hs]
  show forUp _ _ f s' = _
  rw [show a + (j - a) = j by omega]
  simp only [forUp]
  rw [he]
  rfl

namespace Protocol
open Proc Onion Incremental Additive Spec Props Shuffle

variable {box : SealedBox}

/-- The invariant of the noise queries in a simulated run with `M` places. -/
structure SimReady (p : Party box) (F : List Nat) (M : Nat) (sample : Nat → BitVec 32) (rows m : Nat) : Prop where
  shuf : p.shuffler.forward = F
  room : p.queries.ptr.length = M
  sim : p.noiseState.simulated = true
  tags : p.noiseState.tags = [0]
  shares : p.noiseState.incrementals = [List.replicate m ⟨0, 1⟩]
  noise : p.noise.ptr = (List.range rows).map (fun i => (sample i).toNat)
  start : p.noiseStart = 0

theorem sim_step {p : Party box} {F B : List Nat} {M rows m : Nat} {sample : Nat → BitVec 32}
    (h : SimReady p F M sample rows m) (hF : IsShuffler F B M) (hm : 0 < m) (hrows : rows ≤ Spec.p) (key : Nat) (hk : key < rows)
    (i : Nat) : (i < M → ∃ p', Party.noiseQueryStep key i p = .ok p' ∧ SimReady p' F M sample rows m) ∧
      (M ≤ i → Party.noiseQueryStep key i p = .error .ub) := by
  unfold Party.noiseQueryStep LocalShuffler.shuffle
  rw [h.shuf]
  constructor
  · intro hi
    obtain ⟨f, hf, hlt⟩ := hF.get hi
    rw [rd_eq_ok.2 hf, bind_ok]
    have ht := (QTicket.fresh_ok 0 key (List.replicate m ⟨0, 1⟩) (List.replicate m (fun _ => 0)) (by
      intro s hs
      rw [List.eq_of_mem_replicate hs]
      exact isShare_id) (by
      intro e
      have := congrArg List.length e
      simp at this
      omega) rows hk hrows (by simp)).1
    have g1 : p.noiseState.loadNext.getTag = .ok 0 := by
      unfold ClientState.loadNext ClientState.getTag ClientState.cur
      simp only
      rw [h.sim, h.tags]
      rfl
    have g2 : p.noiseState.loadNext.getIncrementalShares = .ok (List.replicate m ⟨0, 1⟩) := by
      unfold ClientState.loadNext ClientState.getIncrementalShares ClientState.cur
      simp only
      rw [h.sim, h.shares]
      rfl
    have g3 : ∀ q : Query, p.queries.set f q = .ok { p.queries with ptr := p.queries.ptr.set f q } := by
      intro q
      unfold Batch.set
      rw [wr_ok (by rw [h.room]; exact hlt), bind_ok]
    refine ⟨{ p with
      noiseState := p.noiseState.loadNext
      queries := { p.queries with
        ptr := p.queries.ptr.set f ⟨0, (QTicket.fresh 0 key (List.replicate m ⟨0, 1⟩) (List.replicate m (fun _ => 0))).tally⟩ } }, ?_, ?_⟩
    · unfold Party.makeNoiseQuery
      simp only
      rw [g1, bind_ok, g2, bind_ok, ht, bind_ok, g3, bind_ok]
    · exact ⟨h.shuf, by simpa using h.room, h.sim, h.tags, h.shares, h.noise, h.start⟩
  · intro hi
    rw [rd_ub (by rw [hF.length]; exact hi)]
    rfl

theorem sim_key {p : Party box} {F B : List Nat} {M rows m : Nat} {sample : Nat → BitVec 32}
    (h : SimReady p F M sample rows m) (hF : IsShuffler F B M) (h32 : M < 2 ^ 32) (hm : 0 < m) (hrows : rows ≤ Spec.p)
    (key : Nat) (hk : key < rows) (hs : sampleSum sample key ≤ M) :
    (sampleSum sample (key + 1) ≤ M → ∃ p', Party.noiseKeyStep key (sampleSum sample key, p) = .ok (sampleSum sample (key + 1), p') ∧
      SimReady p' F M sample rows m) ∧
    (M < sampleSum sample (key + 1) → sampleSum sample (key + 1) < 2 ^ 32 →
      Party.noiseKeyStep key (sampleSum sample key, p) = .error .ub) := by
  have e1 : p.noise.get (key - p.noiseStart) = .ok (sample key).toNat := by
    unfold Batch.get
    rw [h.noise, h.start, rd_eq_ok]
    simp [hk]
  have hmono := sampleSum_mono sample (show key ≤ key + 1 by omega)
  have loop : ∀ b, sampleSum sample key ≤ b → b ≤ M → ∃ p', forRange (sampleSum sample key) b (Party.noiseQueryStep key) p = .ok p' ∧
      SimReady p' F M sample rows m := by
    intro b hb hbM
    exact forRange_inv (fun _ p' => SimReady p' F M sample rows m) (Party.noiseQueryStep key) _ b p hb h
      (fun j p' _ hj hp' => (sim_step hp' hF hm hrows key hk j).1 (by omega))
  unfold Party.noiseKeyStep
  simp only
  rw [e1, bind_ok, ← sampleSum_succ]
  constructor
  · intro hle
    obtain ⟨p', h1, h2⟩ := loop _ hmono hle
    rw [wrap32_of_lt (by omega), h1, bind_ok, Nat.max_eq_right hmono]
    exact ⟨p', rfl, h2⟩
  · intro hgt hlt
    obtain ⟨p', h1, h2⟩ := loop M hs (Nat.le_refl _)
    rw [wrap32_of_lt hlt, forRange_error _ hs hgt h1 ((sim_step h2 hF hm hrows key hk M).2 (Nat.le_refl _))]
    rfl

theorem first_over (sample : Nat → BitVec 32) (rows M : Nat) (h : M < sampleSum sample rows) :
    ∃ key, key < rows ∧ sampleSum sample key ≤ M ∧ M < sampleSum sample (key + 1) := by
  induction rows with
  | zero => simp [sampleSum] at h
  | succ rows ih =>
    by_cases h' : M < sampleSum sample rows
    · obtain ⟨key, h1, h2⟩ := ih h'
      exact ⟨key, by omega, h2⟩
    · exact ⟨rows, by omega, by omega, h⟩

theorem sim_prepare (p : Party box) {B : List Nat} {M rows m : Nat} {sample : Nat → BitVec 32} {F : List Nat}
    (hsh : p.shuffler.forward = F) (hM : p.shuffledCount = M) (hsim : p.noiseState.simulated = true)
    (htags : p.noiseState.tags = [0]) (hshares : p.noiseState.incrementals = [List.replicate m ⟨0, 1⟩])
    (hnoise : p.noise.ptr = (List.range rows).map (fun i => (sample i).toNat)) (hst : p.noiseStart = 0) (hend : p.noiseEnd = rows)
    (hF : IsShuffler F B M) (hm : 0 < m) (hrows : rows ≤ Spec.p) (bound : Nat)
    (hb : ∀ key < rows, (sample key).toNat ≤ bound) (h32 : M + bound < 2 ^ 32) (hover : M < sampleSum sample rows) :
    p.prepareOnline = .error .ub := by
  obtain ⟨key, hk, h1, h2⟩ := first_over sample rows M hover
  have hlt : sampleSum sample (key + 1) < 2 ^ 32 := by
    have := hb key hk
    rw [sampleSum_succ]
    omega
  obtain ⟨st, g1, p', rfl, g2⟩ := forRange_inv (fun j (st : Nat × Party box) => ∃ p', st = (sampleSum sample j, p') ∧
      SimReady p' F M sample rows m) Party.noiseKeyStep 0 key
    (0, { p with
      tags := Batch.initialize p.inputCount 0
      queries := Batch.initialize p.shuffledCount ⟨0, 0⟩ }) (Nat.zero_le _)
    ⟨_, rfl, ⟨hsh, by simp [Batch.initialize, hM], hsim, htags, hshares, hnoise, hst⟩⟩ (by
      rintro j st - hj ⟨p', rfl, hp'⟩
      have hmono := sampleSum_mono sample (show j + 1 ≤ key by omega)
      have hmono' := sampleSum_mono sample (show j ≤ key by omega)
      obtain ⟨p'', a1, a2⟩ := (sim_key hp' hF (by omega) hm hrows j (by omega) (by omega)).1 (by omega)
      exact ⟨_, a1, p'', rfl, a2⟩)
  unfold Party.prepareOnline Party.initializeNoiseQueries
  simp only
  rw [show forRange p.noiseStart p.noiseEnd = forRange 0 rows by rw [hst, hend],
    forRange_error _ (Nat.zero_le _) hk g1 ((sim_key g2 hF (by omega) hm hrows key hk h1).2 h2 hlt)]
  rfl

theorem counts_wrap {ι : Type} (p : Party box) (back next : ι) (N : Nat) (h : N < 2 ^ 32) :
    Runs (p.initializeCounts back next) (aRecvCount back N ++ aSendCount next (wrap32 (N + p.noiseCount)))
      { p with
        inputCount := N
        shuffledCount := wrap32 (N + p.noiseCount) } :=
  Runs.bind (runs_readCount back N h) (Runs.bind' (runs_sendCount _ _) (Runs.done _) (List.append_nil _).symm)

theorem feed_counts {ι α : Type} (p : Party box) (back next : ι) (N : Nat) (hN : N < 2 ^ 32) (M : Nat)
    (hM : M = wrap32 (N + p.noiseCount)) (f : Party box → Prog ι α) :
    feed (natLE 4 N) ((p.initializeCounts back next).bind f) =
      (feed [] (f { p with
        inputCount := N
        shuffledCount := M })).map (fun r => (.recvCount (BitVec.ofNat 32 N) :: .sendCount (BitVec.ofNat 32 M) :: r.1, r.2)) := by
  have hreads : natLE 4 N = reads (aRecvCount back N ++ aSendCount next M : List (PAct ι)) ++ [] := by
    have h1 : reads (aSendCount next M : List (PAct ι)) = [] := reads_send next _
    have h2 : reads (aRecvCount back N : List (PAct ι)) = natLE 4 N := by
      have : (BitVec.ofNat 32 N).toNat = N := by rw [BitVec.toNat_ofNat, Nat.mod_eq_of_lt hN]
      rw [aRecvCount, reads_append, reads_recv, this]
      simp [reads]
    rw [reads_append, h1, h2, List.append_nil, List.append_nil]
  have hobs : obsOf (aRecvCount back N ++ aSendCount next M : List (PAct ι)) =
      [.recvCount (BitVec.ofNat 32 N), .sendCount (BitVec.ofNat 32 M)] := by
    simp [aRecvCount, aSendCount]
  rw [hreads]
  subst hM
  rw [feed_bind (counts_wrap p back next N hN) f [], hobs]
  rfl

/-- What follows the counts in the simulated offline stage. -/
def simTail {ι : Type} (p : Party box) (rand : PartyRand box) (back next : ι) : Prog ι (Party box) := do
  let p ← lift (p.initializeShuffler rand)
  let p := { p with queriesState := p.queriesState.initialize true
                    noiseState := p.noiseState.initialize (p.partyCount - p.partyId - 1) p.noiseCount true true }
  let p ← lift p.prepareOnline
  waitForReady next
  sendReady back
  return p

theorem simulate_eq {ι : Type} (p : Party box) (rand : PartyRand box) (back next : ι) :
    p.simulateOffline rand back next = (lift (p.initializeNoiseSamples rand)).bind (fun p =>
      (p.initializeCounts back next).bind (fun p => simTail p rand back next)) := rfl

theorem simTail_ub {ι : Type} (p : Party box) (rand : PartyRand box) (back next : ι) {M rows : Nat} {sample : Nat → BitVec 32}
    (hM : p.shuffledCount = M) (hM32 : M < 2 ^ 32)
    (hnoise : p.noise.ptr = (List.range rows).map (fun i => (sample i).toNat)) (hst : p.noiseStart = 0) (hend : p.noiseEnd = rows)
    (hm : p.partyId + 1 < p.partyCount) (hrows : rows ≤ Spec.p) (bound : Nat)
    (hb : ∀ key < rows, (sample key).toNat ≤ bound) (h32 : M + bound < 2 ^ 32) (hover : M < sampleSum sample rows) :
    feed [] (simTail p rand back next) = some ([], .error .ub) := by
  subst hM
  obtain ⟨g1, g2, g3⟩ := shufOf_ok rand.rand p.shuffler p.shuffler.seed rfl p.shuffledCount hM32
  unfold simTail Party.initializeShuffler
  rw [g1, bind_ok]
  have h := sim_prepare (m := p.partyCount - p.partyId - 1) (rows := rows) (sample := sample) (M := p.shuffledCount)
    { p with
      shuffler := shufOf rand.rand p.shuffler.seed p.shuffledCount
      queriesState := p.queriesState.initialize true
      noiseState := p.noiseState.initialize (p.partyCount - p.partyId - 1) p.noiseCount true true }
    rfl rfl rfl rfl rfl hnoise hst hend g3 (by omega) hrows bound hb h32 hover
  show feed [] ((lift (Party.prepareOnline _)).bind _) = _
  rw [h]
  rfl

theorem samples_party (p : Party box) (rand : PartyRand box) (rows : Nat) (hrnd : Noise.IsDivRounding rand.rnd)
    (hid : p.serverId = 0) (hsc : p.serverCount = 1) (hdb : p.db.size = rows) (hr0 : 0 < rows) (hr : rows < 2 ^ 32) :
    ∃ q, p.initializeNoiseSamples rand = .ok q ∧ q.noiseCount = wrap32 (sampleSum rand.sample rows) ∧
      q.noise.ptr = (List.range rows).map (fun i => (rand.sample i).toNat) ∧ q.noiseStart = 0 ∧ q.noiseEnd = rows ∧
      (q.partyId + 1 < q.partyCount) = (p.partyId + 1 < p.partyCount) :=
  ⟨_, noiseSamples_wrap p rand rows hrnd hid hsc hdb hr0 hr, rfl, rfl, rfl, rfl, rfl⟩

/-- The simulated offline stage when input and noise together exceed 32 bits. -/
theorem sim_overflow {ι : Type} (k parties rows : Nat) (seed : Int) (pkeys : List box.PKey) (pkey : box.PKey) (skey : box.SKey)
    (db : Database) (hdb : Database.new rows = .ok db) (p : Party box)
    (hp : Party.new k 0 parties 1 seed pkeys pkey skey db = .ok p) (rand : PartyRand box) (hrnd : Noise.IsDivRounding rand.rnd)
    (hr0 : 0 < rows) (hr : rows ≤ Spec.p) (back next : ι) (N : Nat) (hN : N < 2 ^ 32) (bound : Nat)
    (hb : ∀ key < rows, (rand.sample key).toNat ≤ bound)
    (h32 : (N + sampleSum rand.sample rows) % 2 ^ 32 + bound < 2 ^ 32) (hover : 2 ^ 32 ≤ N + sampleSum rand.sample rows) :
    feed (natLE 4 N) (p.simulateOffline rand back next) =
      some ([.recvCount (BitVec.ofNat 32 N), .sendCount (BitVec.ofNat 32 (N + sampleSum rand.sample rows))], .error .ub) := by
  have hp32 : Spec.p < 2 ^ 32 := by decide
  rw [database_new] at hdb
  obtain rfl := Except.ok.inj hdb
  have hfields : p.serverId = 0 ∧ p.serverCount = 1 ∧ p.db.size = rows ∧ p.partyId + 1 < p.partyCount := by
    unfold Party.new at hp
    by_cases ha : 2 ≤ parties ∧ k < parties - 1
    swap
    · simp [assert, ha] at hp
    simp only [assert, ha, and_self, decide_true, if_true, bind_ok] at hp
    obtain rfl := Except.ok.inj hp
    exact ⟨rfl, rfl, rfl, by show k + 1 < parties; omega⟩
  obtain ⟨f1, f2, f3, f4⟩ := hfields
  clear hp
  obtain ⟨q, hq, q1, q2, q3, q4, q5⟩ := samples_party p rand rows hrnd f1 f2 f3 hr0 (by omega)
  obtain ⟨S, hS⟩ : ∃ S, S = sampleSum rand.sample rows := ⟨_, rfl⟩
  obtain ⟨M, hMd⟩ : ∃ M, M = wrap32 (N + wrap32 S) := ⟨_, rfl⟩
  rw [← hS] at h32 hover q1 ⊢
  have e2 : M = (N + S) % 2 ^ 32 := by
    rw [hMd]
    simp only [wrap32]
    omega
  have e1 : BitVec.ofNat 32 M = BitVec.ofNat 32 (N + S) := by
    apply BitVec.eq_of_toNat_eq
    simp only [BitVec.toNat_ofNat]
    omega
  rw [simulate_eq, hq]
  show feed _ (Proc.bind (Party.initializeCounts _ back next) _) = _
  rw [feed_counts q back next N hN M (by rw [hMd, q1]), e1,
    simTail_ub (M := M) (rows := rows) (sample := rand.sample) { q with
      inputCount := N
      shuffledCount := M } rand back next rfl (by omega) q2 q3 q4 (by rw [← q5] at f4; exact f4) hr bound hb
    (by omega) (by omega)]
  rfl

/-- The counts a party reads and announces, whatever its samples. -/
theorem counts_announced {ι : Type} (p : Party box) (rand : PartyRand box) (rows : Nat) (hrnd : Noise.IsDivRounding rand.rnd)
    (hid : p.serverId = 0) (hsc : p.serverCount = 1) (hdb : p.db.size = rows) (hr0 : 0 < rows) (hr : rows < 2 ^ 32)
    (back next : ι) (N : Nat) (hN : N < 2 ^ 32) :
    ∃ p', feed (natLE 4 N) ((lift (p.initializeNoiseSamples rand)).bind (fun p => p.initializeCounts back next)) =
      some ([.recvCount (BitVec.ofNat 32 N), .sendCount (BitVec.ofNat 32 (N + sampleSum rand.sample rows))], .ok p') ∧
      p'.noiseCount = sampleSum rand.sample rows % 2 ^ 32 := by
  obtain ⟨q, hq, q1, -⟩ := samples_party p rand rows hrnd hid hsc hdb hr0 hr
  obtain ⟨S, hS⟩ : ∃ S, S = sampleSum rand.sample rows := ⟨_, rfl⟩
  obtain ⟨M, hMd⟩ : ∃ M, M = wrap32 (N + wrap32 S) := ⟨_, rfl⟩
  rw [← hS] at q1 ⊢
  have e1 : BitVec.ofNat 32 M = BitVec.ofNat 32 (N + S) := by
    apply BitVec.eq_of_toNat_eq
    simp only [BitVec.toNat_ofNat]
    rw [hMd]
    simp only [wrap32]
    omega
  rw [hq]
  refine ⟨{ q with
      inputCount := N
      shuffledCount := M }, ?_, q1⟩
  have key := feed_counts (α := Party box) q back next N hN M (by rw [hMd, q1]) .done
  rw [e1] at key
  exact key

end Protocol
end DPPIR
