import Verif.Proofs.ParallelQueries
import Verif.Proofs.Union

/-!
# The offline stage of a server of a parallel party
-/

namespace DPPIR.Protocol
open DPPIR Proc PNet Onion Incremental Additive Spec Props Shuffle CipherBatch

variable {box : SealedBox} {ι : Type}

/-! ### Noise samples -/

theorem noiseSamplesAt_ok (p : Party box) (rand : PartyRand box) (start len : Nat)
    (hfr : Noise.findRange rand.rnd (BitVec.ofNat 8 p.serverId) (BitVec.ofNat 8 p.serverCount) p.db.size = .ok (start, start + len))
    (h32 : start + len < 2 ^ 32) (hn : sampleSum rand.sample len < 2 ^ 32) :
    p.initializeNoiseSamples rand = .ok { p with
      noiseCount := sampleSum rand.sample len
      noiseStart := start
      noiseEnd := start + len
      noise := { ptr := (List.range len).map (fun i => (rand.sample i).toNat), capacity := len, right := len } } := by
  have e2 : wrap32 (start + len + 2 ^ 32 - start) = len := by unfold wrap32; omega
  unfold Party.initializeNoiseSamples
  rw [hfr, bind_ok]
  simp only
  rw [e2]
  obtain ⟨p', h1, h2⟩ := forRange_inv (fun j (p' : Party box) => p' = { p with
      noiseCount := sampleSum rand.sample j
      noiseStart := start
      noiseEnd := start + len
      noise := { ptr := (List.range j).map (fun i => (rand.sample i).toNat) ++ List.replicate (len - j) 0
                 capacity := len
                 right := j } })
    (Party.sampleStep rand) 0 len { p with
      noiseCount := 0
      noiseStart := start
      noiseEnd := start + len
      noise := Batch.initialize len 0 } (Nat.zero_le _) (by simp [sampleSum, Batch.initialize]) (by
      rintro j p' - hj rfl
      refine ⟨_, ?_, rfl⟩
      unfold Party.sampleStep Batch.pushBack
      simp only
      have hm := sampleSum_mono rand.sample (show j + 1 ≤ len by omega)
      have e : wrap32 (sampleSum rand.sample j + (rand.sample j).toNat) = sampleSum rand.sample (j + 1) := by
        rw [← sampleSum_succ, wrap32_of_lt (by omega)]
      rw [wr_next (fun i => (rand.sample i).toNat) 0 hj, bind_ok, bind_ok,
        wrap32_of_lt (by omega : j + 1 < 2 ^ 32), e])
  rw [h1, h2, Nat.sub_self, List.replicate_zero, List.append_nil]

/-- First row of the part of the database that server `s` makes noise for. -/
def rangeAt (S rows s : Nat) : Nat := s * ((rows + S - 1) / S)
/-- Number of rows of this part. -/
def rangeLen (S rows s : Nat) : Nat := if s + 1 = S then rows - rangeAt S rows s else (rows + S - 1) / S

theorem findRange_at {rnd : ℚ → ℚ} (h : Noise.IsDivRounding rnd) (S rows s : Nat) (hs : s < S) (hS : S < 256) (hr : rows < 2 ^ 32)
    (hle : S ≤ rows) (hg : (S - 1) * ((rows + S - 1) / S) ≤ rows) :
    Noise.findRange rnd (BitVec.ofNat 8 s) (BitVec.ofNat 8 S) rows = .ok (rangeAt S rows s, rangeAt S rows s + rangeLen S rows s) ∧
      rangeAt S rows s + rangeLen S rows s ≤ rows := by
  have e1 : (BitVec.ofNat 8 s).toNat = s := by simp; omega
  have e2 : (BitVec.ofNat 8 S).toNat = S := by simp; omega
  have := Noise.findRange_eq h (BitVec.ofNat 8 s) (BitVec.ofNat 8 S) (by rw [e2]; omega) hr (by rw [e2]; exact hle)
  rw [e1, e2] at this
  rw [this]
  have hm : s * ((rows + S - 1) / S) ≤ (S - 1) * ((rows + S - 1) / S) := Nat.mul_le_mul_right _ (by omega)
  unfold rangeLen rangeAt
  rw [wrap32_of_lt (by omega)]
  by_cases hl : s + 1 = S
  · rw [if_pos hl, if_pos hl]
    constructor
    · congr 2
      omega
    · omega
  · rw [if_neg hl, if_neg hl]
    have : (s + 1) * ((rows + S - 1) / S) ≤ (S - 1) * ((rows + S - 1) / S) := Nat.mul_le_mul_right _ (by omega)
    rw [Nat.succ_mul] at this
    constructor
    · rw [wrap32_of_lt (by omega)]
    · omega

section
variable (sample : Nat → BitVec 32) (start n rows m : Nat) (tag : Nat → BitVec 64) (shares : Nat → List Share) (pres : Nat → List Preshare)

theorem noiseQ_good_at (hr : start + n ≤ rows) (hrows : rows ≤ Spec.p) (hm : 0 < m) (hs : ∀ i, ∀ s ∈ shares i, IsShare s)
    (hsl : ∀ i, (shares i).length = m) (hpl : ∀ i, (pres i).length = m) :
    (∀ (i : Nat) key q, (noiseQ (noiseKeysAt sample start n) tag shares pres)[i]? = some q → (noiseKeysAt sample start n)[i]? = some key →
      generateIncrementalTally (BitVec.ofNat 32 key) q.shares = .ok q.tally) ∧
    ∀ q ∈ noiseQ (noiseKeysAt sample start n) tag shares pres, q.Good rows m := by
  have key : ∀ (i key : Nat), (noiseKeysAt sample start n)[i]? = some key →
      generateIncrementalTally (BitVec.ofNat 32 key) (shares i) = .ok (QTicket.fresh (tag i) key (shares i) (pres i)).tally ∧
      (QTicket.fresh (tag i) key (shares i) (pres i)).Good rows m := by
    intro i key hk
    have hlt := noiseKeysAt_lt sample start n key (List.mem_of_getElem? hk)
    have := QTicket.fresh_ok (tag i) key (shares i) (pres i) (hs i) (by
      intro e
      have := hsl i
      rw [e] at this
      simp at this
      omega) rows (by omega) hrows (by rw [hpl, hsl])
    rw [hsl] at this
    exact this
  constructor
  · intro i k q hq hk
    have hi := (List.getElem?_eq_some_iff.1 hk)
    obtain ⟨hi, rfl⟩ := hi
    rw [noiseQ_get _ _ _ _ _ hi] at hq
    obtain rfl := Option.some.inj hq
    exact (key i _ hk).1
  · intro q hq
    obtain ⟨i, hi⟩ := List.mem_iff_getElem?.1 hq
    have hil : i < (noiseKeysAt sample start n).length := by
      have := (List.getElem?_eq_some_iff.1 hi).1
      rwa [noiseQ_length] at this
    rw [noiseQ_get _ _ _ _ _ hil] at hi
    obtain rfl := Option.some.inj hi
    exact (key i _ (List.getElem?_eq_getElem hil)).2

end

/-! ### What a server works with -/

/-- One server of a parallel party: `k` is the party, `m` the number of parties after
it, `noise` and `input` are the counts of all servers of this party. -/
structure Slot (box : SealedBox) where
  S : Nat
  me : Nat
  k : Nat
  m : Nat
  rows : Nat
  seed : Int
  lseed : Int
  rand : ParallelRand box
  noise : Nat → Nat
  input : Nat → Nat
  start : Nat
  len : Nat
  pkeys : List box.PKey
  skeys : List box.SKey

namespace Slot
variable (a : Slot box)

def own (s : Nat) : Nat := a.noise s + a.input s
def counts : List Nat := tab a.S a.own
def total : Nat := preSum a.own a.S
def dests : Nat → List Nat := planOf a.rand.rand a.seed a.counts
def slice : Nat := sliceOf a.S a.dests a.me
def shuf : LocalShuffler := shufOf a.rand.rand a.lseed a.slice

/-- Tag of the `i`-th noise secret of this server. -/
def tag (i : Nat) : BitVec 64 :=
  BitVec.ofInt 64 ((a.total : Int) - (wrap32 (wrap32 (a.noise a.me / a.len * a.rows) + 2 ^ 32 - wrap32 (a.start * (a.noise a.me / a.len))) : Nat) + i)

structure Ok : Prop where
  two : 2 ≤ a.S
  max : a.S < 255
  me : a.me < a.S
  km : a.k + a.m + 1 = a.pkeys.length
  m : 0 < a.m
  parties : a.pkeys.length ≤ 255
  keys : GoodKeys box a.pkeys a.skeys
  total : a.total < 2 ^ 32
  noise : a.noise a.me = sampleSum a.rand.sample a.len
  range : a.start + a.len ≤ a.rows
  rows : a.rows ≤ Spec.p
  find : Noise.findRange a.rand.rnd (BitVec.ofNat 8 a.me) (BitVec.ofNat 8 a.S) a.rows = .ok (a.start, a.start + a.len)

/-- The server before it starts. -/
structure Fresh (p : ParallelParty box) : Prop where
  id : p.serverId = a.me
  count : p.serverCount = a.S
  seed : p.pshuffler.seed = a.seed
  pid : p.pshuffler.serverId = a.me
  pcount : p.pshuffler.serverCount = a.S
  lseed : p.shuffler.seed = a.lseed
  party : p.partyId = a.k
  parties : p.partyCount = a.pkeys.length
  db : p.db.size = a.rows
  keys : p.pkeys = a.pkeys
  pkey : a.pkeys[a.k]? = some p.pkey
  skey : a.skeys[a.k]? = some p.skey
  state : p.queriesState = {}
  short : p.ciphers.shortSize = cipherSize a.m
  long : p.ciphers.longSize = cipherSize (a.m + 1)
  out : p.outCiphers.shortSize = cipherSize a.m

/-- The members that stay the same once the counts are known. -/
structure Core (p : ParallelParty box) : Prop where
  counted : Counted p a.S a.me a.seed a.lseed a.counts (a.noise a.me) a.slice
  party : p.partyId = a.k
  parties : p.partyCount = a.pkeys.length
  db : p.db.size = a.rows
  keys : p.pkeys = a.pkeys
  pkey : a.pkeys[a.k]? = some p.pkey
  skey : a.skeys[a.k]? = some p.skey
  input : p.inputCount = a.input a.me
  total : p.totalBatchSize = a.total
  samples : p.noise.ptr = (List.range a.len).map (fun i => (a.rand.sample i).toNat)
  start : p.noiseStart = a.start
  stop : p.noiseEnd = a.start + a.len
  out : p.outCiphers.shortSize = cipherSize a.m

variable {a}

theorem Core.upd {p : ParallelParty box} (c : a.Core p) (ci : CipherBatch) (qs : PartyState) (ns : ClientState) :
    a.Core { p with ciphers := ci, queriesState := qs, noiseState := ns } :=
  ⟨⟨c.counted.id, c.counted.count, c.counted.seed, c.counted.pid, c.counted.pcount, c.counted.lseed, c.counted.counts, c.counted.noise,
    c.counted.slice⟩, c.party, c.parties, c.db, c.keys, c.pkey, c.skey, c.input, c.total, c.samples, c.start, c.stop, c.out⟩

theorem Core.shuf {p : ParallelParty box} (c : a.Core p) (ps : ParallelShuffler) (h1 : ps.seed = a.seed) (h2 : ps.serverId = a.me)
    (h3 : ps.serverCount = a.S) (ls : LocalShuffler) (h4 : ls.seed = a.lseed) (nf np : List Nat) (ci oc : CipherBatch)
    (h5 : oc.shortSize = cipherSize a.m) :
    a.Core { p with pshuffler := ps, shuffler := ls, noiseFrom := nf, noisePrefix := np, ciphers := ci, outCiphers := oc } :=
  ⟨⟨c.counted.id, c.counted.count, h1, h2, h3, h4, c.counted.counts, c.counted.noise,
    c.counted.slice⟩, c.party, c.parties, c.db, c.keys, c.pkey, c.skey, c.input, c.total, c.samples, c.start, c.stop, h5⟩

theorem counts_sum : a.counts.sum = a.total := tab_sum _ _
theorem counts_length : a.counts.length = a.S := by simp [counts, tab]

theorem Ok.pos (h : a.Ok) : 0 < a.counts.length := by rw [counts_length]; have := h.two; omega

theorem Ok.routing (h : a.Ok) : Routing a.S a.dests := by
  have := (plan_ok a.rand.rand a.seed a.counts h.pos (by rw [counts_sum]; exact h.total)).1
  rwa [counts_length] at this

theorem Ok.dests_length (h : a.Ok) {s : Nat} (hs : s < a.S) : (a.dests s).length = a.own s := by
  have := (plan_ok a.rand.rand a.seed a.counts h.pos (by rw [counts_sum]; exact h.total)).2.1 s (by rw [counts_length]; exact hs)
  unfold dests
  rw [this, counts, List.getD_eq_getElem?_getD, tab_get _ _ _ hs]
  rfl

theorem Ok.slice_eq (h : a.Ok) : a.slice = if a.me = a.S - 1 then a.total - (a.S - 1) * (a.total / a.S) else a.total / a.S := by
  have := (plan_ok a.rand.rand a.seed a.counts h.pos (by rw [counts_sum]; exact h.total)).2.2.1 a.me (by rw [counts_length]; exact h.me)
  have h2 : some a.slice = some (if a.me = a.S - 1 then a.total - (a.S - 1) * (a.total / a.S) else a.total / a.S) := by
    rw [← slices_get a.S a.total a.me h.me]
    rw [List.getElem?_eq_getElem (by rw [slices_length _ _ (by have := h.two; omega)]; exact h.me)]
    congr 1
    unfold Slot.slice dests
    simp only [counts_length, counts_sum] at this
    exact this
  exact Option.some.inj h2

theorem Ok.slice_lt (h : a.Ok) : a.slice < 2 ^ 32 := h.routing.slice_le h.me

theorem Ok.shuf (h : a.Ok) : IsShuffler a.shuf.forward a.shuf.backward a.slice :=
  (shufOf_ok a.rand.rand (LocalShuffler.new a.lseed) a.lseed rfl a.slice h.slice_lt).2.2

theorem Ok.own_le (h : a.Ok) {s : Nat} (hs : s < a.S) : a.own s < 2 ^ 32 := by
  have := h.routing.length_le hs
  rwa [h.dests_length hs] at this

end Slot

/-! ### Steps -/

theorem Holds_elements {b : CipherBatch} {shorts : List (List Byte)} (h : b.Holds shorts []) (hu : 0 < b.shortSize)
    (h0 : shorts = [] → b.firstLong = 0) : b.elements = .ok shorts := by
  have hm := h.shortMem
  have hls := h.lastShort
  have hin := h.inside
  have hro := h.room
  have hll := h.lastLong
  simp only [List.length_nil, Nat.zero_mul, Nat.add_zero] at hll
  have hstop : (if b.lastShort = 0 then b.firstLong else b.lastShort) = shorts.length * b.shortSize := by
    by_cases e : b.lastShort = 0
    · rw [if_pos e]
      have : shorts = [] := by
        cases shorts with
        | nil => rfl
        | cons c l =>
          rw [List.length_cons, Nat.succ_mul] at hls
          omega
      rw [h0 this, this]
      simp
    · rw [if_neg e, hls]
  unfold CipherBatch.elements
  simp only [hstop]
  rw [if_pos ⟨by omega, by rw [Nat.mul_mod_left]⟩, Nat.mul_div_cancel _ hu, readUnits_ok (by omega)]
  have hc := chunks_flatten b.shortSize shorts [] h.shortLen
  rw [List.append_nil, ← hm, DPPIR.chunks_take _ _ _ _ (by omega)] at hc
  rw [hc]

theorem parallelSendCiphers_ok (next : ι) (unit : Nat) (hu : 0 < unit) (hub : unit ≤ Sockets.bufferSize) (l : List (List Byte))
    (hl : ∀ c ∈ l, c.length = unit) :
    ∃ sc, (∀ p : ParallelParty box, CRep unit p.outCiphers l → Runs (p.sendCiphers next) sc { p with outCiphers := p.outCiphers.free }) ∧
      Sends next sc l.flatten (l.map .sendCipher) := by
  obtain ⟨as, w, h2, -, h3, h4⟩ := each_buffered next _root_.id (fun w : WBuf => w.Room unit) (sendCipher next unit) _root_.id
    (fun c => c) (fun c => [.sendCipher c]) l {} (WBuf.room_empty hu hub)
    (fun c hc w hw => sendCipher_ok next unit c c (by
      have := hl c hc
      rw [slice_ok (by omega), List.drop_zero, List.take_of_length_le (by omega)]) hu hub w hw)
  rw [List.map_id] at h2
  obtain ⟨h5, h6⟩ := h3.flush h4
  refine ⟨as ++ w.pending.map (Act.send next), ?_, ?_⟩
  · intro p hq
    refine Runs.bind' (Runs.lift (hq.elements hu)) (Runs.bind (a := w) ?_ (Runs.bind' h5 (Runs.done _) (List.append_nil _).symm)) rfl
    rw [hq.short]
    exact h2
  · have := h6.singles
    rwa [List.flatMap_def, List.map_id'] at this

section
variable [DecidableEq ι] {idx : ι → Option Nat} {sib : Nat → ι} {a : Slot box}

theorem sync_does {S me : Nat} (hg : Group idx sib S) (hme : me < S) (p : ParallelParty box) (h1 : p.serverId = me) (h2 : p.serverCount = S) :
    PProc.Does (fun _ => True) (p.sync sib) [rseg idx sib (castOut S readyMsg) me] := by
  have := barrier_does hg hme (fun _ => false)
  unfold ParallelParty.sync
  rw [h1, h2]
  exact this

theorem relayReady_does {S me : Nat} (hg : Group idx sib S) (hme : me < S) (p : ParallelParty box) (h1 : p.serverId = me)
    (h2 : p.serverCount = S) (back next : ι) :
    PProc.Does (fun _ => True) (p.relayReady back next sib)
      ((aRecvReady next).map Seg.act ++ (rseg idx sib (castOut S readyMsg) me :: (aSendReady back).map Seg.act)) := by
  unfold ParallelParty.relayReady
  simp only [PProc.bind_def]
  refine PProc.Does.runs (runs_waitForReady next) ?_
  refine PProc.Does.bind' (sync_does hg hme p h1 h2) (M := (aSendReady back).map Seg.act) ?_ rfl
  rintro - -
  exact (PProc.Does.ofProc (runs_sendReady back)).mono (fun _ _ => trivial)

/-- The round of `InitializeCounts`. -/
def countsRound (S : Nat) (own : Nat → Nat) : Nat → List (Nat × Byte) := castOut S (countMsg (fun s _ => own s))

namespace Slot

/-- The first steps of both offline stages. -/
theorem begin_does (hg : Group idx sib a.S) (h : a.Ok) {p : ParallelParty box} (hf : a.Fresh p) (back next : ι) :
    ∃ q, p.toParty.initializeNoiseSamples a.rand.toPartyRand = .ok q ∧
      PProc.Does (fun p' => a.Core p' ∧ p'.queriesState = {} ∧ p'.ciphers.shortSize = cipherSize a.m ∧
          p'.ciphers.longSize = cipherSize (a.m + 1)) ((p.withParty q).initializeCounts back next sib)
        ((aRecvCount back (a.input a.me)).map Seg.act ++ (rseg idx sib (countsRound a.S a.own) a.me ::
          (aSendCount next a.slice).map Seg.act)) := by
  have hp32 : Spec.p < 2 ^ 32 := by decide
  have hr := h.range
  have hr2 := h.rows
  have hown := h.own_le h.me
  have hown' : a.own a.me = a.noise a.me + a.input a.me := rfl
  have hno := h.noise
  refine ⟨_, noiseSamplesAt_ok p.toParty a.rand.toPartyRand a.start a.len (by
    rw [hf.id, hf.count, hf.db]; exact h.find) (by omega) (by omega), ?_⟩
  unfold ParallelParty.initializeCounts ParallelParty.withParty
  simp only [PProc.bind_def]
  refine PProc.Does.runs (runs_readCount back _ (by omega)) ?_
  rw [← hno, wrap32_of_lt (by omega), ← hown', hf.id, hf.count]
  refine PProc.Does.bind' (counts_does hg h.me (fun s _ => a.own s) (fun s _ hs _ => h.own_le hs) (fun _ => .ok (a.own a.me))
    (fun _ _ _ => rfl) (a.own a.me) (fun _ => false)) (M := (aSendCount next a.slice).map Seg.act) ?_ rfl
  rintro l rfl
  have e1 : tab a.S (fun s => if s = a.me then a.own a.me else a.own s) = a.counts := by
    apply tab_congr
    intro s _
    split
    · rename_i e; rw [e]
    · rfl
  rw [e1]
  have e2 : a.counts.foldl (fun x c => wrap32 (x + c)) 0 = a.total := by
    rw [foldl_wrap_sum _ _ (by rw [counts_sum, Nat.zero_add]; exact h.total), counts_sum, Nat.zero_add]
  rw [e2]
  have hle : a.total / a.S * a.me ≤ a.total := by
    have := h.me
    calc a.total / a.S * a.me ≤ a.total / a.S * a.S := Nat.mul_le_mul_left _ (by omega)
      _ ≤ a.total := Nat.div_mul_le_self _ _
  have ht := h.total
  have e3 : (if a.me = a.S - 1 then wrap32 (a.total + 2 ^ 32 - wrap32 (a.total / a.S * a.me)) else a.total / a.S) = a.slice := by
    rw [h.slice_eq]
    by_cases e : a.me = a.S - 1
    · rw [if_pos e, if_pos e, wrap32_of_lt (show a.total / a.S * a.me < 2 ^ 32 by omega), ← e, Nat.mul_comm (a.total / a.S) a.me]
      rw [Nat.mul_comm] at hle
      unfold wrap32
      rw [show a.total + 2 ^ 32 - a.me * (a.total / a.S) = (a.total - a.me * (a.total / a.S)) + 2 ^ 32 by omega, Nat.add_mod_right,
        Nat.mod_eq_of_lt (by omega)]
    · rw [if_neg e, if_neg e]
  rw [e3, ← List.append_nil ((aSendCount next a.slice).map Seg.act)]
  refine PProc.Does.runs (runs_sendCount next _) ?_
  exact .done ⟨⟨⟨rfl, rfl, hf.seed, hf.pid, hf.pcount, hf.lseed, rfl, rfl, rfl⟩, hf.party, hf.parties, hf.db, hf.keys, hf.pkey,
    hf.skey, rfl, rfl, rfl, rfl, rfl, hf.out⟩, hf.state, hf.short, hf.long⟩

theorem sampleTag_ok (h : a.Ok) {p : ParallelParty box} (c : a.Core p) (i : Nat) (hi : i < a.noise a.me) : p.sampleTag i = .ok (a.tag i) := by
  have hp32 : Spec.p < 2 ^ 32 := by decide
  have hr := h.range
  have hr2 := h.rows
  have hl : a.len ≠ 0 := by
    intro e
    have := h.noise
    rw [e] at this
    simp [sampleSum] at this
    omega
  have e1 : wrap32 (p.noiseEnd + 2 ^ 32 - p.noiseStart) = a.len := by rw [c.start, c.stop]; unfold wrap32; omega
  unfold ParallelParty.sampleTag
  simp only
  rw [e1, if_neg hl, c.counted.noise, c.db, c.total, c.start]
  rfl

/-- Initialising the two shufflers. -/
theorem shufflers_does (hg : Group idx sib a.S) (h : a.Ok) {p : ParallelParty box} (c : a.Core p) :
    PProc.Does (fun p' => ∃ ps, Planned a.S a.dests a.me (a.noise a.me) ps ∧ a.Core p' ∧ p' = { p with
        pshuffler := ps
        noiseFrom := tab a.S (noiseTo a.dests a.noise a.me)
        noisePrefix := tab a.S (fun s => preSum (noiseTo a.dests a.noise a.me) (s + 1))
        shuffler := a.shuf })
      (p.initializeShufflers a.rand sib) [rseg idx sib (noiseRound a.S a.dests a.noise) a.me] := by
  refine (initializeShufflers_does hg a.rand p a.me h.me a.seed a.lseed a.counts a.noise a.slice counts_length
    (by rw [counts_sum]; exact h.total) rfl c.counted).mono ?_
  rintro p' ⟨ps, h1, h2, rfl⟩
  refine ⟨ps, h2, ?_, rfl⟩
  exact c.shuf ps h1 h2.id h2.count _ (shufOf_ok a.rand.rand (LocalShuffler.new a.lseed) a.lseed rfl a.slice h.slice_lt).2.1 _ _ _ _ c.out

/-- Preparing the online stage. -/
theorem prepare_ok (h : a.Ok) {p : ParallelParty box} (c : a.Core p) {ps : ParallelShuffler}
    (hps : Planned a.S a.dests a.me (a.noise a.me) ps) (hp : p = { p with
        pshuffler := ps
        noiseFrom := tab a.S (noiseTo a.dests a.noise a.me)
        noisePrefix := tab a.S (fun s => preSum (noiseTo a.dests a.noise a.me) (s + 1))
        shuffler := a.shuf })
    (tag : Nat → BitVec 64) (shares : Nat → List Share) (pres : Nat → List Preshare)
    (hs : ∀ i, ∀ s ∈ shares i, IsShare s) (hsl : ∀ i, (shares i).length = a.m) (hpl : ∀ i, (pres i).length = a.m)
    (hready : NoiseReady p.noiseState (a.noise a.me) tag shares) (NQ Q : Nat → List QTicket)
    (hNQ : ∀ s, s < a.S → (NQ s).length = a.noise s) (hQ : ∀ s, s < a.S → (Q s).length = a.input s)
    (hme : NQ a.me = noiseQ (noiseKeysAt a.rand.sample a.start a.len) tag shares pres) :
    ∃ p', p.prepareOnline = .ok p' ∧ p'.queriesState = p.queriesState ∧
      ParallelReady p' a.S a.me a.dests NQ Q a.shuf.forward a.shuf.backward ∧ p'.serverId = p.serverId ∧ p'.serverCount = p.serverCount := by
  have hown := h.own_le h.me
  have hown' : a.own a.me = a.noise a.me + a.input a.me := rfl
  have hN := hNQ a.me h.me
  have hI := hQ a.me h.me
  have hk : (noiseKeysAt a.rand.sample a.start a.len).length = a.noise a.me := by rw [noiseKeysAt_length, h.noise]
  have hng := noiseQ_good_at a.rand.sample a.start a.len a.rows a.m tag shares pres h.range h.rows h.m hs hsl hpl
  have hnr := noiseReady_noiseQ (ns := p.noiseState) (noiseKeysAt a.rand.sample a.start a.len) tag shares pres (by rw [hk]; exact hready)
  rw [← hme] at hng hnr
  have e1 : p.pshuffler = ps := by rw [hp]
  have e2 : p.noiseFrom = tab a.S (noiseTo a.dests a.noise a.me) := by rw [hp]
  have e3 : p.noisePrefix = tab a.S (fun s => preSum (noiseTo a.dests a.noise a.me) (s + 1)) := by rw [hp]
  have e4 : p.shuffler = a.shuf := by rw [hp]
  have hnt : ∀ s, s < a.S → noiseTo a.dests a.noise a.me s = noiseTo a.dests (fun s => (NQ s).length) a.me s := by
    intro s hs
    unfold noiseTo
    simp only
    rw [hNQ s hs]
  obtain ⟨ptr, ns', s10, hpl⟩ := parallelPrepareOnline_ok p p.noiseState a.rand.sample a.start a.len (NQ a.me)
    ((Q a.me).map QTicket.next) ((NQ a.me).length + (Q a.me).length) hnr rfl (by rw [hN, h.noise]) (by omega) (by simp)
    (c.counted.noise.trans hN.symm) (by rw [c.input, List.length_map, hI]) hng.1 c.samples c.start c.stop
  refine ⟨_, s10, rfl, ⟨c.counted.id, c.counted.count, ?_, ?_, ?_, ?_, ?_, c.counted.slice, c.counted.noise.trans hN.symm, ?_, ?_, ptr, rfl, hpl⟩,
    rfl, rfl⟩
  · rw [hN, e1]; exact hps
  · rw [e4]
  · rw [e4]
  · simp only; rw [c.input, hI]
  · simp only; rw [c.input, hI]
  · simp only
    rw [e2]
    exact tab_congr _ _ _ hnt
  · simp only
    rw [e3]
    exact tab_congr _ _ _ (fun s hs => preSum_congr (fun i hi => hnt i (by omega)))

end Slot
end
end DPPIR.Protocol
