import Verif.Proofs.HostileParties
import Verif.Proofs.ParallelStages

/-!
# The offline stages of a server of a parallel party, among arbitrary peers
-/

namespace DPPIR

section
variable {ι O α : Type} [DecidableEq ι] {F : (ι → List Byte) → List O → Fault → Prop}

theorem hear_grows (L : ι → List Byte) (s : ι) (c : List Byte) (j : ι) : L j <+: hear L s c j := by
  unfold hear
  by_cases h : j = s
  · subst h; rw [Function.update_self]; exact List.prefix_append _ _
  · rw [Function.update_of_ne h]

/-- Records and what was read only grow. -/
theorem PProc.Heeds.grow {p : PProc ι O α} {Q : α → (ι → List Byte) → List O → Prop} {L : ι → List Byte} {h : List O}
    (hs : Heeds (fun L' h' e => h <+: h' → (∀ j, L j <+: L' j) → F L' h' e) p Q L h) :
    Heeds F p (fun a L' h' => Q a L' h' ∧ h <+: h' ∧ ∀ j, L j <+: L' j) L h := by
  suffices H : ∀ L0 h0, h <+: h0 → (∀ j, L j <+: L0 j) → Heeds (fun L' h' e => h <+: h' → (∀ j, L j <+: L' j) → F L' h' e) p Q L0 h0 →
      Heeds F p (fun a L' h' => Q a L' h' ∧ h <+: h' ∧ ∀ j, L j <+: L' j) L0 h0 from H L h List.prefix_rfl (fun _ => List.prefix_rfl) hs
  clear hs
  induction p with
  | done a => exact fun L0 h0 h1 h2 hs => ⟨hs, h1, h2⟩
  | fault e => exact fun L0 h0 h1 h2 hs => hs h1 h2
  | send d b k ih => exact fun L0 h0 h1 h2 hs => ih L0 h0 h1 h2 hs
  | recv s k ih => exact fun L0 h0 h1 h2 hs b => ih b _ h0 h1 (fun j => (h2 j).trans (hear_grows _ _ _ _)) (hs b)
  | obs o k ih => exact fun L0 h0 h1 h2 hs => ih L0 _ (h1.trans (List.prefix_append _ _)) h2 hs
  | poll ss bl k ih => exact fun L0 h0 h1 h2 hs r r1 r2 => ih r L0 h0 h1 h2 (hs r r1 r2)
  | read s l k ih => exact fun L0 h0 h1 h2 hs c c1 c2 => ih c _ h0 h1 (fun j => (h2 j).trans (hear_grows _ _ _ _)) (hs c c1 c2)

/-- It holds from now on. -/
def Sure (M : (ι → List Byte) → List O → Prop) (L : ι → List Byte) (h : List O) : Prop :=
  ∀ L' h', (∀ j, L j <+: L' j) → h <+: h' → M L' h'

theorem Sure.any {M : (ι → List Byte) → List O → Prop} (hF : ∀ L h e, M L h → F L h e) (p : PProc ι O α) {L : ι → List Byte} {h : List O}
    (hs : Sure M L h) {Q : α → (ι → List Byte) → List O → Prop} (hQ : ∀ a L h, Sure M L h → Q a L h) : PProc.Heeds F p Q L h := by
  refine (PProc.Heeds.any p (Sure M) (fun L h e hs => hF L h e (hs L h (fun _ => List.prefix_rfl) List.prefix_rfl)) ?_ ?_ hs).mono hQ
  · exact fun L h s c hs L' h' h1 h2 => hs L' h' (fun j => (hear_grows L s c j).trans (h1 j)) h2
  · exact fun L h o hs L' h' h1 h2 => hs L' h' h1 ((List.prefix_append h [o]).trans h2)

end
end DPPIR

namespace DPPIR.Protocol
open DPPIR Proc PNet Onion Incremental Additive Spec Props Shuffle CipherBatch

variable {box : SealedBox} {ι : Type}

/-! ### Without siblings -/

theorem noiseSamplesAt_wrap (p : Party box) (rand : PartyRand box) (start len : Nat)
    (hfr : Noise.findRange rand.rnd (BitVec.ofNat 8 p.serverId) (BitVec.ofNat 8 p.serverCount) p.db.size = .ok (start, start + len))
    (h32 : start + len < 2 ^ 32) :
    p.initializeNoiseSamples rand = .ok { p with
      noiseCount := wrap32 (sampleSum rand.sample len)
      noiseStart := start
      noiseEnd := start + len
      noise := { ptr := (List.range len).map (fun i => (rand.sample i).toNat), capacity := len, right := len } } := by
  have e2 : wrap32 (start + len + 2 ^ 32 - start) = len := by unfold wrap32; omega
  unfold Party.initializeNoiseSamples
  rw [hfr, bind_ok]
  simp only
  rw [e2]
  obtain ⟨p', h1, h2⟩ := forRange_inv (fun j (p' : Party box) => p' = { p with
      noiseCount := wrap32 (sampleSum rand.sample j)
      noiseStart := start
      noiseEnd := start + len
      noise := { ptr := (List.range j).map (fun i => (rand.sample i).toNat) ++ List.replicate (len - j) 0
                 capacity := len
                 right := j } })
    (Party.sampleStep rand) 0 len { p with
      noiseCount := 0
      noiseStart := start
      noiseEnd := start + len
      noise := Batch.initialize len 0 } (Nat.zero_le _) (by simp [sampleSum, Batch.initialize, wrap32]) (by
      rintro j p' - hj rfl
      refine ⟨_, ?_, rfl⟩
      unfold Party.sampleStep Batch.pushBack
      simp only
      have e : wrap32 (wrap32 (sampleSum rand.sample j) + (rand.sample j).toNat) = wrap32 (sampleSum rand.sample (j + 1)) := by
        rw [sampleSum_succ]
        unfold wrap32
        omega
      rw [wr_next (fun i => (rand.sample i).toNat) 0 hj, bind_ok, bind_ok,
        wrap32_of_lt (by omega : j + 1 < 2 ^ 32), e])
  rw [h1, h2, Nat.sub_self, List.replicate_zero, List.append_nil]

theorem take_count (x : Nat) : ∀ (l : List Nat) (n : Nat), n ≤ l.count x → ∃ k, k ≤ l.length ∧ (l.take k).count x = n := by
  intro l
  induction l with
  | nil => intro n hn; exact ⟨0, le_refl _, by simp at hn; simp [hn]⟩
  | cons y l ih =>
    intro n hn
    by_cases h0 : n = 0
    · exact ⟨0, Nat.zero_le _, by simp [h0]⟩
    by_cases hy : y = x
    · subst hy
      rw [List.count_cons_self] at hn
      obtain ⟨k, h1, h2⟩ := ih (n - 1) (by omega)
      exact ⟨k + 1, by simpa using h1, by rw [List.take_succ_cons, List.count_cons_self, h2]; omega⟩
    · rw [List.count_cons_of_ne hy] at hn
      obtain ⟨k, h1, h2⟩ := ih n hn
      exact ⟨k + 1, by simpa using h1, by rw [List.take_succ_cons, List.count_cons_of_ne hy, h2]⟩

theorem countsRead_prefix {h h' : List Obs} (hh : h <+: h') {n : BitVec 32} (hn : n ∈ countsRead h) : n ∈ countsRead h' := by
  obtain ⟨t, rfl⟩ := hh
  unfold countsRead at *
  rw [List.filterMap_append]
  exact List.mem_append_left _ hn

/-! ### Streams of siblings -/

/-- Every sibling has sent its number of messages and `len` more bytes. -/
def After (sib : Nat → ι) (S me : Nat) (c len : Nat → Nat) (L : ι → List Byte) : Prop :=
  ∀ s, s < S → s ≠ me → ∃ x, x.length = len s ∧ L (sib s) = natLE 4 (c s) ++ x

theorem After.len {sib : Nat → ι} {S me : Nat} {c len len' : Nat → Nat} {L L' : ι → List Byte} (h : After sib S me c len L)
    (h' : HeardLen sib S me L L' len') : After sib S me c (fun s => len s + len' s) L' := by
  obtain ⟨f, f1, f2⟩ := h'
  intro s h1 h2
  obtain ⟨x, x1, x2⟩ := h s h1 h2
  exact ⟨x ++ f s, by rw [List.length_append, x1, f1 s h1 h2], by rw [f2 s h1 h2, x2, List.append_assoc]⟩

theorem After.off {sib : Nat → ι} {S me : Nat} {c len : Nat → Nat} {L L' : ι → List Byte} (h : After sib S me c len L)
    (h' : ∀ s, L' (sib s) = L (sib s)) : After sib S me c len L' := by
  intro s h1 h2
  rw [h' s]
  exact h s h1 h2

theorem After.congr {sib : Nat → ι} {S me : Nat} {c len len' : Nat → Nat} {L : ι → List Byte} (h : After sib S me c len L)
    (h' : ∀ s, len s = len' s) : After sib S me c len' L := by
  intro s h1 h2
  rw [← h' s]
  exact h s h1 h2

theorem After.length {sib : Nat → ι} {S me : Nat} {c len : Nat → Nat} {L : ι → List Byte} (h : After sib S me c len L) {s : Nat}
    (h1 : s < S) (h2 : s ≠ me) : (L (sib s)).length = 4 + len s := by
  obtain ⟨x, x1, x2⟩ := h s h1 h2
  rw [x2, List.length_append, x1]
  simp

theorem After.number {sib : Nat → ι} {S me : Nat} {c len : Nat → Nat} {L L' : ι → List Byte} (h : After sib S me c len L)
    (hc : ∀ s, c s < 2 ^ 32) (hL : ∀ s, L (sib s) <+: L' (sib s)) {s : Nat} (h1 : s < S) (h2 : s ≠ me) : numberAt 0 (L' (sib s)) = c s := by
  obtain ⟨x, -, x2⟩ := h s h1 h2
  obtain ⟨y, y2⟩ := hL s
  rw [← y2, x2, List.append_assoc]
  exact numberAt_natLE [] (c s) (hc s) _

/-! ### What a server knows before it has heard anything -/

namespace Slot

/-- `Ok` without what depends on the siblings. -/
structure Base (b : Slot box) : Prop where
  two : 2 ≤ b.S
  max : b.S < 255
  me : b.me < b.S
  km : b.k + b.m + 1 = b.pkeys.length
  m : 0 < b.m
  parties : b.pkeys.length ≤ 255
  keys : GoodKeys box b.pkeys b.skeys
  range : b.start + b.len ≤ b.rows
  rows : b.rows ≤ Spec.p
  find : Noise.findRange b.rand.rnd (BitVec.ofNat 8 b.me) (BitVec.ofNat 8 b.S) b.rows = .ok (b.start, b.start + b.len)

/-- The noise of this server. -/
def mine (b : Slot box) : Nat := sampleSum b.rand.sample b.len

/-- After this server read `n` and its siblings announced `c`. -/
def told (b : Slot box) (n : Nat) (c : Nat → Nat) : Slot box :=
  { b with noise := fun s => if s = b.me then b.mine else 0
           input := fun s => if s = b.me then n else c s }

variable {b : Slot box}

theorem told_own (n : Nat) (c : Nat → Nat) (s : Nat) : (b.told n c).own s = if s = b.me then b.mine + n else c s := by
  show (if s = b.me then b.mine else 0) + (if s = b.me then n else c s) = _
  by_cases h : s = b.me
  · rw [if_pos h, if_pos h, if_pos h]
  · rw [if_neg h, if_neg h, if_neg h, Nat.zero_add]

theorem told_total (hme : b.me < b.S) (n : Nat) (c : Nat → Nat) :
    (b.told n c).total = n + b.mine + preSum (fun s => if s = b.me then 0 else c s) b.S := by
  show preSum (b.told n c).own b.S = _
  have e : preSum (b.told n c).own b.S =
      preSum (fun s => (if s = b.me then b.mine + n else 0) + (if s = b.me then 0 else c s)) b.S := by
    refine preSum_congr (fun s _ => ?_)
    rw [told_own]
    by_cases h : s = b.me
    · rw [if_pos h, if_pos h, if_pos h, Nat.add_zero]
    · rw [if_neg h, if_neg h, if_neg h, Nat.zero_add]
  rw [e, preSum_add]
  have key : ∀ k, preSum (fun s => if s = b.me then b.mine + n else 0) k = if b.me < k then b.mine + n else 0 := by
    intro k
    induction k with
    | zero => rw [preSum_zero, if_neg (by omega)]
    | succ k ih =>
      rw [preSum_succ, ih]
      by_cases h : k = b.me
      · rw [if_neg (by omega), if_pos h, if_pos (by omega), Nat.zero_add]
      · rw [if_neg h, Nat.add_zero]
        by_cases h' : b.me < k
        · rw [if_pos h', if_pos (by omega)]
        · rw [if_neg h', if_neg (by omega)]
  rw [key, if_pos hme, Nat.add_comm b.mine n]

theorem Base.told (h : b.Base) {n : Nat} {c : Nat → Nat} (h32 : n + b.mine + preSum (fun s => if s = b.me then 0 else c s) b.S < 2 ^ 32) :
    (b.told n c).Ok :=
  ⟨h.two, h.max, h.me, h.km, h.m, h.parties, h.keys, by rw [told_total h.me]; exact h32, if_pos rfl, h.range, h.rows, h.find⟩

theorem told_counts (n : Nat) (c : Nat → Nat) (heard : Nat → List Byte) (hc : ∀ s, s < b.S → s ≠ b.me → numberAt 0 (heard s) = c s) :
    toldCounts b.S b.me (n + b.mine) heard = (b.told n c).counts := by
  unfold toldCounts counts tab
  refine List.map_congr_left (fun s hs => ?_)
  rw [told_own]
  by_cases h : s = b.me
  · rw [if_pos h, if_pos h, Nat.add_comm]
  · rw [if_neg h, if_neg h, hc s (List.mem_range.1 hs) h]

theorem Ok.isPlan {a : Slot box} (h : a.Ok) : ∃ s, IsPlan a.rand.rand a.seed a.counts a.me (a.noise a.me) s ∧
    ∀ t, t < a.S → s.countFrom t = .ok ((a.dests t).count a.me) := by
  obtain ⟨s, h1, -, h3⟩ := (plan_ok a.rand.rand a.seed a.counts h.pos (by rw [counts_sum]; exact h.total)).2.2.2 a.me (a.noise a.me)
    (by rw [counts_length]; exact h.me) (ParallelShuffler.new a.me a.counts.length a.seed) rfl rfl rfl
  refine ⟨s, h1, fun t ht => ?_⟩
  unfold ParallelShuffler.countFrom
  rw [h3.fromCount, counts_length, rd_tab _ _ _ ht]
  rfl

end Slot

/-- How such a server may stop. -/
def PartyF (b : Slot box) (offline : Bool) (sib : Nat → ι) (L : ι → List Byte) (h : List Obs) (e : Fault) : Prop :=
  e = .assertFail ∨ e = .exception ∨ Misled b.rand.rand b.seed b.S b.me b.mine (cipherSize b.m) offline (fun t => L (sib t)) h

/-- The case of `PartyF` that depends on the peers. -/
def MisledAt (b : Slot box) (offline : Bool) (sib : Nat → ι) (L : ι → List Byte) (h : List Obs) : Prop :=
  Misled b.rand.rand b.seed b.S b.me b.mine (cipherSize b.m) offline (fun t => L (sib t)) h

section
variable [DecidableEq ι] {idx : ι → Option Nat} {sib : Nat → ι} {b : Slot box} {offline : Bool}

theorem partyF_of_misled (L : ι → List Byte) (h : List Obs) (e : Fault) (hm : MisledAt b offline sib L h) : PartyF b offline sib L h e :=
  Or.inr (Or.inr hm)

/-- What is known of the peers once the counts are exchanged. -/
structure Told (b : Slot box) (n : Nat) (c : Nat → Nat) (h : List Obs) : Prop where
  n32 : n < 2 ^ 32
  c32 : ∀ s, c s < 2 ^ 32
  read : BitVec.ofNat 32 n ∈ countsRead h

theorem Told.toNat {n : Nat} {c : Nat → Nat} {h : List Obs} (t : Told b n c h) : (BitVec.ofNat 32 n).toNat = n := by
  rw [BitVec.toNat_ofNat, Nat.mod_eq_of_lt t.n32]

theorem Told.mono {n : Nat} {c : Nat → Nat} {h h' : List Obs} (t : Told b n c h) (hh : h <+: h') : Told b n c h' :=
  ⟨t.n32, t.c32, countsRead_prefix hh t.read⟩

/-- Too many messages. -/
theorem Told.over {n : Nat} {c len : Nat → Nat} {L : ι → List Byte} {h : List Obs} (t : Told b n c h) (ha : After sib b.S b.me c len L)
    (h32 : 2 ^ 32 ≤ n + b.mine + preSum (fun s => if s = b.me then 0 else c s) b.S) : Sure (MisledAt b offline sib) L h := by
  intro L' h' hL hh
  refine ⟨_, countsRead_prefix hh t.read, Or.inl ?_⟩
  rw [t.toNat, sumOthers_eq]
  refine h32.trans (le_of_eq (congrArg _ (preSum_congr (fun s hs => ?_))))
  by_cases e : s = b.me
  · rw [if_pos e, if_pos e]
  · rw [if_neg e, if_neg e, ha.number t.c32 (fun s => hL (sib s)) hs e]

/-- What is known of the plan. -/
theorem Told.misled {n : Nat} {c len : Nat → Nat} {L L' : ι → List Byte} {h h' : List Obs} (t : Told b n c h) (ha : After sib b.S b.me c len L)
    (hok : (b.told n c).Ok) (hL : ∀ s, L (sib s) <+: L' (sib s)) (hh : h <+: h')
    (hm : (∃ s, s < b.S ∧ s ≠ b.me ∧ ((b.told n c).dests s).count b.me <
        noiseTold offline (((b.told n c).dests s).count b.me * cipherSize b.m) (L' (sib s))) ∨
      offline = true ∧ (2 ^ 32 ≤ sumOthers b.S b.me (fun s => numberAt (11 + ((b.told n c).dests s).count b.me * cipherSize b.m) (L' (sib s))) ∨
        ∃ q ∈ queriesRead h', q.tag ∉ (stores h').map OfflineSecret.tag ∧
          ∀ s, s < b.S → s ≠ b.me → q.tag ∉ (secretsAt (11 + ((b.told n c).dests s).count b.me * cipherSize b.m) (L' (sib s))).map OfflineSecret.tag)) :
    MisledAt b offline sib L' h' := by
  obtain ⟨s, h1, h2⟩ := hok.isPlan
  refine ⟨_, countsRead_prefix hh t.read, Or.inr ⟨s, _, ?_, h2, hm⟩⟩
  rw [t.toNat, Slot.told_counts n c _ (fun s h1 h2 => ha.number t.c32 hL h1 h2)]
  have : (b.told n c).noise (b.told n c).me = b.mine := if_pos rfl
  rw [this] at h1
  exact h1

/-! ### Steps -/

section
variable {F : (ι → List Byte) → List Obs → Fault → Prop}

theorem heeds_waitForReady (src : ι) (hA : ∀ L h, F L h .assertFail) (hE : ∀ L h, F L h .exception) (L : ι → List Byte) (h : List Obs) :
    PProc.Heeds F (PProc.ofProc (waitForReady src)) (fun _ L' h' => h' = h ++ [.recvReady] ∧ SameOff (fun j => j = src) L L') L h := by
  refine heeds_plain (S := fun j => j = src) (waitForReady_safe src) ?_ hA hE
  exact Only.bind (Only.recvBytes (S := fun j => j = src) rfl 1) (fun _ => Only.bind (Only.lift _) (fun _ => trivial))

theorem heeds_sendReady (d : ι) (hA : ∀ L h, F L h .assertFail) (hE : ∀ L h, F L h .exception) (L : ι → List Byte) (h : List Obs) :
    PProc.Heeds F (PProc.ofProc (sendReady d)) (fun _ L' h' => h' = h ++ [.sendReady] ∧ L' = L) L h := by
  refine (heeds_plain (S := fun _ => False) (sendReady_safe d) (only_sendReady d) hA hE).mono ?_
  rintro - L' h' ⟨h1, h2⟩
  exact ⟨h1, funext (fun j => h2 j (fun h => h))⟩

theorem heeds_sync {S me : Nat} (hg : Group idx sib S) (p : ParallelParty box) (h1 : p.serverId = me) (h2 : p.serverCount = S)
    (hA : ∀ L h, F L h .assertFail) (L : ι → List Byte) (h : List Obs) :
    PProc.Heeds F (p.sync sib) (fun _ L' h' => h' = h ∧ HeardLen sib S me L L' (fun _ => 1)) L h := by
  unfold ParallelParty.sync
  rw [h1, h2]
  refine (heeds_barrier hg.inj me S hA _ _).mono ?_
  rintro - L' h' ⟨e, hh⟩
  exact ⟨e, fun _ => [1], fun _ _ _ => rfl, hh⟩

theorem heeds_relay {S me : Nat} (hg : Group idx sib S) (back next : ι) (hnext : ∀ s, sib s ≠ next)
    (p : ParallelParty box) (h1 : p.serverId = me) (h2 : p.serverCount = S)
    (hA : ∀ L h, F L h .assertFail) (hE : ∀ L h, F L h .exception) (L : ι → List Byte) (h : List Obs) :
    PProc.Heeds F (p.relayReady back next sib) (fun _ L' h' => Keeps h h' ∧ HeardLen sib S me L L' (fun _ => 1)) L h := by
  unfold ParallelParty.relayReady
  simp only [PProc.bind_def]
  refine PProc.Heeds.bind' (heeds_waitForReady next hA hE L h) ?_
  rintro - L1 h1' ⟨rfl, hL1⟩
  refine PProc.Heeds.bind' (heeds_sync hg p h1 h2 hA _ _) ?_
  rintro - L2 h2' ⟨rfl, f, f1, f2⟩
  refine (heeds_sendReady back hA hE _ _).mono ?_
  rintro - L3 h3 ⟨rfl, rfl⟩
  refine ⟨(Keeps.obs _ (by simp)).trans (Keeps.obs _ (by simp)), f, f1, ?_⟩
  intro s k1 k2
  rw [f2 s k1 k2, hL1 _ (hnext s)]

omit [DecidableEq ι] in
theorem only_sendCount {S : ι → Prop} (d : ι) (n : Nat) : Only S (sendCount d n : Prog ι Unit) :=
  Only.sendBytes (O := Obs) (S := S) d _

/-- The first steps of both offline stages. -/
theorem begin_heeds (hg : Group idx sib b.S) (hb : b.Base) {p : ParallelParty box} (hf : b.Fresh p) (back next : ι) (hback : ∀ s, sib s ≠ back)
    (hA : ∀ L h, F L h .assertFail) (hE : ∀ L h, F L h .exception) (L : ι → List Byte) (h : List Obs) (hL : ∀ s, L (sib s) = []) :
    ∃ q, p.toParty.initializeNoiseSamples b.rand.toPartyRand = .ok q ∧
      PProc.Heeds F ((p.withParty q).initializeCounts back next sib) (fun p' L' h' => ∃ n c, Told b n c h' ∧ Keeps h h' ∧
        After sib b.S b.me c (fun _ => 0) L' ∧ (n + b.mine + preSum (fun s => if s = b.me then 0 else c s) b.S < 2 ^ 32 →
          (b.told n c).Core p' ∧ p'.queriesState = {} ∧ p'.ciphers.shortSize = cipherSize b.m ∧ p'.ciphers.longSize = cipherSize (b.m + 1))) L h := by
  have hp32 : Spec.p < 2 ^ 32 := by decide
  have hr := hb.range
  have hr2 := hb.rows
  refine ⟨_, noiseSamplesAt_wrap p.toParty b.rand.toPartyRand b.start b.len (by
    rw [hf.id, hf.count, hf.db]; exact hb.find) (by omega), ?_⟩
  unfold ParallelParty.initializeCounts ParallelParty.withParty
  simp only [PProc.bind_def]
  refine PProc.Heeds.bind' (heeds_plain (S := fun j => j = back) (readCount_safe back) (only_readCount (S := fun j => j = back) rfl) hA hE) ?_
  rintro n L1 h1 ⟨⟨n32, k1, hr1⟩, hL1⟩
  rw [hf.id, hf.count]
  refine PProc.Heeds.bind' (heeds_counts hg.inj b.me b.S _ (fun _ _ => ⟨_, rfl⟩) _ L1 h1) ?_
  rintro l L2 h2 ⟨rfl, c, c32, rfl, hh⟩
  have hafter : After sib b.S b.me c (fun _ => 0) L2 := by
    intro s h1 h2
    refine ⟨[], rfl, ?_⟩
    rw [hh s h1 h2, hL1 _ (hback s), hL, List.append_nil, List.nil_append]
  refine PProc.Heeds.bind' (heeds_plain (S := fun _ => False) (sendCount_safe next _) (only_sendCount next _) hA hE) ?_
  rintro - L3 h3 ⟨rfl, hL3⟩
  refine ⟨n, c, ⟨n32, c32, ?_⟩, k1.trans (Keeps.obs _ (by simp)), hafter.off (fun s => hL3 _ (fun h => h)), ?_⟩
  · refine countsRead_prefix (List.prefix_append _ _) ?_
    rw [hr1]
    simp
  · intro h32
    have h := hb.told h32
    have e0 : wrap32 (wrap32 (sampleSum b.rand.sample b.len) + n) = (b.told n c).own b.me := by
      rw [Slot.told_own, if_pos rfl]
      have : b.mine = sampleSum b.rand.sample b.len := rfl
      rw [wrap32_of_lt (show sampleSum b.rand.sample b.len < 2 ^ 32 by omega), wrap32_of_lt (by omega), this]
    have e1 : tab b.S (fun s => if s = b.me then wrap32 (wrap32 (sampleSum b.rand.sample b.len) + n) else c s) = (b.told n c).counts := by
      refine tab_congr _ _ _ (fun s _ => ?_)
      rw [Slot.told_own, e0, Slot.told_own, if_pos rfl]
    have e2 : (b.told n c).counts.foldl (fun x c => wrap32 (x + c)) 0 = (b.told n c).total := by
      rw [foldl_wrap_sum _ _ (by rw [Slot.counts_sum, Nat.zero_add]; exact h.total), Slot.counts_sum, Nat.zero_add]
    have hle : (b.told n c).total / b.S * b.me ≤ (b.told n c).total := by
      have := hb.me
      calc (b.told n c).total / b.S * b.me ≤ (b.told n c).total / b.S * b.S := Nat.mul_le_mul_left _ (by omega)
        _ ≤ (b.told n c).total := Nat.div_mul_le_self _ _
    have ht := h.total
    have e3 : (if b.me = b.S - 1 then wrap32 ((b.told n c).total + 2 ^ 32 - wrap32 ((b.told n c).total / b.S * b.me)) else (b.told n c).total / b.S) =
        (b.told n c).slice := by
      rw [h.slice_eq]
      show _ = if b.me = b.S - 1 then (b.told n c).total - (b.S - 1) * ((b.told n c).total / b.S) else (b.told n c).total / b.S
      by_cases e : b.me = b.S - 1
      · rw [if_pos e, if_pos e, wrap32_of_lt (show (b.told n c).total / b.S * b.me < 2 ^ 32 by omega), ← e, Nat.mul_comm ((b.told n c).total / b.S) b.me]
        rw [Nat.mul_comm] at hle
        unfold wrap32
        rw [show (b.told n c).total + 2 ^ 32 - b.me * ((b.told n c).total / b.S) = ((b.told n c).total - b.me * ((b.told n c).total / b.S)) + 2 ^ 32 by omega,
          Nat.add_mod_right, Nat.mod_eq_of_lt (by omega)]
      · rw [if_neg e, if_neg e]
    have hn : wrap32 (sampleSum b.rand.sample b.len) = (b.told n c).noise b.me := by
      show _ = if b.me = b.me then b.mine else 0
      have : b.mine = sampleSum b.rand.sample b.len := rfl
      rw [if_pos rfl, wrap32_of_lt (by omega), this]
    simp only [e1, e2, e3]
    exact ⟨⟨⟨rfl, rfl, hf.seed, hf.pid, hf.pcount, hf.lseed, rfl, hn, rfl⟩, hf.party, hf.parties, hf.db, hf.keys, hf.pkey,
      hf.skey, (if_pos rfl).symm, rfl, rfl, rfl, rfl, hf.out⟩, hf.state, hf.short, hf.long⟩

/-- Initialising the two shufflers. -/
theorem heeds_shufflers {a : Slot box} (hg : Group idx sib a.S) (h : a.Ok) {p : ParallelParty box} (c : a.Core p) (L : ι → List Byte) (h0 : List Obs) :
    PProc.Heeds F (p.initializeShufflers a.rand sib) (fun p' L' h' => h' = h0 ∧ ∃ (nz : Nat → Nat) (ps : ParallelShuffler), (∀ s, nz s < 2 ^ 32) ∧
      Heard sib a.S a.me L L' (fun s => natLE 4 (nz s)) ∧ Planned a.S a.dests a.me (a.noise a.me) ps ∧ a.Core p' ∧ p' = { p with
        pshuffler := ps
        noiseFrom := tab a.S (fun s => if s = a.me then noiseTo a.dests a.noise a.me a.me else nz s)
        noisePrefix := runningSums 0 (tab a.S (fun s => if s = a.me then noiseTo a.dests a.noise a.me a.me else nz s))
        shuffler := a.shuf }) L h0 := by
  obtain ⟨hplan, hlen, hsl, hinit⟩ := plan_ok a.rand.rand a.seed a.counts h.pos (by rw [Slot.counts_sum]; exact h.total)
  rw [Slot.counts_length] at hplan hlen hinit
  obtain ⟨ps, i1, i2, i3⟩ := hinit a.me (a.noise a.me) h.me p.pshuffler c.counted.seed c.counted.pid c.counted.pcount
  obtain ⟨l1, l2, l3⟩ := shufOf_ok a.rand.rand p.shuffler a.lseed c.counted.lseed a.slice h.slice_lt
  have hcn : ∀ t, t < a.S → ps.countNoiseTo t = .ok (noiseTo a.dests a.noise t a.me) := by
    intro t ht
    unfold ParallelShuffler.countNoiseTo
    rw [i3.toNoise, rd_tab _ _ _ ht]
    rfl
  unfold ParallelParty.initializeShufflers
  simp only [PProc.bind_def]
  refine PProc.Heeds.lift_ok (by rw [c.counted.counts, c.counted.noise]; exact i1) ?_
  refine PProc.Heeds.lift_ok (a := ()) ?_ ?_
  · have : p.shuffledCount = ps.getServerSliceSize := by
      rw [c.counted.slice]; exact i3.slice.symm
    simp [assert, this]
  refine PProc.Heeds.lift_ok (by rw [c.counted.id]; exact hcn a.me h.me) ?_
  refine PProc.Heeds.bind' (heeds_counts hg.inj p.serverId p.serverCount _ (fun t ht => ⟨_, hcn t (by rw [← c.counted.count]; exact ht)⟩) _ L h0) ?_
  rintro l L1 h1 ⟨rfl, nz, n32, hl, hh⟩
  rw [c.counted.id, c.counted.count] at hl hh
  subst hl
  refine PProc.Heeds.lift_ok (by rw [c.counted.slice]; exact l1) ?_
  refine ⟨rfl, nz, ps, n32, hh, i3, ?_, rfl⟩
  exact c.shuf ps i2 i3.id i3.count _ (shufOf_ok a.rand.rand (LocalShuffler.new a.lseed) a.lseed rfl a.slice h.slice_lt).2.1 _ _ _ _ c.out

end

end
end DPPIR.Protocol
