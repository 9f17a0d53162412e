import Verif.Proofs.HostileRounds
import Verif.Proofs.HostileParty

/-!
# The online stage of a server of a parallel party, among arbitrary peers
-/

namespace DPPIR.Protocol
open DPPIR Proc Onion Incremental Additive Shuffle Spec
variable {box : SealedBox} {ι : Type}

/-- A tag the state has no secret for is one the record has no store of, and not in
`extra`. -/
def KnowsP (st : PartyState) (offline : Bool) (extra : BitVec 64 → Prop) (h : List Obs) : Prop :=
  ∀ tag, st.secrets.lookup (if st.simulated then 0 else tag) = none → offline = true ∧ tag ∉ (stores h).map OfflineSecret.tag ∧ ¬ extra tag

theorem KnowsP.keeps {st : PartyState} {offline : Bool} {extra : BitVec 64 → Prop} {h h' : List Obs} (hk : KnowsP st offline extra h)
    (hh : Keeps h h') : KnowsP st offline extra h' := by
  intro tag ht
  rw [hh.stores]
  exact hk tag ht

/-- A query with an unknown tag was read. -/
def UnknownX (offline : Bool) (extra : BitVec 64 → Prop) (h0 h : List Obs) : Prop :=
  h0 <+: h ∧ offline = true ∧ ∃ q ∈ queriesRead h, q.tag ∉ (stores h).map OfflineSecret.tag ∧ ¬ extra q.tag

/-- A preshare is known for the tag at every position below `k`. -/
def TagsKnown (tags : Batch (BitVec 64)) (st : PartyState) (k : Nat) : Prop :=
  ∀ i, i < k → ∃ tag e, tags.ptr[i]? = some tag ∧ st.secrets.lookup (if st.simulated then 0 else tag) = some e

theorem parallelCollect_safe {offline : Bool} {extra : BitVec 64 → Prop} (p : ParallelParty box) (back : ι) (h : List Obs) (N n : Nat)
    (hn : p.noiseCount = n) (h32 : n + N < 2 ^ 32) (ht : p.tags.ptr.length = N) (hr : p.tags.right = 0) (hq : p.queries.ptr.length = n + N)
    (hqc : p.queries.capacity = n + N) (hqr : p.queries.right = 0) (hk : KnowsP p.queriesState offline extra h) :
    Safe Any (Stop (UnknownX offline extra h)) (p.collectQueries back) (fun p' _ => ∃ tags st ptr, p' = { p with
        tags := tags
        queriesState := st
        queries := { ptr := ptr, capacity := n + N, right := 0 } } ∧ ptr.length = n + N ∧ TagsKnown tags st N) h := by
  have := Safe.loop (I := Any) (F := Stop (UnknownX offline extra h)) (f := ParallelParty.collectQuery (box := box) back)
    (fun j (q : Party box) h' => h <+: h' ∧ ∃ tags st ptr, q = { p.toParty with
        tags := tags
        queriesState := st
        queries := { ptr := ptr, capacity := n + N, right := 0 } } ∧ ptr.length = n + N ∧ tags.ptr.length = N ∧ tags.right = j - n ∧
        TagsKnown tags st (j - n) ∧ KnowsP st offline extra h') (p.queries.capacity - p.noiseCount) p.noiseCount p.toParty h
    ⟨List.prefix_rfl, p.tags, p.queriesState, p.queries.ptr, by rw [← hqc, ← hqr], hq, ht, by rw [hr, hn, Nat.sub_self],
      by rw [hn, Nat.sub_self]; intro i hi; omega, hk⟩ (by
      rintro j q h' hj hj' ⟨a0, tags, st, ptr, rfl, a1, a2, a3, a4, a5⟩
      rw [hn] at hj hj'
      rw [hqc] at hj'
      refine Safe.bind' (recvQuery_safe back) ?_
      rintro x h'' rfl
      have htag : tags.pushBack x.tag = .ok { tags with ptr := tags.ptr.set (j - n) x.tag, right := j - n + 1 } := by
        unfold Batch.pushBack
        rw [a3, wr_ok (by rw [a2]; omega), bind_ok, wrap32_of_lt (by omega)]
      show Safe _ _ ((lift (tags.pushBack x.tag)).bind _) _ _
      rw [htag]
      show Safe _ _ (lift (Party.handleQuery _ x j)) _ _
      have hk' := a5.keeps (Keeps.obs h' (o := .recvQuery x) (by simp))
      have hpre := a0.trans (List.prefix_append h' [.recvQuery x])
      cases hl : st.secrets.lookup (if st.simulated then 0 else x.tag) with
      | none =>
        obtain ⟨h1, h2, h3⟩ := hk' _ hl
        refine Safe.lift (fun a ha => ?_) (fun e _ => Or.inr (Or.inr ⟨hpre, h1, x, ?_, h2, h3⟩))
        · exfalso
          unfold Party.handleQuery PartyState.getNextTag at ha
          have : (st.loadSecret x.tag).it = none := hl
          simp only [this] at ha
          cases ha
        · rw [queriesRead_append]
          exact List.mem_append_right _ (List.mem_singleton.2 rfl)
      | some e =>
        rw [handleQuery_known (p := { p.toParty with
          tags := { tags with ptr := tags.ptr.set (j - n) x.tag, right := j - n + 1 }
          queriesState := st
          queries := { ptr := ptr, capacity := n + N, right := 0 } }) hl (by simp only; omega)]
        refine ⟨hpre, _, _, _, rfl, by simp [a1], by simp [a2], by simp only; omega, ?_, hk'⟩
        intro i hi
        by_cases hij : i = j - n
        · subst hij
          exact ⟨x.tag, e, by simp only; rw [List.getElem?_set_self (by omega)], hl⟩
        · obtain ⟨tag, e', t1, t2⟩ := a4 i (by omega)
          exact ⟨tag, e', by simp only; rw [List.getElem?_set_ne (Ne.symm hij)]; exact t1, t2⟩)
  unfold ParallelParty.collectQueries
  refine Safe.bind' this ?_
  rintro q h' ⟨-, tags, st, ptr, rfl, a1, -, -, a4, -⟩
  refine ⟨tags, st, ptr, rfl, a1, ?_⟩
  rw [hqc, hn] at a4
  rwa [show n + (n + N - n) - n = N by omega] at a4

theorem parallelSendQueries_safe {B : List Obs → Prop} (p : ParallelParty box) (next : ι) (h : List Obs) (l : List Query)
    (hq : p.outQueries.elements = .ok l) :
    Safe Any (Stop B) (p.sendQueries next) (fun p' _ => p' = { p with outQueries := Batch.free }) h := by
  unfold ParallelParty.sendQueries
  refine safe_ok hq ?_
  refine Safe.bind' (Safe.each (fun w _ => WBuf.Room w querySize) _ _ _ (WBuf.room_empty (by decide) (by decide)) ?_) ?_
  · intro q w h hw
    exact (sendQuery_safe next q w hw).mono (fun _ _ h => h.1)
  · intro w h' _
    exact Safe.bind (Safe.sendBytes rfl)

theorem parallelResponses_safe {Bl : List Obs → Prop} (p : ParallelParty box) (next : ι) (S : Nat) (hS : 0 < S) (cnt nz : Nat → Nat)
    (hnz : ∀ s, s < S → nz s ≤ cnt s)
    (h32 : preSum cnt S < 2 ^ 32) (hpre : p.pshuffler.prefixFrom = tab S (preSum cnt)) (hpc : p.pshuffler.serverCount = S)
    (hnf : p.noiseFrom = tab S nz) (hnp : p.noisePrefix = tab S (fun s => preSum nz (s + 1))) (hcount : p.serverCount = S)
    (hsc : p.shuffledCount = preSum cnt S) (F B : List Nat) (hF : IsShuffler F B (preSum cnt S)) (hB : p.shuffler.backward = B) (h : List Obs) :
    Safe Any (Stop Bl) (p.collectResponses next) (fun p' _ => ∃ ptr, p' = { p with
      shuffler := p.shuffler.finishBackward
      inResponses := { ptr := ptr, capacity := preSum (fun s => cnt s - nz s) S, right := 0 } } ∧
      ptr.length = preSum (fun s => cnt s - nz s) S) h := by
  have hsplit : ∀ n, n ≤ S → preSum cnt n = preSum nz n + preSum (fun s => cnt s - nz s) n := by
    intro n hn
    rw [← preSum_add]
    exact preSum_congr (fun i hi => by have := hnz i (by omega); omega)
  unfold ParallelParty.collectResponses
  have hn0 : rd p.noisePrefix (p.serverCount - 1) = .ok (preSum nz S) := by
    rw [hcount, hnp, rd_tab _ _ _ (by omega), Nat.sub_add_cancel hS]
  refine safe_ok hn0 ?_
  have hcap : wrap32 (p.shuffledCount + 2 ^ 32 - preSum nz S) = preSum (fun s => cnt s - nz s) S := by
    have := hsplit S (le_refl _)
    rw [hsc, show preSum cnt S + 2 ^ 32 - preSum nz S = preSum (fun s => cnt s - nz s) S + 2 ^ 32 by omega]
    unfold wrap32
    rw [Nat.add_mod_right, Nat.mod_eq_of_lt (by omega)]
  rw [hcap]
  generalize hN : preSum (fun s => cnt s - nz s) S = N at *
  refine Safe.bind' (Safe.loop (I := Any) (F := Stop Bl) (f := ParallelParty.collectResponse (box := box) next)
    (fun _ (p' : ParallelParty box) _ => ∃ ptr', p' = { p with
        inResponses := { ptr := ptr', capacity := N, right := 0 } } ∧ ptr'.length = N) p.shuffledCount 0 _ h
    ⟨List.replicate N ⟨0, fun _ => 0⟩, by simp only [Batch.initialize], by simp⟩ ?_) ?_
  · rintro j p' h' - hj ⟨ptr', rfl, g1⟩
    rw [Nat.zero_add, hsc] at hj
    obtain ⟨b, hb, hb2, hlt⟩ := hF.getB hj
    have htg : p.shuffler.deshuffle j = .ok b := by
      unfold LocalShuffler.deshuffle
      rw [hB, rd_eq_ok, hb2]
    obtain ⟨s, k, hs, hk, rfl⟩ := preSum_find cnt S b hlt
    have hsrc : p.pshuffler.findSourceOf (preSum cnt s + k) = .ok s := by
      unfold ParallelShuffler.findSourceOf
      rw [hpre, hpc, findSource_at S cnt hs hk]
    have hst : p.pshuffler.prefixCountFrom s = .ok (preSum cnt s) := by
      unfold ParallelShuffler.prefixCountFrom
      rw [hpre, rd_tab _ _ _ hs]
    have hnfs : rd p.noiseFrom s = .ok (nz s) := by rw [hnf, rd_tab _ _ _ hs]
    have hnps : rd p.noisePrefix s = .ok (preSum nz (s + 1)) := by rw [hnp, rd_tab _ _ _ hs]
    have hm := preSum_mono cnt (show s + 1 ≤ S by omega)
    rw [preSum_succ] at hm
    have hns := hnz s hs
    unfold ParallelParty.collectResponse
    refine Safe.bind' (recvResponse_safe next) ?_
    rintro r h'' rfl
    refine safe_ok htg (safe_ok hsrc (safe_ok hst (safe_ok hnfs ?_)))
    rw [wrap32_of_lt (show preSum cnt s + nz s < 2 ^ 32 by omega)]
    by_cases hc : nz s ≤ k
    · obtain ⟨c, rfl⟩ := Nat.exists_eq_add_of_le hc
      have e1 := hsplit s (by omega)
      have e2 := hsplit (s + 1) (by omega)
      have e3 := preSum_succ nz s
      have hle : preSum (fun s => cnt s - nz s) s + c < N := by
        have := preSum_mono (fun s => cnt s - nz s) (show s + 1 ≤ S by omega)
        rw [preSum_succ] at this
        omega
      rw [if_pos (by omega)]
      refine safe_ok hnps ?_
      have hi : wrap32 (preSum cnt s + (nz s + c) + 2 ^ 32 - preSum nz (s + 1)) = preSum (fun s => cnt s - nz s) s + c := by
        rw [show preSum cnt s + (nz s + c) + 2 ^ 32 - preSum nz (s + 1) = preSum (fun s => cnt s - nz s) s + c + 2 ^ 32 by omega]
        unfold wrap32
        rw [Nat.add_mod_right, Nat.mod_eq_of_lt (by omega)]
      rw [hi]
      refine safe_ok (a := { ptr := ptr'.set (preSum (fun s => cnt s - nz s) s + c) r, capacity := N, right := 0 }) ?_ ?_
      · unfold Batch.set
        simp only
        rw [wr_ok (by omega), bind_ok]
      · exact ⟨_, rfl, by simpa using g1⟩
    · rw [if_neg (by omega)]
      exact ⟨ptr', rfl, g1⟩
  · rintro p' h' ⟨ptr', rfl, g1⟩
    exact ⟨ptr', rfl, g1⟩

/-! ### What is read from whom -/

theorem only_collectQueries {S : ι → Prop} {back : ι} (hs : S back) (p : ParallelParty box) : Only S (p.collectQueries back) := by
  refine Only.bind (Only.loop (fun j b => ?_) _ _ _) (fun _ => trivial)
  refine Only.bind (Only.bind (Only.recvBytes hs _) (fun _ => trivial)) (fun c => ?_)
  exact Only.bind (Only.lift _) (fun _ => Only.lift _)

theorem only_parallelSendQueries {S : ι → Prop} (next : ι) (p : ParallelParty box) : Only S (p.sendQueries next) := by
  refine Only.bind (Only.lift _) (fun qs => Only.bind (Only.each (fun q s => ?_) _ _) (fun s => Only.bind (Only.sendBytes _ _) (fun _ => trivial)))
  exact Only.bind (S := S) (p := observe _) trivial (fun _ => only_pushBuffered _ _ _ _)

theorem only_sendResponses {S : ι → Prop} (back : ι) (p : Party box) : Only S (p.sendResponses back) := by
  refine Only.bind (Only.lift _) (fun qs => Only.bind (Only.each (fun q s => ?_) _ _) (fun s => Only.bind (Only.sendBytes _ _) (fun _ => trivial)))
  exact Only.bind (S := S) (p := observe _) trivial (fun _ => only_pushBuffered _ _ _ _)

theorem only_collectResponses {S : ι → Prop} {next : ι} (hs : S next) (p : ParallelParty box) : Only S (p.collectResponses next) := by
  refine Only.bind (Only.lift _) (fun _ => Only.bind (Only.loop (fun j b => ?_) _ _ _) (fun _ => trivial))
  refine Only.bind (Only.bind (Only.recvBytes hs _) (fun _ => trivial)) (fun c => ?_)
  refine Only.bind (Only.lift _) (fun _ => Only.bind (Only.lift _) (fun _ => Only.bind (Only.lift _) (fun _ => Only.bind (Only.lift _) (fun _ => ?_))))
  split
  · exact Only.bind (Only.lift _) (fun _ => Only.bind (Only.lift _) (fun _ => trivial))
  · trivial

/-! ### The online stage -/

section
variable [DecidableEq ι] {F : (ι → List Byte) → List Obs → Fault → Prop}

/-- Steps without siblings that stop only by assertions and exceptions. -/
theorem heeds_plain {α : Type} {p : Prog ι α} {Q : α → List Obs → Prop} {L : ι → List Byte} {h : List Obs} {S : ι → Prop}
    (hs : Safe Any (Stop (fun _ => False)) p Q h) (ho : Only S p) (hA : ∀ L h, F L h .assertFail) (hE : ∀ L h, F L h .exception) :
    PProc.Heeds F (PProc.ofProc p) (fun a L' h' => Q a h' ∧ SameOff S L L') L h := by
  refine PProc.Heeds.ofProc hs ho ?_
  rintro L' h' e - (rfl | rfl | he)
  · exact hA _ _
  · exact hE _ _
  · exact he.elim

theorem heeds_shuffleQueries {idx : ι → Option Nat} {sib : Nat → ι} {S : Nat} (hg : Group idx sib S) (hS : S < 255)
    (p : ParallelParty box) (me : Nat) (hme : me < S) (dests : Nat → List Nat) (hplan : Routing S dests)
    (items : List Query) (hlen : items.length = (dests me).length)
    (noise : Nat) (hid : p.serverId = me) (hcount : p.serverCount = S) (hps : Planned S dests me noise p.pshuffler)
    (B : List Nat) (hF : IsShuffler p.shuffler.forward B (sliceOf S dests me)) (hslice : p.shuffledCount = sliceOf S dests me)
    (hitems : p.queries.elements = .ok items) (hA : ∀ L h, F L h .assertFail) (L : ι → List Byte) (h : List Obs) :
    PProc.Heeds F (p.shuffleQueries sib) (fun p' _ h' => h' = h ∧ ∃ g l, QRep g l ∧ p' = { p with
        outQueries := g
        queries := Batch.free
        pshuffler := { p.pshuffler with
          forwardIdx := (dests me).length
          forward := [] }
        shuffler := p.shuffler.finishForward }) L h := by
  unfold ParallelParty.shuffleQueries
  simp only [PProc.bind_def]
  have hs32 := hplan.slice_le hme
  have hle : (dests me).count me ≤ sliceOf S dests me := by
    have := preSum_mono (fun a => (dests a).count me) (show me + 1 ≤ S by omega)
    rw [preSum_succ] at this
    unfold sliceOf
    omega
  refine PProc.Heeds.lift_ok (readPlan_ok _ S me _ (fun s => (dests s).count me) _ hcount hid hme (fun s hs => ?_)
    (by rw [hslice]; exact hs32) (by rw [hslice]; exact hle)) ?_
  · unfold ParallelShuffler.countFrom
    rw [hps.fromCount, rd_tab _ _ _ hs]
  refine PProc.Heeds.lift_ok hitems ?_
  simp only
  refine PProc.Heeds.bind' (heeds_queryRound hg hS p me hme dests hplan items hlen noise hid hcount hps B hF hslice L h) ?_
  rintro p' L1 h1 ⟨rfl, -, g, l, rfl, hg'⟩
  refine PProc.Heeds.bind' (R := fun _ _ h' => h' = h1) ?_ ?_
  · unfold ParallelParty.sync
    simp only
    rw [hid, hcount]
    exact (heeds_barrier hg.inj me S hA _ _).mono (fun _ _ _ h => h.1)
  · rintro - L2 h2 rfl
    exact ⟨rfl, g, l, hg', rfl⟩

theorem heeds_deshuffle {idx : ι → Option Nat} {sib : Nat → ι} {S : Nat} (hg : Group idx sib S) (hS : S < 255) (h2 : 2 ≤ S)
    (p : ParallelParty box) (me : Nat) (hme : me < S) (dests : Nat → List Nat) (hplan : Routing S dests)
    (noise : Nat → Nat) (hn : ∀ s, s < S → noise s ≤ (dests s).length)
    (items : List Response) (hlen : items.length = preSum (fun s => (realDest dests noise s).count me) S)
    (hid : p.serverId = me) (hcount : p.serverCount = S) (hps : PlannedBack S dests me (noise me) p.pshuffler)
    (hnoise : p.noiseCount = noise me) (hin : p.inputCount = (realDest dests noise me).length)
    (hnp : p.noisePrefix = tab S (fun s => preSum (noiseTo dests noise me) (s + 1)))
    (hun : ∀ i, i < p.inputCount → ∃ tag pre, p.tags.get i = .ok tag ∧ p.queriesState.getPreshare tag = .ok pre)
    (hitems : p.inResponses.elements = .ok items) (hA : ∀ L h, F L h .assertFail) (L : ι → List Byte) (h : List Obs) :
    PProc.Heeds F (p.deshuffleResponses sib) (fun p' _ _ => p'.serverId = me ∧ p'.serverCount = S ∧
      p'.responses.ptr.length = p.inputCount ∧ p'.responses.capacity = p.inputCount) L h := by
  unfold ParallelParty.deshuffleResponses
  simp only [PProc.bind_def]
  have hl32 := hplan.length_le hme
  have hs32 := hplan.slice_le hme
  have hD : realDest dests noise me = (dests me).drop (noise me) := rfl
  have hDl : (realDest dests noise me).length = (dests me).length - noise me := List.length_drop
  have hto : ∀ s t, (dests s).count t = ((dests s).take (noise s)).count t + (realDest dests noise s).count t := by
    intro s t; rw [realDest, ← List.count_append, List.take_append_drop]
  have hDc : (realDest dests noise me).count me ≤ (realDest dests noise me).length := List.count_le_length
  refine PProc.Heeds.lift_ok (readPlan_ok _ S me _ (fun s => (realDest dests noise me).count s) _ hcount hid hme (fun s hs => ?_)
    (by rw [hin]; omega) (by rw [hin]; exact hDc)) ?_
  · unfold ParallelShuffler.countTo ParallelShuffler.countNoiseTo
    rw [hps.toCount, rd_tab _ _ _ hs, bind_ok, hps.toNoise, rd_tab _ _ _ hs, bind_ok, hto me s]
    have : (realDest dests noise me).count s ≤ (realDest dests noise me).length := List.count_le_length
    rw [show ((dests me).take (noise me)).count s + (realDest dests noise me).count s + 2 ^ 32 - ((dests me).take (noise me)).count s =
      (realDest dests noise me).count s + 2 ^ 32 by omega]
    unfold wrap32
    rw [Nat.add_mod_right, Nat.mod_eq_of_lt (by omega)]
  refine PProc.Heeds.lift_ok (targetEnd_ok _ S (fun a => (dests a).count me) (noiseTo dests noise me)
    (fun s => (realDest dests noise s).count me) (fun s hs => hto s me) hs32 hps.prefixFrom hnp (show 0 + 1 < S by omega)) ?_
  refine PProc.Heeds.lift_ok hitems ?_
  simp only
  refine PProc.Heeds.bind' (heeds_backRound hg hS h2 p me hme dests hplan noise hn items hlen hid hcount hps hnoise hin hnp hun L h) ?_
  rintro ⟨p', i', t', s'⟩ L1 h1 ⟨un, ps, hp'⟩
  simp only at hp'
  subst hp'
  simp only
  refine PProc.Heeds.bind' (R := fun _ _ _ => True) ?_ ?_
  · unfold ParallelParty.sync
    simp only
    rw [hid, hcount]
    exact (heeds_barrier hg.inj me S hA _ _).mono (fun _ _ _ _ => trivial)
  · rintro - L2 h2 -
    exact ⟨hid, hcount, by simp, rfl⟩

theorem parallel_online_heeds {idx : ι → Option Nat} {sib : Nat → ι} {S : Nat} (hg : Group idx sib S) (hS : S < 255) (h2 : 2 ≤ S)
    (back next : ι) (hback : ∀ s, sib s ≠ back) (me : Nat) (hme : me < S) (dests : Nat → List Nat) (hplan : Routing S dests)
    (NQ Q : Nat → List QTicket) (hlen : ∀ s, s < S → (NQ s).length + (Q s).length = (dests s).length)
    (Fw B : List Nat) (hF : IsShuffler Fw B (sliceOf S dests me)) (p : ParallelParty box) (hp : ParallelReady p S me dests NQ Q Fw B)
    {offline : Bool} {extra : BitVec 64 → Prop} (L : ι → List Byte) (h : List Obs) (hk : KnowsP p.queriesState offline extra h)
    (hA : ∀ L h, F L h .assertFail) (hE : ∀ L h, F L h .exception)
    (hU : ∀ L' h' e, (∀ s, L' (sib s) = L (sib s)) → UnknownX offline extra h h' → F L' h' e) :
    PProc.Heeds F (p.startOnline back next sib) (fun _ _ _ => True) L h := by
  have hl := hlen me hme
  have hl32 := hplan.length_le hme
  obtain ⟨ptr, hq, hpl⟩ := hp.queries
  have hptr : ptr.length = (NQ me).length + (Q me).length := by rw [hpl.length, List.length_append, List.length_map]
  unfold ParallelParty.startOnline
  simp only [PProc.bind_def]
  have hsync : ∀ (p : ParallelParty box) (L : ι → List Byte) (h : List Obs), p.serverId = me → p.serverCount = S →
      PProc.Heeds F (p.sync sib) (fun _ _ _ => True) L h := by
    intro p L h h1 h2
    unfold ParallelParty.sync
    rw [h1, h2]
    exact (heeds_barrier hg.inj me S hA _ _).mono (fun _ _ _ _ => trivial)
  refine PProc.Heeds.bind' (PProc.Heeds.ofProc (S := fun j => j = back) (parallelCollect_safe p back h (Q me).length (NQ me).length hp.noise (by omega)
    (by rw [hp.tags]; simp [Batch.initialize]) (by rw [hp.tags]; rfl) (by rw [hq]; exact hptr) (by rw [hq]) (by rw [hq]) hk)
    (only_collectQueries (S := fun j => j = back) rfl p) ?_) ?_
  · rintro L' h' e hL (rfl | rfl | he)
    · exact hA _ _
    · exact hE _ _
    · exact hU _ _ _ (fun s => hL (sib s) (hback s)) he
  rintro p1 L1 h1 ⟨⟨tags, st, ptr1, rfl, l1, htk⟩, -⟩
  refine PProc.Heeds.bind' (hsync _ _ _ hp.id hp.count) ?_
  rintro - L2 h2' -
  refine PProc.Heeds.bind' (heeds_shuffleQueries hg hS { p with
      tags := tags
      queriesState := st
      queries := { ptr := ptr1, capacity := (NQ me).length + (Q me).length, right := 0 } } me hme dests hplan ptr1 (by omega) (NQ me).length hp.id hp.count hp.planned B
    (by simp only; rw [hp.forward]; exact hF) hp.slice (by
      unfold Batch.elements
      simp only
      rw [slice_ok (by omega), List.drop_zero, List.take_of_length_le (by omega)]) hA L2 h2') ?_
  rintro p2 L3 h3 ⟨-, g, l, hgl, rfl⟩
  refine PProc.Heeds.bind' (heeds_plain (S := fun _ => False) (parallelSendQueries_safe _ next h3 l hgl.elements) (only_parallelSendQueries next _) hA hE) ?_
  rintro p3 L4 h4 ⟨rfl, -⟩
  have hnt : ∀ s, s < S → noiseTo dests (fun s => (NQ s).length) me s ≤ (dests s).count me := fun s _ => noiseTo_le _ _ _ _
  have hps := hp.planned.back (dests me).length []
  refine PProc.Heeds.bind' (heeds_plain (S := fun j => j = next) (parallelResponses_safe { p with
      tags := tags
      queriesState := st
      outQueries := Batch.free
      queries := Batch.free
      pshuffler := { p.pshuffler with
        forwardIdx := (dests me).length
        forward := [] }
      shuffler := p.shuffler.finishForward } next S (by omega) (fun s => (dests s).count me)
    (noiseTo dests (fun s => (NQ s).length) me) hnt (hplan.slice_le hme) hps.prefixFrom hps.count hp.noiseFrom hp.noisePrefix hp.count
    hp.slice Fw B hF hp.backward h4) (only_collectResponses (S := fun j => j = next) rfl _) hA hE) ?_
  rintro p4 L5 h5 ⟨⟨ptr4, rfl, l4⟩, -⟩
  have hreal : ∀ s, (realDest dests (fun s => (NQ s).length) s).count me = (dests s).count me - noiseTo dests (fun s => (NQ s).length) me s := by
    intro s
    have : (dests s).count me = ((dests s).take (NQ s).length).count me + ((dests s).drop (NQ s).length).count me := by
      rw [← List.count_append, List.take_append_drop]
    show ((dests s).drop (NQ s).length).count me = (dests s).count me - ((dests s).take (NQ s).length).count me
    omega
  refine PProc.Heeds.bind' (heeds_deshuffle hg hS h2 { p with
      tags := tags
      queriesState := st
      outQueries := Batch.free
      queries := Batch.free
      inResponses := { ptr := ptr4, capacity := preSum (fun s => (dests s).count me - noiseTo dests (fun s => (NQ s).length) me s) S, right := 0 }
      pshuffler := { p.pshuffler with
        forwardIdx := (dests me).length
        forward := [] }
      shuffler := p.shuffler.finishForward.finishBackward } me hme dests hplan (fun s => (NQ s).length) (fun s hs => by have := hlen s hs; omega) ptr4
    (by rw [l4]; exact preSum_congr (fun s _ => (hreal s).symm)) hp.id hp.count hps hp.noise
    (by simp only; rw [hp.input, realDest, List.length_drop]; omega) hp.noisePrefix ?_ (by
      unfold Batch.elements
      simp only
      rw [slice_ok (by omega), List.drop_zero, List.take_of_length_le (by omega)]) hA L5 h5) ?_
  · intro i hi
    simp only at hi
    rw [hp.input] at hi
    obtain ⟨tag, e, t1, t2⟩ := htk i hi
    refine ⟨tag, e.preshare, ?_, ?_⟩
    · unfold Batch.get
      rw [rd_eq_ok]
      exact t1
    · unfold PartyState.getPreshare
      simp only
      rw [t2]
  rintro p5 L6 h6 ⟨r1, r2, r3, r4⟩
  refine PProc.Heeds.bind' (hsync _ _ _ r1 r2) ?_
  rintro - L7 h7 -
  refine PProc.Heeds.bind' (heeds_plain (S := fun _ => False) (sendResponses_safe p5.toParty back h7 _ r3 r4) (only_sendResponses back _) hA hE) ?_
  intro _ _ _ _
  trivial

end

end DPPIR.Protocol
