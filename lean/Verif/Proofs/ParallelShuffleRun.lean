import Verif.Proofs.Rounds

/-!
# The shuffle functions of a parallel party
-/

namespace DPPIR.Protocol
open DPPIR Proc PNet Onion Shuffle Spec

variable {box : SealedBox} {ι : Type} [DecidableEq ι]

/-- The part of server `s` in a round. -/
def rseg (idx : ι → Option Nat) (sib : Nat → ι) (outs : Nat → List (Nat × Byte)) (s : Nat) : Seg ι Obs :=
  .xchg ((outs s).map (fun o => (sib o.1, o.2))) (roundIns idx outs s) (fun _ => false)

theorem readPlan_ok (p : ParallelParty box) (S me : Nat) (count : Nat → Res Nat) (c : Nat → Nat) (total : Nat)
    (hS : p.serverCount = S) (hme : p.serverId = me) (hlt : me < S) (hc : ∀ s, s < S → count s = .ok (c s)) (h32 : total < 2 ^ 32)
    (hle : c me ≤ total) :
    p.readPlan count total = .ok (tab S (fun s => if s = me then 0 else c s), total - c me) := by
  unfold ParallelParty.readPlan
  rw [hS, hme]
  obtain ⟨st, h1, rfl⟩ := forRange_inv (fun k (st : List Nat × Nat) =>
      st = (tab k (fun s => if s = me then 0 else c s), if me < k then total - c me else total)) (fun id st => do
    let c ← count id
    if id ≠ me then .ok (st.1 ++ [c], st.2)
    else .ok (st.1 ++ [0], wrap32 (st.2 + 2 ^ 32 - c))) 0 S ([], total) (Nat.zero_le _) rfl (by
      rintro k st - hk rfl
      have e : ∀ f : Nat → Nat, tab (k + 1) f = tab k f ++ [f k] := by
        intro f; simp [tab, List.range_succ]
      refine ⟨_, ?_, rfl⟩
      simp only [e]
      rw [hc k hk, bind_ok]
      by_cases hkm : k = me
      · subst hkm
        simp only [ne_eq, not_true_eq_false, if_false, if_true, lt_irrefl]
        rw [if_pos (by omega), show total + 2 ^ 32 - c k = (total - c k) + 2 ^ 32 by omega]
        unfold wrap32
        rw [Nat.add_mod_right, Nat.mod_eq_of_lt (by omega)]
      · simp only [ne_eq, hkm, not_false_eq_true, if_true, if_false]
        by_cases h : me < k
        · rw [if_pos h, if_pos (by omega)]
        · rw [if_neg h, if_neg (by omega)])
  rw [if_pos hlt] at h1
  exact h1

/-- Number of noise messages that server `t` gets from server `s`. -/
def noiseTo (dests : Nat → List Nat) (noise : Nat → Nat) (t s : Nat) : Nat := ((dests s).take (noise s)).count t

theorem noiseTo_le (dests : Nat → List Nat) (noise : Nat → Nat) (t s : Nat) : noiseTo dests noise t s ≤ (dests s).count t :=
  (List.take_sublist _ _).count_le _

theorem runningSums_tab (S : Nat) (f : Nat → Nat) (h : preSum f S < 2 ^ 32) :
    runningSums 0 (tab S f) = tab S (fun s => preSum f (s + 1)) := by
  have key : ∀ n k, k + n ≤ S → runningSums (preSum f k) ((List.range' k n).map f) = (List.range' k n).map (fun s => preSum f (s + 1)) := by
    intro n
    induction n with
    | zero => intro k _; rfl
    | succ n ih =>
      intro k hk
      have hm := preSum_mono f (show k + 1 ≤ S by omega)
      rw [List.range'_succ, List.map_cons, List.map_cons, runningSums, ← preSum_succ, wrap32_of_lt (by omega),
        ih (k + 1) (by omega)]
  have := key S 0 (by omega)
  unfold tab
  rw [List.range_eq_range']
  exact this

/-- A server whose counts are known to all. -/
structure Counted (p : ParallelParty box) (S me : Nat) (seed lseed : Int) (counts : List Nat) (noise slice : Nat) : Prop where
  id : p.serverId = me
  count : p.serverCount = S
  seed : p.pshuffler.seed = seed
  pid : p.pshuffler.serverId = me
  pcount : p.pshuffler.serverCount = S
  lseed : p.shuffler.seed = lseed
  counts : p.atSiblingCounts = counts
  noise : p.noiseCount = noise
  slice : p.shuffledCount = slice

/-- The round of `InitializeShufflers`. -/
def noiseRound (S : Nat) (dests : Nat → List Nat) (noise : Nat → Nat) : Nat → List (Nat × Byte) :=
  castOut S (countMsg (fun s t => noiseTo dests noise t s))

theorem initializeShufflers_does {idx : ι → Option Nat} {sib : Nat → ι} {S : Nat} (hg : Group idx sib S) (rand : ParallelRand box)
    (p : ParallelParty box) (me : Nat) (hme : me < S) (seed lseed : Int) (counts : List Nat) (noise : Nat → Nat) (slice : Nat)
    (hcl : counts.length = S) (h32 : counts.sum < 2 ^ 32)
    (hslice : slice = sliceOf S (planOf rand.rand seed counts) me)
    (hp : Counted p S me seed lseed counts (noise me) slice) :
    PProc.Does (fun p' => ∃ ps, ps.seed = seed ∧ Planned S (planOf rand.rand seed counts) me (noise me) ps ∧ p' = { p with
        pshuffler := ps
        noiseFrom := tab S (noiseTo (planOf rand.rand seed counts) noise me)
        noisePrefix := tab S (fun s => preSum (noiseTo (planOf rand.rand seed counts) noise me) (s + 1))
        shuffler := shufOf rand.rand lseed slice })
      (p.initializeShufflers rand sib) [rseg idx sib (noiseRound S (planOf rand.rand seed counts) noise) me] := by
  obtain ⟨hplan, hlen, hsl, hinit⟩ := plan_ok rand.rand seed counts (by omega) h32
  rw [hcl] at hplan hlen hinit
  obtain ⟨ps, i1, i2, i3⟩ := hinit me (noise me) hme p.pshuffler hp.seed hp.pid hp.pcount
  have hs32 := hplan.slice_le hme
  obtain ⟨l1, l2, l3⟩ := shufOf_ok rand.rand p.shuffler lseed hp.lseed slice (by rw [hslice]; exact hs32)
  have hno : ∀ s t, s < S → t < S → noiseTo (planOf rand.rand seed counts) noise t s < 2 ^ 32 := by
    intro s t hs ht
    have := noiseTo_le (planOf rand.rand seed counts) noise t s
    have h2 : (planOf rand.rand seed counts s).count t ≤ (planOf rand.rand seed counts s).length := List.count_le_length
    have := hplan.length_le hs
    omega
  have hcn : ∀ t, t < S → ps.countNoiseTo t = .ok (noiseTo (planOf rand.rand seed counts) noise t me) := by
    intro t ht
    unfold ParallelShuffler.countNoiseTo
    rw [i3.toNoise, rd_tab _ _ _ ht]
    rfl
  unfold ParallelParty.initializeShufflers
  simp only [PProc.bind_def]
  refine PProc.Does.lifts (by rw [hp.counts, hp.noise]; exact i1) ?_
  refine PProc.Does.lifts (a := ()) ?_ ?_
  · have : p.shuffledCount = ps.getServerSliceSize := by
      rw [hp.slice, hslice]; exact i3.slice.symm
    simp [assert, this]
  refine PProc.Does.lifts (by rw [hp.id]; exact hcn me hme) ?_
  rw [hp.id, hp.count]
  refine PProc.Does.bind' (counts_does hg hme (fun s t => noiseTo (planOf rand.rand seed counts) noise t s) hno ps.countNoiseTo
    (fun t ht _ => hcn t ht) (noiseTo (planOf rand.rand seed counts) noise me me) (fun _ => false)) (M := []) ?_ rfl
  rintro l rfl
  have e1 : tab S (fun s => if s = me then noiseTo (planOf rand.rand seed counts) noise me me
      else noiseTo (planOf rand.rand seed counts) noise me s) = tab S (noiseTo (planOf rand.rand seed counts) noise me) := by
    apply tab_congr
    intro s _
    split
    · rename_i e; rw [e]
    · rfl
  rw [e1]
  refine PProc.Does.lifts (by rw [hp.slice]; exact l1) ?_
  refine .done ⟨ps, i2, i3, ?_⟩
  have hsum : preSum (noiseTo (planOf rand.rand seed counts) noise me) S < 2 ^ 32 := by
    have : preSum (noiseTo (planOf rand.rand seed counts) noise me) S ≤ sliceOf S (planOf rand.rand seed counts) me := by
      have : ∀ n, preSum (noiseTo (planOf rand.rand seed counts) noise me) n ≤
          preSum (fun a => (planOf rand.rand seed counts a).count me) n := by
        intro n
        induction n with
        | zero => simp [preSum_zero]
        | succ n ih =>
          rw [preSum_succ, preSum_succ]
          have := noiseTo_le (planOf rand.rand seed counts) noise me n
          omega
      exact this S
    omega
  rw [runningSums_tab _ _ hsum]

/-! ## Queries -/

/-- The round of `ShuffleQueries`. -/
def queryRound (S : Nat) (dests : Nat → List Nat) (batch : Nat → List Query) (s : Nat) : List (Nat × Byte) :=
  routedBytes Query.encode querySize S s (dests s) (batch s)

/-- The batch of server `t` after a shuffle of the batches of all servers: its local
shuffle of what each server sent it. -/
def shuffled {α : Type} (S : Nat) (dests : Nat → List Nat) (batch : Nat → List α) (B : List Nat) (t : Nat) : List α :=
  pick B ((List.range S).flatMap (fun s => selTo (dests s) (batch s) t))

theorem routed_outsOk {τ : Type} (encode : τ → List Byte) (unit S : Nat) (dests : Nat → List Nat) (batch : Nat → List τ)
    (h : Routing S dests) : OutsOk S (fun s => routedBytes encode unit S s (dests s) (batch s)) := by
  intro s hs o ho
  exact outgoing_mem _ _ _ _ _ (routed_mem encode s S (dests s) (h.lt s hs) (batch s)) o ho

theorem exchange_counts_tab (p : ParallelParty box) (sib : Nat → ι) (unit S : Nat) (f : Nat → Nat) (s : Nat) (hs : s < S) :
    (p.exchange sib unit (tab S f)).counts s = f s := by
  show (tab S f).getD s 0 = f s
  rw [List.getD_eq_getElem?_getD, tab_get _ _ _ hs]
  rfl

theorem queryRound_does {idx : ι → Option Nat} {sib : Nat → ι} {S : Nat} (hg : Group idx sib S) (hS : S < 255)
    (p : ParallelParty box) (me : Nat) (hme : me < S) (dests : Nat → List Nat) (hplan : Routing S dests)
    (batch : Nat → List Query) (hlen : ∀ s, s < S → (batch s).length = (dests s).length)
    (noise : Nat) (hid : p.serverId = me) (hcount : p.serverCount = S) (hps : Planned S dests me noise p.pshuffler)
    (B : List Nat) (hF : IsShuffler p.shuffler.forward B (sliceOf S dests me)) (hslice : p.shuffledCount = sliceOf S dests me) :
    PProc.Does (fun p' => ∃ g', p' = ({ p with
        pshuffler := { p.pshuffler with forwardIdx := (dests me).length }
        outQueries := g' } : ParallelParty box) ∧ QRep g' (shuffled S dests batch B me))
      (sendAndPoll (ParallelParty.exchange { p with outQueries := Batch.initialize p.shuffledCount ⟨0, 0⟩ } sib querySize
        (tab S (fun s => if s = me then 0 else (dests s).count me)))
        (ParallelParty.queryHandlers (ParallelParty.exchange { p with outQueries := Batch.initialize p.shuffledCount ⟨0, 0⟩ } sib querySize
        (tab S (fun s => if s = me then 0 else (dests s).count me)))) (batch me) (p.shuffledCount - (dests me).count me)
        { p with outQueries := Batch.initialize p.shuffledCount ⟨0, 0⟩ }) [rseg idx sib (queryRound S dests batch) me] := by
  have hX : ∀ s, ((ParallelParty.exchange { p with outQueries := Batch.initialize p.shuffledCount ⟨0, 0⟩ } sib querySize
      (tab S (fun s => if s = me then 0 else (dests s).count me))).Sib s ↔ s < S ∧ s ≠ me) := by
    intro s
    show s < p.serverCount ∧ s ≠ p.serverId ↔ _
    rw [hid, hcount]
  have hd := shuffle_does (mk := fun ps g => ({ p with pshuffler := ps, outQueries := g } : ParallelParty box))
    (own := ParallelParty.queryFrom) (Rep := QRep) (Good := fun _ => True) (F := p.shuffler.forward) (B := B)
    (ParallelParty.exchange { p with outQueries := Batch.initialize p.shuffledCount ⟨0, 0⟩ } sib querySize
      (tab S (fun s => if s = me then 0 else (dests s).count me)))
    (ParallelParty.queryHandlers _) Query.encode Query.decode dests batch p.pshuffler rfl (fun _ _ _ => rfl)
    (fun x _ => Query.decode_encode x) (fun x _ => Query.encode_length x) (queryFiller p _ rfl)
    (by show Routing p.serverCount dests; rw [hcount]; exact hplan)
    (by show p.serverId < p.serverCount; rw [hid, hcount]; exact hme)
    (by show ∀ s, s < p.serverCount → _; rw [hcount]; exact hlen) (fun _ _ _ _ => trivial) hps.forwardIdx
    (by show p.pshuffler.forward = dests p.serverId; rw [hid]; exact hps.forward)
    (by show p.pshuffler.prefixFrom = tab p.serverCount (preSum (fun a => (dests a).count p.serverId)); rw [hid, hcount]; exact hps.prefixFrom)
    (by show IsShuffler _ _ (sliceOf p.serverCount dests p.serverId); rw [hid, hcount]; exact hF)
    hg.inj (by show 0 < querySize; decide) (by show querySize ≤ Sockets.bufferSize; decide)
    (by show p.serverCount < 255; rw [hcount]; exact hS)
    (by
      intro s hs
      rw [hX] at hs
      rw [exchange_counts_tab _ _ _ _ _ _ hs.1, if_neg hs.2]
      show _ = (dests s).count p.serverId
      rw [hid])
    (p.shuffledCount - (dests me).count me)
    (by show _ = sliceOf p.serverCount dests p.serverId - (dests p.serverId).count p.serverId; rw [hid, hcount, hslice])
    (Batch.initialize p.shuffledCount ⟨0, 0⟩) (List.replicate p.shuffledCount ⟨0, 0⟩) ⟨rfl, by simp [Batch.initialize]⟩
    (by show _ = sliceOf p.serverCount dests p.serverId; rw [hid, hcount]; simpa using hslice)
    (is := roundIns idx (queryRound S dests batch) me) (av := fun _ => false)
    (by
      intro s hs
      rw [hX] at hs
      show roundIns idx _ me (sib s) = List.flatten (List.map _ (selTo _ _ p.serverId))
      rw [roundIns_sib hg _ hs.1, hid]
      exact routedBytes_to _ _ _ _ _ _ _ hme (Ne.symm hs.2))
    (by
      intro j hj
      refine roundIns_other hg (routed_outsOk _ _ S dests batch hplan) ?_
      intro s hs
      exact hj s ((hX s).2 hs))
  have e1 : (ParallelParty.exchange { p with outQueries := Batch.initialize p.shuffledCount ⟨0, 0⟩ } sib querySize
      (tab S (fun s => if s = me then 0 else (dests s).count me))).me = me := hid
  have e2 : (ParallelParty.exchange { p with outQueries := Batch.initialize p.shuffledCount ⟨0, 0⟩ } sib querySize
      (tab S (fun s => if s = me then 0 else (dests s).count me))).servers = S := hcount
  simp only [e1, e2] at hd
  exact hd

theorem shuffleQueries_does {idx : ι → Option Nat} {sib : Nat → ι} {S : Nat} (hg : Group idx sib S) (hS : S < 255)
    (p : ParallelParty box) (me : Nat) (hme : me < S) (dests : Nat → List Nat) (hplan : Routing S dests)
    (batch : Nat → List Query) (hlen : ∀ s, s < S → (batch s).length = (dests s).length)
    (noise : Nat) (hid : p.serverId = me) (hcount : p.serverCount = S) (hps : Planned S dests me noise p.pshuffler)
    (B : List Nat) (hF : IsShuffler p.shuffler.forward B (sliceOf S dests me)) (hslice : p.shuffledCount = sliceOf S dests me)
    (hitems : p.queries.elements = .ok (batch me)) :
    PProc.Does (fun p' => ∃ g, QRep g (shuffled S dests batch B me) ∧ p' = { p with
        outQueries := g
        queries := Batch.free
        pshuffler := { p.pshuffler with
          forwardIdx := (dests me).length
          forward := [] }
        shuffler := p.shuffler.finishForward })
      (p.shuffleQueries sib) [rseg idx sib (queryRound S dests batch) me, rseg idx sib (castOut S readyMsg) me] := by
  unfold ParallelParty.shuffleQueries
  simp only [PProc.bind_def]
  have hs32 := hplan.slice_le hme
  have hle : (dests me).count me ≤ sliceOf S dests me := by
    have := preSum_mono (fun a => (dests a).count me) (show me + 1 ≤ S by omega)
    rw [preSum_succ] at this
    unfold sliceOf
    omega
  refine PProc.Does.lifts (readPlan_ok _ S me _ (fun s => (dests s).count me) _ hcount hid hme (fun s hs => ?_)
    (by rw [hslice]; exact hs32) (by rw [hslice]; exact hle)) ?_
  · unfold ParallelShuffler.countFrom
    rw [hps.fromCount, rd_tab _ _ _ hs]
  refine PProc.Does.lifts hitems ?_
  simp only
  refine PProc.Does.bind' (L := [rseg idx sib (queryRound S dests batch) me]) (M := [rseg idx sib (castOut S readyMsg) me])
    (Q := fun p' => ∃ g', p' = ({ p with
        pshuffler := { p.pshuffler with forwardIdx := (dests me).length }
        outQueries := g' } : ParallelParty box) ∧ QRep g' (shuffled S dests batch B me)) ?_ ?_ rfl
  · exact queryRound_does hg hS p me hme dests hplan batch hlen noise hid hcount hps B hF hslice
  · rintro p' ⟨g', rfl, hg'⟩
    simp only
    refine PProc.Does.bind' (M := []) (by
      have := barrier_does hg hme (fun _ => false)
      unfold ParallelParty.sync
      simp only
      rw [hid, hcount]
      exact this) ?_ rfl
    rintro - -
    exact .done ⟨g', hg', rfl⟩

/-! ## Ciphers -/

/-- The round of `ShuffleCiphers`. -/
def cipherRound (unit S : Nat) (dests : Nat → List Nat) (batch : Nat → List (List Byte)) (s : Nat) : List (Nat × Byte) :=
  routedBytes id unit S s (dests s) (batch s)

theorem cipherRound_does {idx : ι → Option Nat} {sib : Nat → ι} {S : Nat} (hg : Group idx sib S) (hS : S < 255)
    (p : ParallelParty box) (me : Nat) (hme : me < S) (dests : Nat → List Nat) (hplan : Routing S dests)
    (batch : Nat → List (List Byte)) (hlen : ∀ s, s < S → (batch s).length = (dests s).length)
    (noise : Nat) (hid : p.serverId = me) (hcount : p.serverCount = S) (hps : Planned S dests me noise p.pshuffler)
    (B : List Nat) (hF : IsShuffler p.shuffler.forward B (sliceOf S dests me)) (hslice : p.shuffledCount = sliceOf S dests me)
    (unit : Nat) (hu : 0 < unit) (hub : unit ≤ Sockets.bufferSize) (hosh : p.outCiphers.shortSize = unit)
    (hgood : ∀ s, s < S → ∀ x ∈ batch s, x.length = unit) :
    PProc.Does (fun p' => ∃ g', p' = ({ p with
        pshuffler := { p.pshuffler with forwardIdx := (dests me).length }
        outCiphers := g' } : ParallelParty box) ∧ CRep unit g' (shuffled S dests batch B me))
      (sendAndPoll (ParallelParty.exchange { p with outCiphers := p.outCiphers.initialize p.shuffledCount 0 } sib unit
        (tab S (fun s => if s = me then 0 else (dests s).count me)))
        (ParallelParty.cipherHandlers (ParallelParty.exchange { p with outCiphers := p.outCiphers.initialize p.shuffledCount 0 } sib unit
        (tab S (fun s => if s = me then 0 else (dests s).count me)))) (batch me) (p.shuffledCount - (dests me).count me)
        { p with outCiphers := p.outCiphers.initialize p.shuffledCount 0 }) [rseg idx sib (cipherRound unit S dests batch) me] := by
  have hX : ∀ s, ((ParallelParty.exchange { p with outCiphers := p.outCiphers.initialize p.shuffledCount 0 } sib unit
      (tab S (fun s => if s = me then 0 else (dests s).count me))).Sib s ↔ s < S ∧ s ≠ me) := by
    intro s
    show s < p.serverCount ∧ s ≠ p.serverId ↔ _
    rw [hid, hcount]
  have hd := shuffle_does (mk := fun ps g => ({ p with pshuffler := ps, outCiphers := g } : ParallelParty box))
    (own := ParallelParty.cipherFrom) (Rep := CRep unit) (Good := fun c => c.length = unit) (F := p.shuffler.forward) (B := B)
    (ParallelParty.exchange { p with outCiphers := p.outCiphers.initialize p.shuffledCount 0 } sib unit
      (tab S (fun s => if s = me then 0 else (dests s).count me)))
    (ParallelParty.cipherHandlers _) id id dests batch p.pshuffler rfl (fun _ _ _ => rfl)
    (fun _ _ => rfl) (fun _ h => h) (cipherFiller p _ rfl unit)
    (by show Routing p.serverCount dests; rw [hcount]; exact hplan)
    (by show p.serverId < p.serverCount; rw [hid, hcount]; exact hme)
    (by show ∀ s, s < p.serverCount → _; rw [hcount]; exact hlen) (by show ∀ s, s < p.serverCount → _; rw [hcount]; exact hgood) hps.forwardIdx
    (by show p.pshuffler.forward = dests p.serverId; rw [hid]; exact hps.forward)
    (by show p.pshuffler.prefixFrom = tab p.serverCount (preSum (fun a => (dests a).count p.serverId)); rw [hid, hcount]; exact hps.prefixFrom)
    (by show IsShuffler _ _ (sliceOf p.serverCount dests p.serverId); rw [hid, hcount]; exact hF)
    hg.inj hu hub
    (by show p.serverCount < 255; rw [hcount]; exact hS)
    (by
      intro s hs
      rw [hX] at hs
      rw [exchange_counts_tab _ _ _ _ _ _ hs.1, if_neg hs.2]
      show _ = (dests s).count p.serverId
      rw [hid])
    (p.shuffledCount - (dests me).count me)
    (by show _ = sliceOf p.serverCount dests p.serverId - (dests p.serverId).count p.serverId; rw [hid, hcount, hslice])
    (p.outCiphers.initialize p.shuffledCount 0) (List.replicate p.shuffledCount (List.replicate unit 0))
    (by have := CRep.initialize p.outCiphers p.shuffledCount; rw [hosh] at this; exact this)
    (by show _ = sliceOf p.serverCount dests p.serverId; rw [hid, hcount]; simpa using hslice)
    (is := roundIns idx (cipherRound unit S dests batch) me) (av := fun _ => false)
    (by
      intro s hs
      rw [hX] at hs
      show roundIns idx _ me (sib s) = List.flatten (List.map _ (selTo _ _ p.serverId))
      rw [roundIns_sib hg _ hs.1, hid]
      exact routedBytes_to _ _ _ _ _ _ _ hme (Ne.symm hs.2))
    (by
      intro j hj
      refine roundIns_other hg (routed_outsOk _ _ S dests batch hplan) ?_
      intro s hs
      exact hj s ((hX s).2 hs))
  have e1 : (ParallelParty.exchange { p with outCiphers := p.outCiphers.initialize p.shuffledCount 0 } sib unit
      (tab S (fun s => if s = me then 0 else (dests s).count me))).me = me := hid
  have e2 : (ParallelParty.exchange { p with outCiphers := p.outCiphers.initialize p.shuffledCount 0 } sib unit
      (tab S (fun s => if s = me then 0 else (dests s).count me))).servers = S := hcount
  simp only [e1, e2] at hd
  exact hd

theorem shuffleCiphers_does {idx : ι → Option Nat} {sib : Nat → ι} {S : Nat} (hg : Group idx sib S) (hS : S < 255)
    (p : ParallelParty box) (me : Nat) (hme : me < S) (dests : Nat → List Nat) (hplan : Routing S dests)
    (batch : Nat → List (List Byte)) (hlen : ∀ s, s < S → (batch s).length = (dests s).length)
    (noise : Nat) (hid : p.serverId = me) (hcount : p.serverCount = S) (hps : Planned S dests me noise p.pshuffler)
    (B : List Nat) (hF : IsShuffler p.shuffler.forward B (sliceOf S dests me)) (hslice : p.shuffledCount = sliceOf S dests me)
    (unit : Nat) (hu : 0 < unit) (hub : unit ≤ Sockets.bufferSize) (hsh : p.ciphers.shortSize = unit) (hosh : p.outCiphers.shortSize = unit)
    (hitems : p.ciphers.elements = .ok (batch me)) (hgood : ∀ s, s < S → ∀ x ∈ batch s, x.length = unit) :
    PProc.Does (fun p' => ∃ g, CRep unit g (shuffled S dests batch B me) ∧ p' = { p with
        outCiphers := g
        ciphers := p.ciphers.free
        pshuffler := { p.pshuffler with
          forwardIdx := (dests me).length
          forward := [] }
        shuffler := p.shuffler.finishForward })
      (p.shuffleCiphers sib) [rseg idx sib (cipherRound unit S dests batch) me, rseg idx sib (castOut S readyMsg) me] := by
  unfold ParallelParty.shuffleCiphers
  simp only [PProc.bind_def]
  rw [hsh]
  have hs32 := hplan.slice_le hme
  have hle : (dests me).count me ≤ sliceOf S dests me := by
    have := preSum_mono (fun a => (dests a).count me) (show me + 1 ≤ S by omega)
    rw [preSum_succ] at this
    unfold sliceOf
    omega
  refine PProc.Does.lifts (readPlan_ok _ S me _ (fun s => (dests s).count me) _ hcount hid hme (fun s hs => ?_)
    (by rw [hslice]; exact hs32) (by rw [hslice]; exact hle)) ?_
  · unfold ParallelShuffler.countFrom
    rw [hps.fromCount, rd_tab _ _ _ hs]
  refine PProc.Does.lifts hitems ?_
  simp only
  refine PProc.Does.bind' (L := [rseg idx sib (cipherRound unit S dests batch) me]) (M := [rseg idx sib (castOut S readyMsg) me])
    (Q := fun p' => ∃ g', p' = ({ p with
        pshuffler := { p.pshuffler with forwardIdx := (dests me).length }
        outCiphers := g' } : ParallelParty box) ∧ CRep unit g' (shuffled S dests batch B me)) ?_ ?_ rfl
  · exact cipherRound_does hg hS p me hme dests hplan batch hlen noise hid hcount hps B hF hslice unit hu hub hosh hgood
  · rintro p' ⟨g', rfl, hg'⟩
    simp only
    refine PProc.Does.bind' (M := []) (by
      have := barrier_does hg hme (fun _ => false)
      unfold ParallelParty.sync
      simp only
      rw [hid, hcount]
      exact this) ?_ rfl
    rintro - -
    exact .done ⟨g', hg', rfl⟩

end DPPIR.Protocol
