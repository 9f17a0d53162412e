import Verif.Proofs.HostileStages
import Verif.Proofs.BroadcastRun

/-!
# A server of a parallel party from start to end, among arbitrary peers
-/

namespace DPPIR.Protocol
open DPPIR Proc PNet Onion Incremental Additive Spec Props Shuffle CipherBatch

variable {box : SealedBox} {ι : Type}

theorem preSum_le_preSum {f g : Nat → Nat} (n : Nat) (h : ∀ i, f i ≤ g i) : preSum f n ≤ preSum g n := by
  induction n with
  | zero => exact le_refl _
  | succ n ih =>
    rw [preSum_succ, preSum_succ]
    have := h n
    omega

namespace Slot

/-- Preparing the online stage, whatever noise the siblings announced. -/
theorem prepare_heard {a : Slot box} (h : a.Ok) {p : ParallelParty box} (c : a.Core p) {ps : ParallelShuffler} (nz : Nat → Nat)
    (hps : Planned a.S a.dests a.me (a.noise a.me) ps) (hp : p = { p with
        pshuffler := ps
        noiseFrom := tab a.S (fun s => if s = a.me then noiseTo a.dests a.noise a.me a.me else nz s)
        noisePrefix := runningSums 0 (tab a.S (fun s => if s = a.me then noiseTo a.dests a.noise a.me a.me else nz s))
        shuffler := a.shuf })
    (hnz : ∀ s, s < a.S → s ≠ a.me → nz s ≤ (a.dests s).count a.me)
    (tag : Nat → BitVec 64) (shares : Nat → List Share) (pres : Nat → List Preshare)
    (hs : ∀ i, ∀ s ∈ shares i, IsShare s) (hsl : ∀ i, (shares i).length = a.m) (hpl : ∀ i, (pres i).length = a.m)
    (hready : NoiseReady p.noiseState (a.noise a.me) tag shares) :
    ∃ p' NQ Q, p.prepareOnline = .ok p' ∧ p'.queriesState = p.queriesState ∧
      ParallelReady p' a.S a.me a.dests NQ Q a.shuf.forward a.shuf.backward ∧ p'.serverId = p.serverId ∧ p'.serverCount = p.serverCount ∧
      ∀ s, s < a.S → (NQ s).length + (Q s).length = (a.dests s).length := by
  have hex : ∀ s, ∃ k, (s < a.S → k ≤ a.own s) ∧ (s = a.me → k = a.noise a.me) ∧
      (s < a.S → s ≠ a.me → ((a.dests s).take k).count a.me = nz s) := by
    intro s
    by_cases e : s = a.me
    · subst e
      exact ⟨a.noise a.me, fun _ => by unfold own; omega, fun _ => rfl, fun _ h => absurd rfl h⟩
    · by_cases hlt : s < a.S
      · obtain ⟨k, k1, k2⟩ := take_count a.me (a.dests s) (nz s) (hnz s hlt e)
        exact ⟨k, fun _ => by rw [h.dests_length hlt] at k1; exact k1, fun e' => absurd e' e, fun _ _ => k2⟩
      · exact ⟨0, fun h => absurd h hlt, fun e' => absurd e' e, fun h => absurd h hlt⟩
  choose noise' n1 n2 n3 using hex
  let a1 : Slot box := { a with noise := noise', input := fun s => a.own s - noise' s }
  have hcounts : a1.counts = a.counts := by
    refine tab_congr _ _ _ (fun s hs => ?_)
    show noise' s + (a.own s - noise' s) = a.own s
    have := n1 s hs
    omega
  have htotal : a1.total = a.total := by
    rw [← counts_sum, ← counts_sum, hcounts]
  have hd : a1.dests = a.dests := by
    show planOf a.rand.rand a.seed a1.counts = planOf a.rand.rand a.seed a.counts
    rw [hcounts]
  have hslice : a1.slice = a.slice := by
    show sliceOf a.S a1.dests a.me = _
    rw [hd]; rfl
  have hshuf : a1.shuf = a.shuf := by
    show shufOf a.rand.rand a.lseed a1.slice = _
    rw [hslice]; rfl
  have hnme : noise' a.me = a.noise a.me := n2 _ rfl
  have h1 : a1.Ok := ⟨h.two, h.max, h.me, h.km, h.m, h.parties, h.keys, by rw [htotal]; exact h.total, hnme.trans h.noise, h.range, h.rows, h.find⟩
  have hin : a1.input a1.me = a.input a.me := by
    show a.own a.me - noise' a.me = _
    rw [hnme]; unfold own; omega
  have c1 : a1.Core p := ⟨⟨c.counted.id, c.counted.count, c.counted.seed, c.counted.pid, c.counted.pcount, c.counted.lseed,
    by rw [hcounts]; exact c.counted.counts, c.counted.noise.trans hnme.symm, by rw [hslice]; exact c.counted.slice⟩,
    c.party, c.parties, c.db, c.keys, c.pkey, c.skey, by rw [hin]; exact c.input, c.total.trans htotal.symm, c.samples, c.start, c.stop, c.out⟩
  have hnt : ∀ s, s < a.S → (if s = a.me then noiseTo a.dests a.noise a.me a.me else nz s) = noiseTo a1.dests a1.noise a.me s := by
    intro s hs
    rw [hd]
    show _ = ((a.dests s).take (noise' s)).count a.me
    by_cases e : s = a.me
    · rw [if_pos e, e, hnme]; rfl
    · rw [if_neg e, n3 s hs e]
  have e1 : tab a.S (fun s => if s = a.me then noiseTo a.dests a.noise a.me a.me else nz s) = tab a1.S (noiseTo a1.dests a1.noise a1.me) :=
    tab_congr _ _ _ hnt
  have e2 : runningSums 0 (tab a1.S (noiseTo a1.dests a1.noise a1.me)) = tab a1.S (fun s => preSum (noiseTo a1.dests a1.noise a1.me) (s + 1)) := by
    refine runningSums_tab _ _ ?_
    refine Nat.lt_of_le_of_lt (preSum_le_preSum _ (fun i => noiseTo_le _ _ _ i)) ?_
    exact h1.slice_lt
  obtain ⟨p', s1, s2, s3, s4, s5⟩ := prepare_ok h1 c1 (ps := ps) (by rw [hd]; show Planned a.S a.dests a.me (noise' a.me) ps; rw [hnme]; exact hps)
    (by rw [hshuf, ← e2, ← e1]; exact hp) tag shares pres hs hsl hpl (by show NoiseReady _ (noise' a.me) _ _; rw [hnme]; exact hready)
    (fun s => if s = a.me then noiseQ (noiseKeysAt a.rand.sample a.start a.len) tag shares pres else List.replicate (noise' s) QTicket.zero)
    (fun s => List.replicate (a1.input s) QTicket.zero) (by
      intro s hs
      by_cases e : s = a.me
      · rw [if_pos e, noiseQ_length, noiseKeysAt_length, e]
        exact h1.noise.symm
      · rw [if_neg e, List.length_replicate]) (by intro s _; rw [List.length_replicate]) (if_pos rfl)
  rw [hd, hshuf] at s3
  refine ⟨p', _, _, s1, s2, s3, s4, s5, ?_⟩
  intro s hs
  rw [h.dests_length hs, List.length_replicate]
  have hle := n1 s hs
  have hi : a1.input s = a.own s - noise' s := rfl
  by_cases e : s = a.me
  · simp only [if_pos e]
    rw [noiseQ_length, noiseKeysAt_length, hi, e, hnme, h.noise]
    subst e
    rw [hnme, h.noise] at hle
    omega
  · simp only [if_neg e]
    rw [List.length_replicate, hi]
    omega

end Slot

section
variable [DecidableEq ι] {idx : ι → Option Nat} {sib : Nat → ι} {F : (ι → List Byte) → List Obs → Fault → Prop}

omit [DecidableEq ι] in
theorem HeardLen.trans {S me : Nat} {L L' L'' : ι → List Byte} {f g : Nat → Nat} (h : HeardLen sib S me L L' f) (h' : HeardLen sib S me L' L'' g) :
    HeardLen sib S me L L'' (fun s => f s + g s) := by
  obtain ⟨x, x1, x2⟩ := h
  obtain ⟨y, y1, y2⟩ := h'
  refine ⟨fun s => x s ++ y s, fun s h1 h2 => ?_, fun s h1 h2 => ?_⟩
  · rw [List.length_append, x1 s h1 h2, y1 s h1 h2]
  · rw [y2 s h1 h2, x2 s h1 h2, List.append_assoc]

theorem heeds_shuffleCiphers {S : Nat} (hg : Group idx sib S) (hS : S < 255)
    (p : ParallelParty box) (me : Nat) (hme : me < S) (dests : Nat → List Nat) (hplan : Routing S dests)
    (items : List (List Byte)) (hlen : items.length = (dests me).length)
    (noise : Nat) (hid : p.serverId = me) (hcount : p.serverCount = S) (hps : Planned S dests me noise p.pshuffler)
    (B : List Nat) (hF : IsShuffler p.shuffler.forward B (sliceOf S dests me)) (hslice : p.shuffledCount = sliceOf S dests me)
    (unit : Nat) (hu : 0 < unit) (hub : unit ≤ Sockets.bufferSize) (hsh : p.ciphers.shortSize = unit) (hosh : p.outCiphers.shortSize = unit)
    (hitems : p.ciphers.elements = .ok items) (hgood : ∀ x ∈ items, x.length = unit)
    (hA : ∀ L h, F L h .assertFail) (L : ι → List Byte) (h : List Obs) :
    PProc.Heeds F (p.shuffleCiphers sib) (fun p' L' h' => h' = h ∧ HeardLen sib S me L L' (fun s => (dests s).count me * unit + 1) ∧
      ∃ g l, CRep unit g l ∧ p' = { p with
        outCiphers := g
        ciphers := p.ciphers.free
        pshuffler := { p.pshuffler with
          forwardIdx := (dests me).length
          forward := [] }
        shuffler := p.shuffler.finishForward }) L h := by
  unfold ParallelParty.shuffleCiphers
  simp only [PProc.bind_def]
  rw [hsh]
  have hs32 := hplan.slice_le hme
  have hle : (dests me).count me ≤ sliceOf S dests me := by
    have := preSum_mono (fun a => (dests a).count me) (show me + 1 ≤ S by omega)
    rw [preSum_succ] at this
    unfold sliceOf
    omega
  refine PProc.Heeds.lift_ok (readPlan_ok _ S me _ (fun s => (dests s).count me) _ hcount hid hme (fun s hs => ?_)
    (by rw [hslice]; exact hs32) (by rw [hslice]; exact hle)) ?_
  · unfold ParallelShuffler.countFrom
    rw [hps.fromCount, rd_tab _ _ _ hs]
  refine PProc.Heeds.lift_ok hitems ?_
  simp only
  refine PProc.Heeds.bind' (heeds_cipherRound hg hS p me hme dests hplan items hlen noise hid hcount hps B hF hslice unit hu hub hosh hgood L h) ?_
  rintro p' L1 h1 ⟨rfl, hL1, g, l, rfl, hg'⟩
  refine PProc.Heeds.bind' (heeds_sync hg _ hid hcount hA _ _) ?_
  rintro - L2 h2 ⟨rfl, hL2⟩
  exact ⟨rfl, hL1.trans hL2, g, l, hg', rfl⟩

omit [DecidableEq ι] in
theorem only_parallelSendCiphers {S : ι → Prop} (next : ι) (p : ParallelParty box) : Only S (p.sendCiphers next) := by
  refine Only.bind (Only.lift _) (fun qs => Only.bind (Only.each (fun q s => ?_) _ _) (fun s => Only.bind (Only.sendBytes _ _) (fun _ => trivial)))
  refine Only.bind (Only.lift _) (fun _ => ?_)
  exact Only.bind (S := S) (p := observe _) trivial (fun _ => only_pushBuffered _ _ _ _)

theorem heeds_sendCiphers (next : ι) (unit : Nat) (hu : 0 < unit) (hub : unit ≤ Sockets.bufferSize) (l : List (List Byte))
    (p : ParallelParty box) (hp : CRep unit p.outCiphers l)
    (hA : ∀ L h, F L h .assertFail) (hE : ∀ L h, F L h .exception) (L : ι → List Byte) (h : List Obs) :
    PProc.Heeds F (PProc.ofProc (p.sendCiphers next)) (fun p' L' h' => Keeps h h' ∧ L' = L ∧ p' = { p with outCiphers := p.outCiphers.free }) L h := by
  obtain ⟨sc, h1, h2⟩ := parallelSendCiphers_ok (box := box) next unit hu hub l hp.len
  refine (heeds_plain (S := fun _ => False) (runs_safe (h1 p hp) next _ h2.comm) (only_parallelSendCiphers next p) hA hE).mono ?_
  rintro p' L' h' ⟨⟨rfl, rfl⟩, hL⟩
  refine ⟨?_, funext (fun j => hL j (fun h => h)), rfl⟩
  rw [h2.obs]
  refine ⟨?_, fun q hq => by rw [queriesRead_append]; exact List.mem_append_left _ hq⟩
  rw [stores_append]
  refine (congrArg _ ?_).trans (List.append_nil _)
  unfold stores
  rw [List.filterMap_eq_nil_iff]
  intro o ho
  obtain ⟨i, -, rfl⟩ := List.mem_map.1 ho
  rfl

omit [DecidableEq ι] in
theorem only_collectCiphers {S : ι → Prop} {back : ι} (hs : S back) (p : Party box) : Only S (p.collectCiphers back) := by
  refine Only.loop (fun j p => ?_) _ _ _
  exact Only.bind (Only.bind (Only.recvBytes hs _) (fun _ => trivial)) (fun c => Only.bind (Only.lift _) (fun _ => trivial))

omit [DecidableEq ι] in
theorem only_installLoop {S : ι → Prop} (fuel : Nat) (p : Party box) : Only S (Party.installLoop fuel p : Prog ι _) := by
  induction fuel generalizing p with
  | zero =>
    unfold Party.installLoop
    split <;> trivial
  | succ fuel ih =>
    unfold Party.installLoop
    split
    · exact Only.bind (Only.lift _) (fun _ => Only.bind (Only.lift _) (fun _ => Only.bind (S := S) (p := observe _) trivial
        (fun _ => Only.bind (Only.lift _) (fun _ => Only.bind (Only.lift _) (fun _ => ih _)))))
    · trivial

omit [DecidableEq ι] in
theorem PartyState.store_err {x : OfflineSecret} {s : PartyState} {e : Fault} (h : s.store x = .error e) : e = .assertFail := by
  unfold PartyState.store at h
  split at h
  · exact (Except.error.inj h).symm
  · cases h

theorem heeds_broadcast {S : Nat} (hg : Group idx sib S) (hS : S < 255) (me : Nat) (hme : me < S) (p : ParallelParty box) (rand : ParallelRand box)
    (hid : p.serverId = me) (hcount : p.serverCount = S) (hsim : p.queriesState.simulated = false)
    (hA : ∀ L h, F L h .assertFail) (L : ι → List Byte) (h : List Obs)
    (hover : ∀ L' h e, Over sib S me 0 (fun s => (L (sib s)).length) L' → F L' h e) :
    PProc.Heeds F (p.broadcast rand sib) (fun p' L' h' => Over sib S me 0 (fun s => (L (sib s)).length) L' ∨
      h' = h ∧ ∃ (xs : Nat → List OfflineSecret) (st : PartyState), p' = { p with queriesState := st } ∧
        (∀ s, s < S → s ≠ me → (xs s).length < 2 ^ 32) ∧
        Heard sib S me L L' (fun s => natLE 4 (xs s).length ++ ((xs s).map OfflineSecret.encode).flatten) ∧ st.simulated = false ∧
        (∀ y : OfflineSecret, y.tag ∈ p.queriesState.secrets.map Prod.fst → y.tag ∈ st.secrets.map Prod.fst) ∧
        ∀ s, s < S → s ≠ me → ∀ y ∈ xs s, y.tag ∈ st.secrets.map Prod.fst) L h := by
  have hbc := heeds_broadcastSecrets (F := F) hg hS me hme
    ((rand.order p.queriesState.secrets).map (fun s => (⟨s.1, s.2.nextTag, s.2.incremental, s.2.preshare⟩ : OfflineSecret)))
    (fun s st => PartyState.store st s) hA
    (fun x s e he => PartyState.store_err he) (fun st => st.simulated = false) (fun st y => y.tag ∈ st.secrets.map Prod.fst) (by
      intro x s s' hx hsim
      unfold PartyState.store at hx
      split at hx
      · cases hx
      · obtain rfl := Except.ok.inj hx
        refine ⟨hsim, by simp, fun y hy => ?_⟩
        simp only [List.map_append]
        exact List.mem_append_left _ hy) p.queriesState hsim L h hover
  rw [← hid, ← hcount] at hbc
  unfold ParallelParty.broadcast
  simp only [PProc.bind_def]
  refine PProc.Heeds.bind' hbc ?_
  rintro st' L' h' (ho | ⟨rfl, xs, x1, x2, x3, x4, x5⟩)
  · rw [hid, hcount] at ho; exact Or.inl ho
  · rw [hid, hcount] at x1 x2 x5
    exact Or.inr ⟨rfl, xs, st', rfl, x1, x2, x3, x4, x5⟩

/-! ### The stages -/

/-- What a server has at the end of an offline stage. -/
def StageEnd (b : Slot box) (offline : Bool) (sib : Nat → ι) (p : ParallelParty box) (L : ι → List Byte) (h : List Obs) : Prop :=
  ∃ (n : Nat) (c len : Nat → Nat) (xs : Nat → List OfflineSecret) (NQ Q : Nat → List QTicket),
    Told b n c h ∧ After sib b.S b.me c len L ∧ (b.told n c).Ok ∧
    ParallelReady p b.S b.me (b.told n c).dests NQ Q (b.told n c).shuf.forward (b.told n c).shuf.backward ∧
    (∀ s, s < b.S → (NQ s).length + (Q s).length = ((b.told n c).dests s).length) ∧
    KnowsP p.queriesState offline (fun tag => ∃ s, s < b.S ∧ s ≠ b.me ∧ tag ∈ (xs s).map OfflineSecret.tag) h ∧
    (offline = true → ∀ s, s < b.S → s ≠ b.me →
      secretsAt (11 + ((b.told n c).dests s).count b.me * cipherSize b.m) (L (sib s)) = xs s)

theorem numberAt_prefix (pre : List Byte) (v : Nat) (hv : v < 2 ^ 32) (l l' : List Byte) (h : pre ++ (natLE 4 v ++ l) <+: l') :
    numberAt pre.length l' = v := by
  obtain ⟨t, rfl⟩ := h
  rw [List.append_assoc, List.append_assoc]
  exact numberAt_natLE pre v hv _

variable {b : Slot box}

theorem simulateOffline_heeds (hg : Group idx sib b.S) (hb : b.Base) {p : ParallelParty box} (hf : b.Fresh p) (back next : ι)
    (hback : ∀ s, sib s ≠ back) (hnext : ∀ s, sib s ≠ next) (L : ι → List Byte) (h : List Obs) (hL : ∀ s, L (sib s) = []) :
    PProc.Heeds (PartyF b false sib) (p.simulateOffline b.rand back next sib)
      (fun p' L' h' => Sure (MisledAt b false sib) L' h' ∨ StageEnd b false sib p' L' h') L h := by
  have hA : ∀ (L : ι → List Byte) (h : List Obs), PartyF b false sib L h .assertFail := fun _ _ => Or.inl rfl
  have hE : ∀ (L : ι → List Byte) (h : List Obs), PartyF b false sib L h .exception := fun _ _ => Or.inr (Or.inl rfl)
  unfold ParallelParty.simulateOffline
  simp only [PProc.bind_def]
  obtain ⟨q, e1, s1⟩ := begin_heeds hg hb hf back next hback hA hE L h hL
  refine PProc.Heeds.lift_ok e1 (PProc.Heeds.bind' s1 ?_)
  rintro p1 L1 h1 ⟨n, c, ht, -, ha, hrest⟩
  by_cases h32 : n + b.mine + preSum (fun s => if s = b.me then 0 else c s) b.S < 2 ^ 32
  swap
  · exact (ht.over ha (Nat.not_lt.1 h32)).any partyF_of_misled _ (fun _ _ _ h => Or.inl h)
  have hok := hb.told h32
  obtain ⟨c1, q1, -, -⟩ := hrest h32
  refine PProc.Heeds.bind' (heeds_shufflers (a := b.told n c) hg hok c1 L1 h1) ?_
  rintro p2 L2 h2 ⟨rfl, nz, ps, nz32, hnz, hps, c2, hp2⟩
  by_cases hle : ∀ s, s < b.S → s ≠ b.me → nz s ≤ ((b.told n c).dests s).count b.me
  swap
  · push_neg at hle
    obtain ⟨s, k1, k2, k3⟩ := hle
    refine Sure.any (M := MisledAt b false sib) partyF_of_misled _ ?_ (fun _ _ _ h => Or.inl h)
    intro L' h' hL' hh'
    refine ht.misled (ha.len hnz.len) hok (fun t => hL' (sib t)) hh' (Or.inl ⟨s, k1, k2, ?_⟩)
    unfold noiseTold
    rw [if_neg (by simp)]
    have hx := hL' (sib s)
    rw [hnz s k1 k2] at hx
    have := numberAt_prefix (L1 (sib s)) (nz s) (nz32 s) [] (L' (sib s)) (by rw [List.append_nil]; exact hx)
    rw [ha.length k1 k2] at this
    rw [this]
    exact k3
  have hqs2 : p2.queriesState = {} := by rw [hp2]; exact q1
  have hkm := hok.km
  have c3 := c2.upd p2.ciphers (p2.queriesState.initialize true)
    (p2.noiseState.initialize (p2.partyCount - p2.partyId - 1) p2.noiseCount true true)
  obtain ⟨p4, NQ, Q, s4, e4, r4, i4, n4, len4⟩ := Slot.prepare_heard hok c3 nz hps (by rw [hp2]) hle (fun _ => 0)
    (fun _ => List.replicate b.m ⟨0, 1⟩) (fun _ => List.replicate b.m (fun _ => 0)) (by
      intro i s hs
      rw [List.eq_of_mem_replicate hs]
      exact isShare_id) (by intro i; simp [Slot.told]) (by intro i; simp [Slot.told]) (by
      simp only
      rw [c2.parties, c2.party, show (b.told n c).pkeys.length - (b.told n c).k - 1 = b.m from (by
        show b.pkeys.length - b.k - 1 = b.m
        have := hb.km
        omega), c2.counted.noise]
      exact ⟨rfl, fun j hj => rfl, fun j hj => rfl⟩)
  refine PProc.Heeds.lift_ok s4 ?_
  refine PProc.Heeds.bind' ((PProc.Heeds.grow (heeds_relay hg back next hnext p4 (i4.trans c3.counted.id) (n4.trans c3.counted.count) 
    (fun _ _ _ _ => hA _ _) (fun _ _ _ _ => hE _ _) L2 h2))) ?_
  rintro - L5 h5 ⟨⟨k5, hL5⟩, hh5, -⟩
  refine Or.inr ⟨n, c, _, fun _ => [], NQ, Q, ht.mono hh5, (ha.len hnz.len).len hL5, hok, r4, len4, ?_, by intro h; cases h⟩
  intro tag htag
  rw [e4] at htag
  simp [PartyState.initialize] at htag

theorem startOffline_heeds (hg : Group idx sib b.S) (hb : b.Base) {p : ParallelParty box} (hf : b.Fresh p) (back next : ι)
    (hback : ∀ s, sib s ≠ back) (hnext : ∀ s, sib s ≠ next) (L : ι → List Byte) (h : List Obs) (hL : ∀ s, L (sib s) = []) (hst : stores h = []) :
    PProc.Heeds (PartyF b true sib) (p.startOffline b.rand back next sib)
      (fun p' L' h' => Sure (MisledAt b true sib) L' h' ∨ StageEnd b true sib p' L' h') L h := by
  have hA : ∀ (L : ι → List Byte) (h : List Obs), PartyF b true sib L h .assertFail := fun _ _ => Or.inl rfl
  have hE : ∀ (L : ι → List Byte) (h : List Obs), PartyF b true sib L h .exception := fun _ _ => Or.inr (Or.inl rfl)
  have hm255 : b.m ≤ 255 := by have := hb.km; have := hb.parties; omega
  have hupos := cipherSize_pos hb.m
  have hub := cipherSize_le hm255
  unfold ParallelParty.startOffline
  simp only [PProc.bind_def]
  obtain ⟨q, e1, s1⟩ := begin_heeds hg hb hf back next hback hA hE L h hL
  refine PProc.Heeds.lift_ok e1 (PProc.Heeds.bind' s1 ?_)
  rintro p1 L1 h1 ⟨n, c, ht, k1, ha1, hrest⟩
  by_cases h32 : n + b.mine + preSum (fun s => if s = b.me then 0 else c s) b.S < 2 ^ 32
  swap
  · exact (ht.over ha1 (Nat.not_lt.1 h32)).any partyF_of_misled _ (fun _ _ _ h => Or.inl h)
  have hok := hb.told h32
  obtain ⟨c1, q1, hS1, hL1⟩ := hrest h32
  clear hrest
  -- from here on the record extends `h1`
  suffices H : PProc.Heeds (fun L' h' e => h1 <+: h' → (∀ j, L1 j <+: L' j) → PartyF b true sib L' h' e) _
      (fun p' L' h' => (h1 <+: h' → Sure (MisledAt b true sib) L' h') ∨ (h1 <+: h' → StageEnd b true sib p' L' h')) L1 h1 by
    refine (PProc.Heeds.grow H).mono ?_
    rintro p' L' h' ⟨x | x, y, -⟩
    · exact Or.inl (x y)
    · exact Or.inr (x y)
  generalize hF : (fun (L' : ι → List Byte) (h' : List Obs) (e : Fault) => h1 <+: h' → (∀ j, L1 j <+: L' j) → PartyF b true sib L' h' e) = F
  have hA' : ∀ L h, F L h .assertFail := by rw [← hF]; exact fun _ _ _ _ => hA _ _
  have hE' : ∀ L h, F L h .exception := by rw [← hF]; exact fun _ _ _ _ => hE _ _
  obtain ⟨c3, e3, n3⟩ := Slot.states_ok hok c1 q1
  obtain ⟨q4, s4, c4, e4, n4, b4, hS4, hL4, hm4, hf4⟩ := Slot.create_ok hok c3 p1.noiseState n3 hS1 hL1
  refine PProc.Heeds.lift_ok s4 ?_
  refine PProc.Heeds.bind' (heeds_relay hg back next hnext _ c4.counted.id c4.counted.count hA' hE' L1 h1) ?_
  rintro - L2 h2 ⟨k2, hL2⟩
  have ha2 := ha1.len hL2
  refine PProc.Heeds.bind' (heeds_plain (S := fun j => j = back) (collectCiphers_safe q4 back h2 _ b4 (by
      rw [hm4, hL4]
      have : q4.inputCount = (b.told n c).input (b.told n c).me := c4.input
      rw [this])) (only_collectCiphers (S := fun j => j = back) rfl q4) hA' hE') ?_
  rintro q5 L3 h3 ⟨⟨k3, b5, rest, rfl, d5, r5, hS5, hL5, hf5⟩, hL3⟩
  have ha3 := ha2.off (fun s => hL3 _ (hback s))
  have c5 : (b.told n c).Core (ParallelParty.withParty _ { q4 with ciphers := b5 }) := c4.upd b5 q4.queriesState q4.noiseState
  refine PProc.Heeds.bind' (heeds_sync hg _ c5.counted.id c5.counted.count hA' L3 h3) ?_
  rintro - L4 h4 ⟨rfl, hL4'⟩
  have ha4 := ha3.len hL4'
  refine PProc.Heeds.bind' (heeds_shufflers (a := b.told n c) hg hok c5 L4 h4) ?_
  rintro p6 L5 h5 ⟨rfl, nz0, ps, -, hnz0, hps, c6, hp6⟩
  have ha5 := ha4.len hnz0.len
  have hci6 : p6.ciphers = b5 := by rw [hp6]; rfl
  have hqs6 : p6.queriesState = {} := by rw [hp6]; exact e4.trans e3
  have hns6 : p6.noiseState = q4.noiseState := by rw [hp6]; rfl
  have hps6 : p6.pshuffler = ps := by rw [hp6]
  have hsh6 : p6.shuffler = (b.told n c).shuf := by rw [hp6]
  clear hp6
  have hst5 : stores h5 = [] := (((k1.trans k2).trans k3).stores).trans hst
  have hrest : rest.length = (b.told n c).input b.me := r5.trans c4.input
  have hb6 : p6.ciphers.Holds ((List.range ((b.told n c).noise b.me)).map (fun i =>
      ((b.rand.secret i).ticket b.m ((b.told n c).tag i)).cipher b.pkeys (b.k + 1))) rest := by rw [hci6]; exact d5
  have hL6 : p6.ciphers.longSize = cipherSize (b.m + 1) := by rw [hci6]; exact hL5.trans hL4
  have hS6 : p6.ciphers.shortSize = cipherSize b.m := by rw [hci6]; exact hS5.trans hS4
  refine PProc.Heeds.bind' (heeds_plain (S := fun _ => False) (installLoop_safe b.m _ p6.toParty h5 _ rest hb6 (by
      rw [hb6.lastLong, hL6, Nat.add_sub_cancel_left]
      exact Nat.le_mul_of_pos_right _ (cipherSize_pos (by omega))) (by
      have h1 : p6.toParty.partyCount = b.pkeys.length := c6.parties
      have h2 : p6.toParty.partyId = b.k := c6.party
      have := hb.km
      rw [h1, h2]; omega) hS6 hL6 (by rw [hqs6]) (by rw [hqs6, hst5]; rfl)) (only_installLoop _ _) hA' hE') ?_
  rintro q7 L6 h6 ⟨⟨b7, st7, shorts7, rfl, d1, d2, d3, d4, d5', -, d7⟩, hL6'⟩
  have ha6 := ha5.off (fun s => hL6' _ (fun h => h))
  have c7 : (b.told n c).Core (p6.withParty { p6.toParty with ciphers := b7, queriesState := st7 }) := c6.upd b7 st7 p6.noiseState
  have hlen7 : shorts7.length = ((b.told n c).dests b.me).length := by
    rw [d2, hrest, List.length_map, List.length_range, hok.dests_length hb.me]
    rfl
  have hel7 : b7.elements = .ok shorts7 := by
    refine Holds_elements d1 (by rw [d3]; exact hupos) ?_
    intro e
    rw [e] at d2
    simp only [List.length_nil, List.length_map, List.length_range] at d2
    have hr0 : rest = [] := List.length_eq_zero_iff.1 (by omega)
    rw [d7 hr0, hci6, hf5, hf4]
    have : (b.told n c).noise (b.told n c).me = 0 := by
      show (b.told n c).noise b.me = 0
      omega
    rw [this, Nat.zero_mul]
  have hgood7 : ∀ x ∈ shorts7, x.length = cipherSize b.m := by
    intro x hx
    rw [← d3]
    exact d1.shortLen x hx
  refine PProc.Heeds.bind' (heeds_shuffleCiphers hg (by have := hb.max; omega) _ b.me hb.me (b.told n c).dests hok.routing shorts7 hlen7
    ((b.told n c).noise b.me) c7.counted.id c7.counted.count (by rw [← hps6] at hps; exact hps) (b.told n c).shuf.backward
    (by
      have := hok.shuf
      rw [← hsh6] at this
      exact hsh6 ▸ this) c7.counted.slice (cipherSize b.m) hupos hub d3 c7.out hel7 hgood7 hA' L6 h6) ?_
  rintro p8 L7 h7 ⟨rfl, hL7, g, l8, hcr, hp8⟩
  have ha7 := ha6.len hL7
  have hcr' : CRep (cipherSize b.m) p8.outCiphers l8 := by rw [hp8]; exact hcr
  have c8 : (b.told n c).Core p8 := by
    rw [hp8]
    refine c7.shuf _ ?_ ?_ ?_ _ ?_ _ _ _ _ hcr.short
    · exact c7.counted.seed
    · exact c7.counted.pid
    · exact c7.counted.pcount
    · exact c7.counted.lseed
  have hqs8 : p8.queriesState = st7 := by rw [hp8]; rfl
  have hns8 : p8.noiseState = q4.noiseState := by rw [hp8]; exact hns6
  clear hp8
  refine PProc.Heeds.bind' (heeds_sendCiphers next (cipherSize b.m) hupos hub l8 p8 hcr' hA' hE' L7 h7) ?_
  rintro p9 L8 h8 ⟨k8, rfl, hp9⟩
  have c9 : (b.told n c).Core p9 := by
    rw [hp9]
    exact c8.shuf _ c8.counted.seed c8.counted.pid c8.counted.pcount _ c8.counted.lseed _ _ _ _ c8.out
  have hqs9 : p9.queriesState = st7 := by rw [hp9]; exact hqs8
  have hns9 : p9.noiseState = q4.noiseState := by rw [hp9]; exact hns8
  clear hp9
  have hlen8 : ∀ s, s < b.S → s ≠ b.me → (L8 (sib s)).length = 11 + ((b.told n c).dests s).count b.me * cipherSize b.m := by
    intro s h1 h2
    rw [ha7.length h1 h2]
    simp only [natLE_length]
    omega
  have hst8 : stores h8 = stores h7 := k8.stores
  have hMis : ∀ L', (∀ j, L8 j <+: L' j) → Over sib b.S b.me 0 (fun s => (L8 (sib s)).length) L' → ∀ h', h1 <+: h' → MisledAt b true sib L' h' := by
    intro L' hL' ho h' hh'
    refine ht.misled ha7 hok (fun s => hL' (sib s)) hh' (Or.inr ⟨rfl, Or.inl ?_⟩)
    have := ho.2
    rw [Nat.zero_add, sumOthers_eq] at this
    rw [sumOthers_eq]
    refine this.trans (le_of_eq (preSum_congr (fun s hs => ?_)))
    by_cases e : s = b.me
    · rw [if_pos e, if_pos e]
    · rw [if_neg e, if_neg e, ← hlen8 s hs e]
  refine PProc.Heeds.bind' (PProc.Heeds.grow (heeds_broadcast hg (by have := hb.max; omega) b.me hb.me p9 b.rand c9.counted.id c9.counted.count
    (by rw [hqs9]; exact d4) (fun L h _ _ => hA' L h) L8 h8 (by
      intro L' h' e ho _ hl
      rw [← hF]
      exact fun hh' _ => partyF_of_misled _ _ _ (hMis L' hl ho h' hh')))) ?_
  rintro p10 L9 h9 ⟨ho | ⟨rfl, xs, st, hp10, x1, x2, x3, x4, x5⟩, -, hl⟩
  · refine Sure.any (M := fun L' h' => h1 <+: h' → MisledAt b true sib L' h') ?_ _ ?_ ?_
    · intro L' h' e hm
      rw [← hF]
      exact fun hh' _ => partyF_of_misled _ _ _ (hm hh')
    · intro L' h' hL' _ hh'
      refine hMis L' (fun j => (hl j).trans (hL' j)) ⟨?_, ?_⟩ h' hh'
      · intro s h1 h2
        exact (ho.1 s h1 h2).trans (hL' (sib s)).length_le
      · refine ho.2.trans (le_of_eq ?_)
        rw [sumOthers_eq, sumOthers_eq]
        refine congrArg _ (preSum_congr (fun s hs => ?_))
        by_cases e : s = b.me
        · rw [if_pos e, if_pos e]
        · rw [if_neg e, if_neg e]
          obtain ⟨t, ht⟩ := hL' (sib s)
          rw [← ht, numberAt_append (ho.1 s hs e)]
    · intro a L' h' hs
      exact Or.inl (fun hh' L'' h'' hl'' hh'' => hs L'' h'' hl'' hh'' (hh'.trans hh''))
  have ha9 := ha7.len x2.len
  have c10 : (b.told n c).Core p10 := by rw [hp10]; exact c9.upd _ _ _
  have hqs10 : p10.queriesState = st := by rw [hp10]
  have hns10 : p10.noiseState = q4.noiseState := by rw [hp10]; exact hns9
  clear hp10
  refine PProc.Heeds.bind' (heeds_shufflers (a := b.told n c) hg hok c10 L9 h9) ?_
  rintro p11 L10 h10 ⟨rfl, nz, ps', nz32, hnz, hps', c11, hp11⟩
  have ha10 := ha9.len hnz.len
  have hqs11 : p11.queriesState = st := by rw [hp11]; exact hqs10
  have hns11 : p11.noiseState = q4.noiseState := by rw [hp11]; exact hns10
  have hstream : ∀ s, s < b.S → s ≠ b.me → L10 (sib s) = L8 (sib s) ++ (natLE 4 (xs s).length ++ (((xs s).map OfflineSecret.encode).flatten ++
      natLE 4 (nz s))) := by
    intro s h1 h2
    rw [hnz s h1 h2, x2 s h1 h2]
    simp only [List.append_assoc]
  by_cases hle : ∀ s, s < b.S → s ≠ b.me → nz s ≤ ((b.told n c).dests s).count b.me
  swap
  · push_neg at hle
    obtain ⟨s, m1, m2, m3⟩ := hle
    refine Sure.any (M := fun L' h' => h1 <+: h' → MisledAt b true sib L' h') ?_ _ ?_ ?_
    · intro L' h' e hm
      rw [← hF]
      exact fun hh' _ => partyF_of_misled _ _ _ (hm hh')
    · intro L' h' hL' _ hh'
      refine ht.misled ha10 hok (fun t => hL' (sib t)) hh' (Or.inl ⟨s, m1, m2, ?_⟩)
      unfold noiseTold
      rw [if_pos rfl]
      have hx := hL' (sib s)
      rw [hstream s m1 m2] at hx
      have e1 := numberAt_prefix (L8 (sib s)) (xs s).length (x1 s m1 m2) _ (L' (sib s)) hx
      rw [hlen8 s m1 m2] at e1
      have e2 := numberAt_prefix (L8 (sib s) ++ (natLE 4 (xs s).length ++ ((xs s).map OfflineSecret.encode).flatten)) (nz s) (nz32 s) []
        (L' (sib s)) (by simpa only [List.append_assoc, List.append_nil] using hx)
      rw [List.length_append, List.length_append, hlen8 s m1 m2, natLE_length, flatten_encode_length, Nat.mul_comm _ secretSize] at e2
      rw [e1, show 15 + ((b.told n c).dests s).count b.me * cipherSize b.m + secretSize * (xs s).length =
        11 + ((b.told n c).dests s).count b.me * cipherSize b.m + (4 + secretSize * (xs s).length) by omega, e2]
      exact m3
    · intro a L' h' hs
      exact Or.inl (fun hh' L'' h'' hl'' hh'' => hs L'' h'' hl'' hh'' (hh'.trans hh''))
  obtain ⟨p12, NQ, Q, s12, e12, r12, i12, n12, len12⟩ := Slot.prepare_heard hok c11 nz hps' (by rw [hp11]) hle (b.told n c).tag (b.told n c).shares
    (b.told n c).pres (fun i => preShares_valid _ _) (fun i => preShares_length _ _) (fun i => by simp [Slot.pres]) (by rw [hns11]; exact n4)
  refine PProc.Heeds.lift_ok s12 ?_
  refine PProc.Heeds.bind' (heeds_relay hg back next hnext p12 (i12.trans c11.counted.id) (n12.trans c11.counted.count) hA' hE' L10 h10) ?_
  rintro - L11 h11 ⟨k11, hL11⟩
  refine Or.inr (fun hh => ⟨n, c, _, xs, NQ, Q, ht.mono hh, ha10.len hL11, hok, r12, len12, ?_, ?_⟩)
  · refine KnowsP.keeps ?_ k11
    intro tag htag
    rw [e12, hqs11] at htag
    simp only [x3] at htag
    have hno := lookup_none_keys _ _ htag
    refine ⟨rfl, ?_, ?_⟩
    · intro hm
      obtain ⟨y, -, rfl⟩ := List.mem_map.1 hm
      rw [hst8, ← d5'] at hm
      exact hno (x4 y (by rw [hqs9]; exact hm))
    · rintro ⟨s, m1, m2, hm⟩
      obtain ⟨y, hy, rfl⟩ := List.mem_map.1 hm
      exact hno (x5 s m1 m2 y hy)
  · intro _ s m1 m2
    obtain ⟨f, f1, f2⟩ := hL11
    rw [f2 s m1 m2, hstream s m1 m2, ← hlen8 s m1 m2]
    simp only [List.append_assoc]
    exact secretsAt_eq (L8 (sib s)) (xs s) (x1 s m1 m2) _

/-- The whole run. -/
theorem party_parallel_heeds (hg : Group idx sib b.S) (hb : b.Base) {p : ParallelParty box} (hf : b.Fresh p) (back next : ι)
    (hback : ∀ s, sib s ≠ back) (hnext : ∀ s, sib s ≠ next) (offline online : Bool) :
    PProc.Heeds (PartyF b offline sib) (p.start b.rand back next sib offline online) (fun _ _ _ => True) (fun _ => []) [] := by
  have hA : ∀ (L : ι → List Byte) (h : List Obs), PartyF b offline sib L h .assertFail := fun _ _ => Or.inl rfl
  have hE : ∀ (L : ι → List Byte) (h : List Obs), PartyF b offline sib L h .exception := fun _ _ => Or.inr (Or.inl rfl)
  have hs : p.start b.rand back next sib offline online =
      (if offline then p.startOffline b.rand back next sib else p.simulateOffline b.rand back next sib).bind
        fun p => if online then (p.startOnline back next sib).bind fun _ => .done () else .done () := by
    unfold ParallelParty.start
    cases offline <;> rfl
  rw [hs]
  refine PProc.Heeds.bind' (R := fun p' L' h' => Sure (MisledAt b offline sib) L' h' ∨ StageEnd b offline sib p' L' h') ?_ ?_
  · cases offline with
    | false => exact simulateOffline_heeds hg hb hf back next hback hnext _ _ (fun _ => rfl)
    | true => exact startOffline_heeds hg hb hf back next hback hnext _ _ (fun _ => rfl) rfl
  rintro p' L h (hs | ⟨n, c, len, xs, NQ, Q, ht, ha, hok, hr, hlen, hk, hx⟩)
  · exact hs.any partyF_of_misled _ (fun _ _ _ _ => trivial)
  cases online with
  | false => trivial
  | true =>
    rw [if_pos rfl]
    refine PProc.Heeds.bind' (parallel_online_heeds hg hb.max hb.two back next hback b.me hb.me _ hok.routing NQ Q hlen _ _ hok.shuf p' hr L h hk hA hE ?_)
      (fun _ _ _ _ => trivial)
    rintro L' h' e hL ⟨hh, ho, q, q1, q2, q3⟩
    refine partyF_of_misled _ _ _ (ht.misled ha hok (fun s => by rw [hL s]) hh (Or.inr ⟨ho, Or.inr ⟨q, q1, q2, ?_⟩⟩))
    intro s m1 m2 hq
    rw [hL s, hx ho s m1 m2] at hq
    exact q3 ⟨s, m1, m2, hq⟩

end
end DPPIR.Protocol
