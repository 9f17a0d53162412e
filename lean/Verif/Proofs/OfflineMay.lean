import Verif.Proofs.MayDo
import Verif.Proofs.BroadcastRun
import Verif.Proofs.ParallelStages

/-!
# The offline stage when tags may be equal

Every server follows the script of the offline stage or stops at an assertion.
-/

namespace DPPIR
open Proc

/-- A run that is cut in two. -/
theorem Runs.split {ι O α : Type} {as bs : List (Act ι O)} {a : α} : ∀ {p : Proc ι O α}, Runs p (as ++ bs) a →
    ∃ pre : Proc ι O (Proc ι O α), p = pre.bind id ∧ ∃ k, Runs pre as k ∧ Runs k bs a := by
  classical
  induction as with
  | nil => intro p h; exact ⟨.done p, rfl, p, .done p, h⟩
  | cons x as ih =>
    intro p h
    cases h with
    | send h =>
      obtain ⟨pre, e, k, h1, h2⟩ := ih h
      exact ⟨.send _ _ pre, by rw [e]; rfl, k, .send h1, h2⟩
    | @recv s kk b _ _ h =>
      obtain ⟨pre, e, k, h1, h2⟩ := ih h
      refine ⟨.recv s (Function.update (fun x => .done (kk x)) b pre), ?_, k, .recv (b := b) (by rw [Function.update_self]; exact h1), h2⟩
      show Proc.recv s kk = Proc.recv s (fun x => (Function.update (fun x => Proc.done (kk x)) b pre x).bind id)
      congr 1
      funext x
      by_cases hx : x = b
      · subst hx; rw [Function.update_self]; exact e
      · rw [Function.update_of_ne hx]; rfl
    | obs h =>
      obtain ⟨pre, e, k, h1, h2⟩ := ih h
      exact ⟨.obs _ pre, by rw [e]; rfl, k, .obs h1, h2⟩

namespace Protocol
open PNet Onion Incremental Additive Spec Props Shuffle CipherBatch

variable {box : SealedBox} {ι : Type} [DecidableEq ι] {pkeys : List box.PKey} {skeys : List box.SKey}

/-- The only abnormal end. -/
def Asserts (e : Fault) : Prop := e = .assertFail

theorem nodup_snoc {k : BitVec 64} {V : Type} {v : V} {l : List (BitVec 64 × V)} (h : (l.map Prod.fst).Nodup)
    (hl : l.lookup k = none) : ((l ++ [(k, v)]).map Prod.fst).Nodup := by
  rw [List.map_append, List.nodup_append]
  refine ⟨h, by simp, ?_⟩
  intro a ha b hb
  rw [List.map_singleton, List.mem_singleton] at hb
  intro hab
  have hb : b = k := hb
  obtain ⟨e, he, heq⟩ := List.mem_map.1 ha
  have := lookup_of_nodup h (show (k, e.2) ∈ l by rw [← hb, ← hab, ← heq]; exact he)
  rw [hl] at this
  cases this

/-- Installing secrets with equal tags. -/
theorem installLoop_clash (hgood : GoodKeys box pkeys skeys) (hp : pkeys.length ≤ 255) (k m : Nat)
    (hkm : k + m + 1 = pkeys.length) (T : List (Ticket box)) :
    ∀ (p : Party box) (fuel : Nat) (shorts : List (List Byte)), (∀ t ∈ T, t.Good (m + 1)) →
    p.partyId = k → p.partyCount = pkeys.length → pkeys[k]? = some p.pkey → skeys[k]? = some p.skey →
    p.ciphers.Holds shorts (T.map (fun t => t.cipher pkeys k)) → p.ciphers.shortSize = cipherSize m →
    p.ciphers.longSize = cipherSize (m + 1) → T.length ≤ fuel → (p.queriesState.secrets.map Prod.fst).Nodup →
    ¬ ((p.queriesState.secrets.map Prod.fst) ++ T.map Ticket.tag).Nodup →
    PProc.MayDo Asserts (fun _ => False) (PProc.ofProc (Party.installLoop fuel p) : PProg ι _)
      ((T.map (fun t => Act.obs (Obs.store t.head))).map Seg.act) := by
  induction T with
  | nil =>
    intro p fuel shorts _ _ _ _ _ _ _ _ _ h1 h2
    rw [List.map_nil, List.append_nil] at h2
    exact absurd h1 h2
  | cons t T ih =>
    intro p fuel shorts hT hid hpc hpk hsk hb hS hL hf hn hnd
    obtain ⟨fuel, rfl⟩ : ∃ f, fuel = f + 1 := ⟨fuel - 1, by simp at hf; omega⟩
    have hSL : cipherSize m ≤ cipherSize (m + 1) := Nat.mul_le_mul_left _ (by omega)
    have hLpos : 0 < cipherSize (m + 1) := Nat.mul_pos (by decide) (by omega)
    have htg := hT t List.mem_cons_self
    obtain ⟨g1, ⟨tail, g2⟩, g3⟩ := Holds.popLong (v := t.cipher pkeys k) (rest := T.map (fun t => t.cipher pkeys k)) hb
    obtain ⟨layer, l1, l2, l3⟩ := Ticket.peel hgood hp (k := k) (m := m) htg (by omega) tail p.pkey p.skey hpk hsk
    have hlen := Ticket.cipher_length hgood hp (k := k + 1) htg.next (by omega)
    obtain ⟨mem, c1, -, c3⟩ := g3.pushShort (t.next.cipher pkeys (k + 1)) [] (hlen.trans hS.symm) (by
      have := hb.room
      show p.ciphers.lastShort + p.ciphers.shortSize ≤ p.ciphers.firstLong + p.ciphers.longSize
      omega)
    rw [List.append_nil] at c1
    unfold Party.installLoop
    have hh : p.ciphers.hasLong = true := by rw [g1, hL]; simpa using hLpos
    rw [if_pos hh]
    have hd : onionDecrypt box p.ciphers.popLong.1 (p.partyCount - p.partyId) p.pkey p.skey = .ok layer := by
      rw [g2, hpc, hid, ← l1]
      congr 1
      omega
    simp only [Proc.bind_def, PProc.ofProc_bind]
    refine PProc.MayDo.lifts hd (PProc.MayDo.lifts l2 ?_)
    refine PProc.MayDo.runs (ι := ι) (M := (T.map (fun t => Act.obs (Obs.store t.head))).map Seg.act) (Runs.observe _) ?_
    cases hl : p.queriesState.secrets.lookup t.tag with
    | some v =>
      have hst : p.queriesState.store t.head = .error .assertFail := by
        unfold PartyState.store
        have : t.head.tag = t.tag := rfl
        rw [this, hl]
      rw [hst]
      exact .fault rfl
    | none =>
      have hst : p.queriesState.store t.head = .ok { p.queriesState with
          secrets := p.queriesState.secrets ++ [OfflineSecret.entry t.head]
          it := none } := by
        unfold PartyState.store
        have : t.head.tag = t.tag := rfl
        rw [this, hl]
        rfl
      rw [← l3] at c1
      refine PProc.MayDo.lifts hst (PProc.MayDo.lifts c1 ?_)
      refine ih _ fuel (shorts ++ [t.next.cipher pkeys (k + 1)]) (fun t' h' => hT t' (List.mem_cons_of_mem _ h')) hid hpc hpk hsk c3 hS hL
        (by simp at hf; omega) (nodup_snoc hn hl) ?_
      simp only [List.map_append, List.map_cons, List.map_nil, List.append_assoc, List.cons_append, List.nil_append]
      exact hnd

/-- The same at the backend. -/
theorem collect_clash (hgood : GoodKeys box pkeys skeys) (hp : pkeys.length ≤ 255) (hpos : 0 < pkeys.length)
    (back : ι) (T : List (Ticket box)) :
    ∀ (i : Nat) (b : Backend box), (∀ t ∈ T, t.Good 1) →
    pkeys[pkeys.length - 1]? = some b.pkey → skeys[pkeys.length - 1]? = some b.skey →
    (b.state.secrets.map Prod.fst).Nodup → ¬ ((b.state.secrets.map Prod.fst) ++ T.map Ticket.tag).Nodup →
    PProc.MayDo Asserts (fun _ => False) (PProc.ofProc (loop T.length i (Backend.installStep back) b) : PProg ι _)
      ((T.flatMap (fun t => aRecvCipher back (t.cipher pkeys (pkeys.length - 1)) ++ [.obs (.store t.head)])).map Seg.act) := by
  induction T with
  | nil =>
    intro i b _ _ _ h1 h2
    rw [List.map_nil, List.append_nil] at h2
    exact absurd h1 h2
  | cons t T ih =>
    intro i b hT hpk hsk hn hnd
    have htg := hT t List.mem_cons_self
    rw [List.length_cons, List.flatMap_cons, List.map_append]
    unfold loop
    rw [PProc.ofProc_bind]
    cases hl : b.state.secrets.lookup t.tag with
    | none =>
      refine PProc.MayDo.runs (backend_installStep hgood hp b back i t htg hpos hpk hsk hl) ?_
      refine ih _ _ (fun t' h' => hT t' (List.mem_cons_of_mem _ h')) hpk hsk (nodup_snoc hn hl) ?_
      simp only [List.map_append, List.map_cons, List.map_nil, List.append_assoc, List.cons_append, List.nil_append]
      exact hnd
    | some v =>
      have hst : b.state.store t.head = .error .assertFail := by
        unfold BackendState.store
        have : t.head.tag = t.tag := rfl
        rw [this, hl]
      refine PProc.MayDo.bind (Q := fun _ => False) ?_ (fun _ h => h.elim)
      obtain ⟨layer, h1, h2, -⟩ := Ticket.peel hgood hp (k := pkeys.length - 1) (m := 0) htg (by omega) [] b.pkey b.skey hpk hsk
      rw [List.append_nil] at h1
      unfold Backend.installStep Backend.handleOnionCipher
      simp only [Proc.bind_def, PProc.ofProc_bind]
      rw [List.map_append]
      refine PProc.MayDo.runs (runs_recvCipher back _ _ (Ticket.cipher_length hgood hp (k := pkeys.length - 1) htg (by omega))) ?_
      refine PProc.MayDo.lifts h1 (PProc.MayDo.lifts h2 ?_)
      rw [← List.append_nil (List.map _ [_])]
      refine PProc.MayDo.runs (Runs.observe _) ?_
      rw [hst]
      exact .fault rfl

/-- Broadcasting. -/
theorem broadcast_may {σ V : Type} (B : BStore σ V) {idx : ι → Option Nat} {sib : Nat → ι} {S : Nat} (hg : Group idx sib S)
    (hS : S < 255) (me : Nat) (hme : me < S) (items : Nat → List OfflineSecret)
    (h32 : preSum (fun s => (items s).length) S < 2 ^ 32) (s0 : σ) (hK : B.K s0) (hnd : ((B.get s0).map Prod.fst).Nodup) :
    PProc.MayDo Asserts (fun _ => ((B.get s0 ++ others S me (fun i => (items i).map B.ent)).map Prod.fst).Nodup)
      (broadcastSecrets me S sib (items me) B.store s0) [rseg idx sib (bcastCounts S items) me, rseg idx sib (bcastRound S items) me] := by
  refine (PProc.MayDo.ofBelow (B.lenient_does hg hS me hme items h32 s0 hK hnd)
    (broadcastSecrets_rel (F := Asserts) me S sib (items me) (store := B.store)
        (store' := B.lenient) (R := fun s o => o = some s) B.lenient_rel (fun x s o e _ he => .inl (B.error x s e he))
        (s := s0) (s' := some s0) rfl)).mono ?_
  rintro s ⟨o, rfl, h⟩
  exact h s rfl

/-! ### The parties -/

/-- The offline stage of a party up to the point where it waits for the next party to be
ready for queries. -/
def _root_.DPPIR.Protocol.ParallelParty.offlinePre (p : ParallelParty box) (rand : ParallelRand box) (back next : ι) (sib : Nat → ι) :
    PProg ι (ParallelParty box) := do
  let q ← PProc.lift (p.toParty.initializeNoiseSamples rand.toPartyRand)
  let p ← (p.withParty q).initializeCounts back next sib
  let p := { p with queriesState := p.queriesState.initialize false
                    noiseState := p.noiseState.initialize (p.partyCount - p.partyId - 1) p.noiseCount true false }
  let q ← PProc.lift (p.toParty.createNoiseCiphersTagged p.sampleTag rand.toPartyRand)
  let p := p.withParty q
  p.relayReady back next sib
  let q ← PProc.ofProc (p.toParty.collectCiphers back)
  let p := p.withParty q
  p.sync sib
  let p ← p.initializeShufflers rand sib
  let q ← PProc.ofProc p.toParty.installSecrets
  let p ← (p.withParty q).shuffleCiphers sib
  let p ← PProc.ofProc (p.sendCiphers next)
  let p ← p.broadcast rand sib
  let p ← p.initializeShufflers rand sib
  PProc.lift p.prepareOnline

theorem startOffline_eq (p : ParallelParty box) (rand : ParallelRand box) (back next : ι) (sib : Nat → ι) :
    p.startOffline rand back next sib = (p.offlinePre rand back next sib).bind (fun p =>
      (p.relayReady back next sib).bind (fun _ => .done p)) := by
  unfold ParallelParty.startOffline ParallelParty.offlinePre
  simp only [PProc.bind_def, PProc.pure_def, PProc.bind_assoc]

namespace Slot
variable {a : Slot box} {idx : ι → Option Nat} {sib : Nat → ι}

/-- What a server does up to that point. -/
def preSegs (a : Slot box) (idx : ι → Option Nat) (sib : Nat → ι) (back next : ι) (T NT : Nat → List (Ticket box))
    (I : Nat → List OfflineSecret) (sc : List (PAct ι)) : List (Seg ι Obs) :=
  (aRecvCount back (a.input a.me)).map Seg.act ++ (rseg idx sib (countsRound a.S a.own) a.me ::
    ((aSendCount next a.slice).map Seg.act ++
    ((aRecvReady next).map Seg.act ++ (rseg idx sib (castOut a.S readyMsg) a.me :: ((aSendReady back).map Seg.act ++
    (((T a.me).flatMap (fun t => aRecvCipher back (t.cipher a.pkeys a.k))).map Seg.act ++
      (rseg idx sib (castOut a.S readyMsg) a.me ::
      (rseg idx sib (noiseRound a.S a.dests a.noise) a.me :: (((T a.me).map (fun t => Act.obs (Obs.store t.head))).map Seg.act ++
      (rseg idx sib (cipherRound (cipherSize a.m) a.S a.dests (a.batch T NT)) a.me :: (rseg idx sib (castOut a.S readyMsg) a.me ::
      (sc.map Seg.act ++ (rseg idx sib (bcastCounts a.S I) a.me :: (rseg idx sib (bcastRound a.S I) a.me ::
      [rseg idx sib (noiseRound a.S a.dests a.noise) a.me]))))))))))))))

theorem cast_may (hg : Group idx sib a.S) (h : a.Ok) {p : ParallelParty box} (c : a.Core p)
    {T NT : Nat → List (Ticket box)} {I : Nat → List OfflineSecret} (hl : a.Load T NT I)
    (hndme : ((T a.me).map Ticket.tag).Nodup) (it : Option PartySecret)
    (hq : p.queriesState = { simulated := false, secrets := (T a.me).map (fun t => OfflineSecret.entry t.head), it := it }) :
    PProc.MayDo Asserts (fun p' => ∃ st, p' = { p with queriesState := st })
      (p.broadcast a.rand sib) [rseg idx sib (bcastCounts a.S I) a.me, rseg idx sib (bcastRound a.S I) a.me] := by
  have hlen : preSum (fun s => (I s).length) a.S < 2 ^ 32 := by
    refine Nat.lt_of_le_of_lt ?_ h.total
    rw [preSum_congr (g := a.input) (fun s hs => by rw [(hl.items s hs).length_eq, List.length_map, hl.input s hs])]
    unfold total
    have : preSum a.own a.S = preSum a.noise a.S + preSum a.input a.S := preSum_add _ _ _
    omega
  unfold ParallelParty.broadcast
  simp only [PProc.bind_def, hq, c.counted.id, c.counted.count]
  have e : List.map (fun s => (⟨s.1, s.2.nextTag, s.2.incremental, s.2.preshare⟩ : OfflineSecret))
      (a.rand.order ((T a.me).map (fun t => OfflineSecret.entry t.head))) = I a.me := hl.order.symm
  rw [e]
  refine PProc.MayDo.bind' (broadcast_may partyStore hg (by have := h.max; omega) a.me h.me I hlen
    { simulated := false, secrets := (T a.me).map (fun t => OfflineSecret.entry t.head), it := it } rfl ?_) (M := []) ?_ rfl
  · show (List.map Prod.fst ((T a.me).map (fun t => OfflineSecret.entry t.head))).Nodup
    rw [List.map_map]
    exact hndme
  · intro st _
    exact .done ⟨st, rfl⟩

theorem pre_may (hg : Group idx sib a.S) (h : a.Ok) {p : ParallelParty box} (hf : a.Fresh p) (back next : ι)
    {T NT : Nat → List (Ticket box)} {I : Nat → List OfflineSecret} (hl : a.Load T NT I) (NQ Q : Nat → List QTicket)
    (hNQ : ∀ s, s < a.S → (NQ s).length = a.noise s) (hQ : ∀ s, s < a.S → (Q s).length = a.input s)
    (hme : NQ a.me = noiseQ (noiseKeysAt a.rand.sample a.start a.len) a.tag a.shares a.pres) (T' : List (Ticket box))
    (hT' : T' = shuffled a.S a.dests (mixed T NT) a.shuf.backward a.me) :
    ∃ sc, PProc.MayDo Asserts (fun _ => True) (p.offlinePre a.rand back next sib) (a.preSegs idx sib back next T NT I sc) ∧
      Sends next sc (T'.flatMap (fun t => t.cipher a.pkeys (a.k + 1))) (T'.map (fun t => .sendCipher (t.cipher a.pkeys (a.k + 1)))) := by
  have hm255 : a.m ≤ 255 := by have := h.km; have := h.parties; omega
  have hupos := cipherSize_pos h.m
  have hub := cipherSize_le hm255
  have hbat : ∀ s, s < a.S → ∀ t ∈ mixed T NT s, (t.cipher a.pkeys (a.k + 1)).length = cipherSize a.m := by
    intro s hs t ht
    have hk := h.km
    unfold mixed at ht
    rw [List.mem_append, List.mem_map] at ht
    rcases ht with ht | ⟨t, ht, rfl⟩
    · exact Ticket.cipher_length h.keys h.parties (hl.ngood s hs t ht) (by omega)
    · exact Ticket.cipher_length h.keys h.parties (hl.good s hs t ht).next (by omega)
  have hT'len : ∀ c ∈ T'.map (fun t => t.cipher a.pkeys (a.k + 1)), c.length = cipherSize a.m := by
    rw [hT']
    intro c hc
    obtain ⟨t, ht, rfl⟩ := List.mem_map.1 hc
    obtain ⟨s, hs, ht⟩ := mem_shuffled ht
    exact hbat s hs t ht
  obtain ⟨sc, hsc, hsc'⟩ := parallelSendCiphers_ok (box := box) next (cipherSize a.m) hupos hub _ hT'len
  refine ⟨sc, ?_, by
    rw [List.map_map] at hsc'
    rw [List.flatMap_def]
    exact hsc'⟩
  obtain ⟨q1, s1, s2⟩ := begin_does hg h hf back next
  unfold ParallelParty.offlinePre preSegs
  simp only [PProc.bind_def]
  refine PProc.MayDo.lifts s1 ?_
  refine PProc.MayDo.bind' s2.may (M := _) ?_ (by rw [List.append_assoc, List.cons_append])
  rintro p2 ⟨c2, e2, hS2, hL2⟩
  obtain ⟨c3, e3, n3⟩ := states_ok h c2 e2
  obtain ⟨q4, s4, c4, e4, n4, b4, hS4, hL4, hm4, hf4⟩ := create_ok h c3 p2.noiseState n3 hS2 hL2
  refine PProc.MayDo.lifts s4 ?_
  refine PProc.MayDo.bind' (relayReady_does hg h.me _ c4.counted.id c4.counted.count back next).may (M := _) ?_
    (by rw [List.append_assoc, List.cons_append])
  rintro - -
  obtain ⟨q5, s5, c5, e5, n5, b5, hS5, hL5, hf5⟩ := collect_ok h c4 back (T a.me) (hl.good _ h.me) (hl.input _ h.me) _ b4 hS4 hL4 hm4
  refine PProc.MayDo.runs s5 ?_
  refine PProc.MayDo.bind' (sync_does hg h.me _ c5.counted.id c5.counted.count).may (M := _) ?_ rfl
  rintro - -
  refine PProc.MayDo.bind' (shufflers_does hg h c5).may (M := _) ?_ rfl
  rintro p6 ⟨ps, hps, c6, hp6⟩
  have hci6 : p6.ciphers = q5.ciphers := by rw [hp6]; rfl
  have hqs6 : p6.queriesState = {} := by rw [hp6]; exact e5.trans (e4.trans e3)
  have hns6 : p6.noiseState = q4.noiseState := by rw [hp6]; exact n5
  have hps6 : p6.pshuffler = ps := by rw [hp6]
  have hsh6 : p6.shuffler = a.shuf := by rw [hp6]
  clear hp6
  by_cases hndme : ((T a.me).map Ticket.tag).Nodup
  swap
  · refine PProc.MayDo.bind (Q := fun _ => False) ?_ (fun _ hf => False.elim hf)
    unfold Party.installSecrets
    obtain ⟨sh, hb6⟩ : ∃ sh, p6.ciphers.Holds sh ((T a.me).map (fun t => t.cipher a.pkeys a.k)) := ⟨_, by rw [hci6]; exact b5⟩
    have hL6 : p6.ciphers.longSize = cipherSize (a.m + 1) := by rw [hci6]; exact hL5
    refine installLoop_clash h.keys h.parties a.k a.m h.km (T a.me) p6.toParty _ _ (hl.good _ h.me) c6.party c6.parties c6.pkey c6.skey
      hb6 (by rw [hci6]; exact hS5) hL6 ?_ ?_ ?_
    · rw [hb6.lastLong, hL6, List.length_map, Nat.add_sub_cancel_left]
      exact Nat.le_mul_of_pos_right _ (cipherSize_pos (by omega))
    · rw [hqs6]; exact List.nodup_nil
    · rw [hqs6]; exact hndme
  obtain ⟨b7, it, s7, el7, hS7⟩ := install_ok (ι := ι) h c6 (T a.me) (hl.good _ h.me) hndme _ (by rw [hci6]; exact b5)
    (by rw [hci6]; exact hS5) (by rw [hci6]; exact hL5) hqs6 (by
      intro e
      rw [hci6, hf5]
      show q4.ciphers.firstLong = 0
      rw [hf4]
      have := congrArg List.length e
      simp only [List.length_map, List.length_range, List.length_nil] at this
      rw [this, Nat.zero_mul])
  refine PProc.MayDo.runs s7 ?_
  have c7 := c6.upd b7 { simulated := false, secrets := (T a.me).map (fun t => OfflineSecret.entry t.head), it := it } p6.noiseState
  have hitems : b7.elements = .ok (a.batch T NT a.me) := by
    rw [el7]
    unfold batch mixed
    rw [hl.own, List.map_append, List.map_map, List.map_map]
    rfl
  have hslice := c7.counted.slice
  refine PProc.MayDo.bind' (shuffleCiphers_does hg (by have := h.max; omega) _ a.me h.me a.dests h.routing (a.batch T NT) (by
      intro s hs
      rw [h.dests_length hs]
      unfold batch mixed own
      rw [List.length_map, List.length_append, List.length_map, hl.noise s hs, hl.input s hs])
    (a.noise a.me) c7.counted.id c7.counted.count (by rw [← hps6] at hps; exact hps) a.shuf.backward
    (by
      have := h.shuf
      rw [← hsh6] at this
      exact hsh6 ▸ this) hslice (cipherSize a.m) hupos hub hS7 c7.out hitems (by
      intro s hs c hc
      obtain ⟨t, ht, rfl⟩ := List.mem_map.1 hc
      exact hbat s hs t ht)).may (M := _) ?_ rfl
  rintro p8 ⟨g, hcr, hp8⟩
  have hcr' : CRep (cipherSize a.m) p8.outCiphers (T'.map (fun t => t.cipher a.pkeys (a.k + 1))) := by
    rw [hp8, hT', ← shuffled_map]
    exact hcr
  have c8 : a.Core p8 := by
    rw [hp8]
    refine c7.shuf _ ?_ ?_ ?_ _ ?_ _ _ _ _ hcr.short
    · exact c7.counted.seed
    · exact c7.counted.pid
    · exact c7.counted.pcount
    · exact c7.counted.lseed
  have hqs8 : p8.queriesState = { simulated := false, secrets := (T a.me).map (fun t => OfflineSecret.entry t.head), it := it } := by
    rw [hp8]
  have hns8 : p8.noiseState = q4.noiseState := by rw [hp8]; exact hns6
  clear hp8
  refine PProc.MayDo.runs (hsc p8 hcr') ?_
  have c9 : a.Core { p8 with outCiphers := p8.outCiphers.free } :=
    c8.shuf _ c8.counted.seed c8.counted.pid c8.counted.pcount _ c8.counted.lseed _ _ _ _ c8.out
  refine PProc.MayDo.bind' (cast_may hg h c9 hl hndme it hqs8) (M := _) ?_ rfl
  rintro p10 ⟨st, hp10⟩
  have c10 : a.Core p10 := by rw [hp10]; exact c9.upd _ _ _
  have hns10 : p10.noiseState = q4.noiseState := by rw [hp10]; exact hns8
  clear hp10
  refine PProc.MayDo.bind' (shufflers_does hg h c10).may (M := []) ?_ rfl
  rintro p11 ⟨ps', hps', c11, hp11⟩
  have hns11 : p11.noiseState = q4.noiseState := by rw [hp11]; exact hns10
  obtain ⟨p12, s12, e12, r12, i12, n12⟩ := prepare_ok h c11 hps' (by rw [hp11]) a.tag a.shares a.pres (fun i => preShares_valid _ _)
    (fun i => preShares_length _ _) (fun i => by simp [pres]) (by rw [hns11]; exact n4) NQ Q hNQ hQ hme
  exact ((PProc.Does.lift s12).mono (fun _ _ => trivial)).may

end Slot

/-! ### The backend -/

/-- What a server of the backend does until its siblings and itself hold all secrets. -/
def backPreSegs (idx : ι → Option Nat) (sib : Nat → ι) (S me : Nat) (back : ι) (pkeys : List box.PKey) (T : Nat → List (Ticket box))
    (I : Nat → List OfflineSecret) : List (Seg ι Obs) :=
  (aRecvCount back (T me).length).map Seg.act ++ ((aSendReady back).map Seg.act ++
    (((T me).flatMap (fun t => aRecvCipher back (t.cipher pkeys (pkeys.length - 1)) ++ [.obs (.store t.head)])).map Seg.act ++
    (rseg idx sib (bcastCounts S I) me :: (rseg idx sib (bcastRound S I) me :: [rseg idx sib (castOut S readyMsg) me]))))

theorem backend_may {idx : ι → Option Nat} {sib : Nat → ι} {S me : Nat} (hg : Group idx sib S) (hS : S < 255) (hme : me < S)
    (hgood : GoodKeys box pkeys skeys) (hp : pkeys.length ≤ 255) (hpos : 0 < pkeys.length)
    (b : Backend box) (hb : b.state = {}) (order : List (BitVec 64 × BackendSecret) → List (BitVec 64 × BackendSecret))
    (back : ι) (T : Nat → List (Ticket box)) (hT : ∀ t ∈ T me, t.Good 1)
    (hnd : ¬ ((List.range S).flatMap (fun s => (T s).map Ticket.tag)).Nodup)
    (hpk : pkeys[pkeys.length - 1]? = some b.pkey) (hsk : skeys[pkeys.length - 1]? = some b.skey)
    (h32 : preSum (fun s => (T s).length) S < 2 ^ 32) (I : Nat → List OfflineSecret)
    (hI : ∀ s, s < S → ((I s).map OfflineSecret.entryB).Perm ((T s).map (fun t => OfflineSecret.entryB t.head)))
    (horder : I me = (order ((T me).map (fun t => OfflineSecret.entryB t.head))).map secretOfB) :
    PProc.MayDo Asserts (fun _ => False) (b.startOfflineParallel order me S back sib) (backPreSegs idx sib S me back pkeys T I) := by
  have hperm := Slot.perm_entries T I hme OfflineSecret.entryB hI
  have hfst := Slot.fst_entries T S OfflineSecret.entryB (fun _ => rfl)
  have hlen : preSum (fun s => (I s).length) S < 2 ^ 32 := by
    refine Nat.lt_of_le_of_lt (Nat.le_of_eq (preSum_congr ?_)) h32
    intro s hs
    have := (hI s hs).length_eq
    simpa using this
  have hme32 : (T me).length < 2 ^ 32 := by
    have := preSum_mono (fun s => (T s).length) (show me + 1 ≤ S by omega)
    rw [preSum_succ] at this
    omega
  unfold Backend.startOfflineParallel backPreSegs
  simp only [PProc.bind_def]
  refine PProc.MayDo.runs (backend_initializeBatch b back _ hme32) ?_
  refine PProc.MayDo.runs (runs_sendReady back) ?_
  by_cases hndme : ((T me).map Ticket.tag).Nodup
  swap
  · refine PProc.MayDo.bind (Q := fun _ => False) ?_ (fun _ hf => False.elim hf)
    unfold Backend.collectAndInstallSecrets
    refine collect_clash hgood hp hpos back (T me) 0 _ hT hpk hsk ?_ ?_
    · show (List.map Prod.fst (b.state.initialize false).secrets).Nodup
      rw [hb]; exact List.nodup_nil
    · show ¬ (List.map Prod.fst (b.state.initialize false).secrets ++ _).Nodup
      rw [hb]; exact hndme
  obtain ⟨it, s1⟩ := backend_collect hgood hp hpos b hb back (T me) hT hndme hpk hsk
  refine PProc.MayDo.runs s1 ?_
  unfold Backend.broadcast
  simp only [PProc.bind_def]
  have e : List.map (fun s => (⟨s.1, 0, s.2.incremental, s.2.preshare⟩ : OfflineSecret))
      (order ((T me).map (fun t => OfflineSecret.entryB t.head))) = I me := horder.symm
  rw [e]
  rw [PProc.bind_assoc]
  refine PProc.MayDo.bind' (broadcast_may backendStore hg hS me hme I hlen
    { simulated := false, secrets := (T me).map (fun t => OfflineSecret.entryB t.head), it := it } rfl ?_)
    (M := [rseg idx sib (castOut S readyMsg) me]) ?_ rfl
  · show (List.map Prod.fst ((T me).map (fun t => OfflineSecret.entryB t.head))).Nodup
    rw [List.map_map]
    exact hndme
  · intro st hst
    refine absurd ?_ hnd
    rw [← hfst, ← (hperm.map Prod.fst).nodup_iff]
    exact hst

end Protocol
end DPPIR
