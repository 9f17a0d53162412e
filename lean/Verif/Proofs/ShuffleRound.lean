import Verif.Model.ParallelParty
import Verif.Proofs.Exchange
import Verif.Proofs.Plan

/-!
# The two forward shuffles among the servers of a party
-/

namespace DPPIR.Protocol
open DPPIR Proc Onion Shuffle Spec

variable {box : SealedBox} {ι τ γ : Type} [DecidableEq ι]

/-! ## What is sent -/

/-- The messages that leave server `me`, in order. -/
def routed (encode : τ → List Byte) (me : Nat) (ds : List Nat) (l : List τ) : List (Nat × List Byte) :=
  (ds.zip l).flatMap (fun p => if p.1 = me then [] else [(p.1, encode p.2)])

theorem routed_to (encode : τ → List Byte) (me : Nat) (ds : List Nat) (l : List τ) (t : Nat) (ht : t ≠ me) :
    (routed encode me ds l).flatMap (fun o => if o.1 = t then o.2 else []) = ((selTo ds l t).map encode).flatten := by
  unfold routed
  induction ds generalizing l with
  | nil => simp
  | cons d ds ih =>
    cases l with
    | nil => simp
    | cons x l =>
      rw [List.zip_cons_cons, List.flatMap_cons, List.flatMap_append, ih, selTo_cons]
      by_cases h1 : d = t
      · subst h1; simp [ht]
      · by_cases h2 : d = me
        · subst h2; simp [Ne.symm ht]
        · simp [h1, h2]

theorem routed_mem (encode : τ → List Byte) (me S : Nat) (ds : List Nat) (hds : ∀ d ∈ ds, d < S) (l : List τ) :
    ∀ m ∈ routed encode me ds l, m.1 < S ∧ m.1 ≠ me := by
  intro m hm
  obtain ⟨p, hp, hm⟩ := List.mem_flatMap.1 hm
  split at hm
  · cases hm
  · rename_i h
    rw [List.mem_singleton] at hm
    subst hm
    exact ⟨hds _ (List.of_mem_zip (a := p.1) (b := p.2) hp).1, h⟩

/-- The bytes that leave server `me`, in order. -/
def routedBytes (encode : τ → List Byte) (unit S me : Nat) (ds : List Nat) (l : List τ) : List (Nat × Byte) :=
  outgoing (Sockets.bufferSize / unit) S me (fun _ => {}) (routed encode me ds l)

theorem routedBytes_to (encode : τ → List Byte) (unit S me : Nat) (ds : List Nat) (l : List τ) (t : Nat) (h : t < S) (ht : t ≠ me) :
    toOne t (routedBytes encode unit S me ds l) = ((selTo ds l t).map encode).flatten := by
  unfold routedBytes
  rw [toOne_outgoing _ _ _ _ _ h ht, routed_to _ _ _ _ _ ht]

/-- One item's messages. -/
def routedOne (encode : τ → List Byte) (me : Nat) (ds : List Nat) (l : List τ) (a : Nat) : List (Nat × List Byte) :=
  match (ds.zip l)[a]? with
  | some p => if p.1 = me then [] else [(p.1, encode p.2)]
  | none => []

theorem routed_range (encode : τ → List Byte) (me : Nat) (ds : List Nat) (l : List τ) (h : ds.length = l.length) :
    (List.range' 0 l.length).flatMap (routedOne encode me ds l) = routed encode me ds l := by
  have key : ∀ n, n ≤ l.length → (List.range' 0 n).flatMap (routedOne encode me ds l) =
      ((ds.zip l).take n).flatMap (fun p => if p.1 = me then [] else [(p.1, encode p.2)]) := by
    intro n hn
    induction n with
    | zero => simp
    | succ n ih =>
      have hlt : n < (ds.zip l).length := by simp; omega
      rw [List.range'_1_concat, List.flatMap_append, ih (by omega), List.take_succ_eq_append_getElem hlt, List.flatMap_append]
      simp only [List.flatMap_cons, List.flatMap_nil, List.append_nil, Nat.zero_add]
      unfold routedOne
      rw [List.getElem?_eq_getElem hlt]
  rw [key _ le_rfl, List.take_of_length_le (by simp)]
  rfl

/-! ## The exchange -/

theorem place_ok (p : ParallelParty box) (S source n f : Nat) (c : Nat → Nat) (F rc : List Nat)
    (hp : p.pshuffler.prefixFrom = tab S (preSum c)) (hF : p.shuffler.forward = F) (hs : source < S)
    (hrc : rc[source]? = some n) (hn : preSum c source + n < 2 ^ 32) (hn' : n + 1 < 2 ^ 32)
    (hf : F[preSum c source + n]? = some f) : p.place source rc = .ok (f, rc.set source (n + 1)) := by
  unfold ParallelParty.place
  have h1 : p.pshuffler.prefixCountFrom source = .ok (preSum c source) := by
    unfold ParallelShuffler.prefixCountFrom
    rw [hp, rd_tab _ _ _ hs]
  have h2 : rd rc source = .ok n := rd_eq_ok.2 hrc
  have h3 : wr rc source (wrap32 (n + 1)) = .ok (rc.set source (n + 1)) := by
    rw [wrap32_of_lt hn', wr_ok (List.getElem?_eq_some_iff.1 hrc).1]
  have h4 : p.shuffler.shuffle (wrap32 (preSum c source + n)) = .ok f := by
    rw [wrap32_of_lt hn]
    unfold LocalShuffler.shuffle
    rw [hF, rd_eq_ok.2 hf]
  rw [h1, bind_ok, h2, bind_ok, h3, bind_ok, h4, bind_ok]

/-- What is needed of the batch that is filled: `mk ps g` is the party with the parallel
shuffler `ps` and the batch `g`, `Rep g l` says that the batch contains `l`. -/
structure Filler (mk : ParallelShuffler → γ → ParallelParty box)
    (own : Nat → τ → ParallelParty box × List Nat → Res (ParallelParty box × List Nat))
    (Rep : γ → List τ → Prop) (Good : τ → Prop) (F : List Nat) : Prop where
  ps : ∀ ps g, (mk ps g).pshuffler = ps
  ps' : ∀ ps g ps', { mk ps g with pshuffler := ps' } = mk ps' g
  shuffler : ∀ ps g, (mk ps g).shuffler.forward = F
  own : ∀ ps g l source x rc target rc', Rep g l → Good x → (mk ps g).place source rc = .ok (target, rc') → target < l.length →
    ∃ g', own source x (mk ps g, rc) = .ok (mk ps g', rc') ∧ Rep g' (l.set target x)

/-- Number of messages of server `s` that were put in place. -/
def doneOf (dests : Nat → List Nat) (me a : Nat) (r : Nat → Nat) (s : Nat) : Nat :=
  if s = me then ((dests me).take a).count me else r s

theorem doneOf_update (dests : Nat → List Nat) (me a : Nat) (r : Nat → Nat) (i v : Nat) (h : i ≠ me) :
    doneOf dests me a (Function.update r i v) = Function.update (doneOf dests me a r) i v := by
  funext s
  unfold doneOf
  by_cases hs : s = i
  · subst hs; rw [if_neg h, Function.update_self, Function.update_self]
  · rw [Function.update_of_ne hs, Function.update_of_ne hs]

theorem doneOf_me (dests : Nat → List Nat) (me a : Nat) (r : Nat → Nat) (h : (dests me)[a]? = some me) :
    doneOf dests me (a + 1) r = Function.update (doneOf dests me a r) me (doneOf dests me a r me + 1) := by
  funext s
  unfold doneOf
  by_cases hs : s = me
  · subst hs
    rw [Function.update_self, if_pos rfl, if_pos rfl, List.take_add_one, h]
    simp
  · rw [Function.update_of_ne hs, if_neg hs, if_neg hs]

theorem doneOf_other (dests : Nat → List Nat) (me a d : Nat) (r : Nat → Nat) (h : (dests me)[a]? = some d) (hd : d ≠ me) :
    doneOf dests me (a + 1) r = doneOf dests me a r := by
  funext s
  unfold doneOf
  by_cases hs : s = me
  · rw [if_pos hs, if_pos hs, List.take_add_one, h]
    simp [hd]
  · rw [if_neg hs, if_neg hs]

theorem tab_update (n : Nat) (f : Nat → Nat) (i v : Nat) : (tab n f).set i v = tab n (Function.update f i v) := by
  apply List.ext_getElem?
  intro j
  by_cases hj : j < n
  · rw [tab_get _ _ _ hj]
    by_cases h : i = j
    · subst h
      rw [List.getElem?_set_self (by simpa using hj), Function.update_self]
    · rw [List.getElem?_set_ne h, tab_get _ _ _ hj, Function.update_of_ne (Ne.symm h)]
  · rw [List.getElem?_eq_none (by simp; omega), List.getElem?_eq_none (by simp; omega)]

section
variable {mk : ParallelShuffler → γ → ParallelParty box}
  {own : Nat → τ → ParallelParty box × List Nat → Res (ParallelParty box × List Nat)}
  {Rep : γ → List τ → Prop} {Good : τ → Prop} {F B : List Nat}

/-- The batch, the tables and the shuffler during the exchange. -/
structure ShuffleInv (mk : ParallelShuffler → γ → ParallelParty box) (Rep : γ → List τ → Prop) (F : List Nat) (S me : Nat)
    (dests : Nat → List Nat) (batch : Nat → List τ) (ps : ParallelShuffler) (a : Nat) (r : Nat → Nat) (p : ParallelParty box)
    (rc : List Nat) : Prop where
  state : ∃ g l, p = mk { ps with forwardIdx := a } g ∧ Rep g l ∧
    Filled S F (fun s => selTo (dests s) (batch s) me) l (doneOf dests me a r)
  counts : rc = tab S (doneOf dests me a r)

/-- One message is put in its place. -/
theorem ShuffleInv.put {S me : Nat} {dests : Nat → List Nat} {batch : Nat → List τ} {ps : ParallelShuffler}
    (hf : Filler mk own Rep Good F) (hplan : Routing S dests) (hme : me < S)
    (hlen : ∀ s, s < S → (batch s).length = (dests s).length) (hgood : ∀ s, s < S → ∀ x ∈ batch s, Good x)
    (hps : ps.prefixFrom = tab S (preSum (fun a => (dests a).count me)))
    (hF : IsShuffler F B (sliceOf S dests me)) {a a' : Nat} {r r' : Nat → Nat} {g : γ} {l : List τ} {rc : List Nat} {s : Nat} {x : τ}
    (hrep : Rep g l) (hfill : Filled S F (fun s => selTo (dests s) (batch s) me) l (doneOf dests me a r))
    (hrc : rc = tab S (doneOf dests me a r)) (hs : s < S)
    (hx : (selTo (dests s) (batch s) me)[doneOf dests me a r s]? = some x)
    (hup : doneOf dests me a' r' = Function.update (doneOf dests me a r) s (doneOf dests me a r s + 1)) (k : Nat) (hk : k = a') :
    ∃ p' rc', own s x (mk { ps with forwardIdx := k } g, rc) = .ok (p', rc') ∧
      ShuffleInv mk Rep F S me dests batch ps a' r' p' rc' := by
  subst hk
  have hrow : (fun s => ((fun s => selTo (dests s) (batch s) me) s).length) = fun s => (selTo (dests s) (batch s) me).length := rfl
  have hlen' : ∀ s, s < S → (selTo (dests s) (batch s) me).length = (dests s).count me :=
    fun s hs => selTo_length _ _ _ (hlen s hs).symm
  have hpre : ∀ k, k ≤ S → preSum (fun s => (selTo (dests s) (batch s) me).length) k = preSum (fun a => (dests a).count me) k :=
    fun k hk => preSum_congr (fun i hi => hlen' i (by omega))
  have hF' : IsShuffler F B (preSum (fun s => (selTo (dests s) (batch s) me).length) S) := by
    rw [hpre S le_rfl]; exact hF
  obtain ⟨f, h1, h2, h3⟩ := hfill.put hF' hs hx
  have hlt := (List.getElem?_eq_some_iff.1 hx).1
  have hsl := hplan.slice_le hme
  have hin := preSum_mono (fun a => (dests a).count me) (show s + 1 ≤ S by omega)
  rw [preSum_succ] at hin
  unfold sliceOf at hsl
  rw [hpre s (by omega)] at h1
  have hl' := hlen' s hs
  have hpl : (mk { ps with forwardIdx := k } g).place s rc = .ok (f, rc.set s (doneOf dests me a r s + 1)) := by
    refine place_ok _ S s _ f (fun a => (dests a).count me) F rc ?_ (hf.shuffler _ _) hs ?_ ?_ ?_ h1
    · rw [hf.ps]; exact hps
    · rw [hrc, tab_get _ _ _ hs]
    · omega
    · omega
  have hgx : Good x := hgood s hs x (mem_selTo (List.mem_of_getElem? hx))
  obtain ⟨g', h4, h5⟩ := hf.own _ g l s x rc f _ hrep hgx hpl h2
  refine ⟨_, _, h4, ⟨g', _, rfl, h5, ?_⟩, ?_⟩
  · rw [hup]; exact h3
  · rw [hrc, hup, tab_update]

/-- The forward shuffle as an exchange. -/
def shuffleSpec (X : Exchange ι) (h : Handlers ι (ParallelParty box) τ) (encode : τ → List Byte) (decode : List Byte → τ)
    (dests : Nat → List Nat) (batch : Nat → List τ) (ps : ParallelShuffler)
    (hsend : h.send = shuffleOut X own encode) (hrecv : ∀ s m st, h.recv s m st = own s (decode m) st)
    (hdec : ∀ x, Good x → decode (encode x) = x) (henc : ∀ x, Good x → (encode x).length = X.unit)
    (hf : Filler mk own Rep Good F) (hplan : Routing X.servers dests) (hme : X.me < X.servers)
    (hlen : ∀ s, s < X.servers → (batch s).length = (dests s).length) (hgood : ∀ s, s < X.servers → ∀ x ∈ batch s, Good x)
    (hfw : ps.forward = dests X.me) (hps : ps.prefixFrom = tab X.servers (preSum (fun a => (dests a).count X.me)))
    (hF : IsShuffler F B (sliceOf X.servers dests X.me)) (inj : Function.Injective X.sib) (unit0 : 0 < X.unit)
    (unitB : X.unit ≤ Sockets.bufferSize) (servers : X.servers < 255)
    (hcounts : ∀ s, X.Sib s → X.counts s = (dests s).count X.me) : XSpec X h (batch X.me) where
  M s := (selTo (dests s) (batch s) X.me).map encode
  outs a := routedOne encode X.me (dests X.me) (batch X.me) a
  I := ShuffleInv mk Rep F X.servers X.me dests batch ps
  inj := inj
  unit0 := unit0
  unitB := unitB
  servers := servers
  hM := by
    intro s hs
    refine ⟨?_, ?_⟩
    · intro m hm
      obtain ⟨x, hx, rfl⟩ := List.mem_map.1 hm
      exact henc x (hgood s hs.1 x (mem_selTo hx))
    · rw [List.length_map, selTo_length _ _ _ (hlen s hs.1).symm, hcounts s hs]
  total := by
    have h1 : ∑ s ∈ X.sibs, X.counts s = ∑ s ∈ X.sibs, (dests s).count X.me :=
      Finset.sum_congr rfl (fun s hs => hcounts s ((X.mem_sibs s).1 hs))
    have h2 : ∑ s ∈ X.sibs, (dests s).count X.me ≤ ∑ s ∈ Finset.range X.servers, (dests s).count X.me :=
      Finset.sum_le_sum_of_subset (Finset.erase_subset _ _)
    have h3 : ∀ n, ∑ s ∈ Finset.range n, (dests s).count X.me = preSum (fun a => (dests a).count X.me) n := by
      intro n
      induction n with
      | zero => rfl
      | succ n ih => rw [Finset.sum_range_succ, ih, preSum_succ]
    have := hplan.slice_le hme
    unfold sliceOf at this
    rw [h1]
    rw [h3] at h2
    omega
  houts := by
    intro a o ho
    unfold routedOne at ho
    split at ho
    · rename_i p hp
      have hp := List.mem_of_getElem? hp
      split at ho
      · cases ho
      · rename_i hne
        rw [List.mem_singleton] at ho
        subst ho
        exact ⟨hplan.lt _ hme _ (List.of_mem_zip (a := p.1) (b := p.2) hp).1, hne⟩
    · cases ho
  got := by
    intro a r s rc hI i hi
    rw [hI.counts, tab_get _ _ _ hi.1]
    unfold doneOf
    rw [if_neg hi.2]
  send := by
    rintro a r s rc ha hr ⟨⟨g, l, rfl, hrep, hfill⟩, hrc⟩
    have hal : a < (dests X.me).length := by rw [← hlen X.me hme]; exact ha
    have h32 := hplan.length_le hme
    have hd : (dests X.me)[a]? = some (dests X.me)[a] := List.getElem?_eq_getElem hal
    have hzip : ((dests X.me).zip (batch X.me))[a]? = some ((dests X.me)[a], (batch X.me)[a]) := by
      rw [List.getElem?_zip_eq_some]
      exact ⟨hd, List.getElem?_eq_getElem ha⟩
    have hone : ParallelShuffler.shuffleOne { ps with forwardIdx := a } =
        .ok ((dests X.me)[a], { ps with forwardIdx := a + 1 }) := by
      unfold ParallelShuffler.shuffleOne
      simp only
      rw [hfw, rd_ok hal, bind_ok, wrap32_of_lt (by omega)]
    by_cases e : (dests X.me)[a] = X.me
    · have hx : (selTo (dests X.me) (batch X.me) X.me)[doneOf dests X.me a r X.me]? = some (batch X.me)[a] := by
        unfold doneOf
        rw [if_pos rfl, selTo_get _ _ _ _ (by rw [hd, e]), List.getElem?_eq_getElem ha]
      obtain ⟨p', rc', h1, h2⟩ := ShuffleInv.put hf hplan hme hlen hgood hps hF hrep hfill hrc hme hx
        (doneOf_me dests X.me a r (by rw [hd, e])) (a + 1) rfl
      refine ⟨p', rc', h2, ?_⟩
      intro x hx1 hx2 hroom
      have hout : routedOne encode X.me (dests X.me) (batch X.me) a = [] := by
        unfold routedOne
        rw [hzip]
        simp [e]
      simp only [hout]
      rw [hsend]
      unfold shuffleOut
      have hl : x.st.pshuffler.shuffleOne = .ok ((dests X.me)[a], { ps with forwardIdx := a + 1 }) := by
        rw [hx1, hf.ps]; exact hone
      refine Runs.bind' (Runs.lift hl) ?_ rfl
      simp only
      rw [if_pos e]
      have hown : own (dests X.me)[a] (batch X.me)[a] ({ x.st with pshuffler := { ps with forwardIdx := a + 1 } }, x.received) =
          .ok (p', rc') := by
        rw [hx1, hx2, hf.ps', e]
        exact h1
      refine Runs.bind' (Runs.lift hown) (Runs.done _) rfl
    · refine ⟨mk { ps with forwardIdx := a + 1 } g, rc, ⟨⟨g, l, rfl, hrep, ?_⟩, ?_⟩, ?_⟩
      · rw [doneOf_other dests X.me a _ r hd e]; exact hfill
      · rw [doneOf_other dests X.me a _ r hd e]; exact hrc
      · intro x hx1 hx2 hroom
        have hout : routedOne encode X.me (dests X.me) (batch X.me) a = [((dests X.me)[a], encode (batch X.me)[a])] := by
          unfold routedOne
          rw [hzip]
          simp [e]
        simp only [hout]
        rw [hsend]
        unfold shuffleOut
        have hl : x.st.pshuffler.shuffleOne = .ok ((dests X.me)[a], { ps with forwardIdx := a + 1 }) := by
          rw [hx1, hf.ps]; exact hone
        refine Runs.bind' (Runs.lift hl) ?_ (List.nil_append _).symm
        simp only
        rw [if_neg e]
        have := runs_sendTo X { x with st := { x.st with pshuffler := { ps with forwardIdx := a + 1 } } } (dests X.me)[a]
          (encode (batch X.me)[a]) (hroom _)
        simp only [hx1, hf.ps'] at this ⊢
        rw [← hx2]
        exact this
  recv := by
    rintro a r s rc i m hi hr hm ⟨⟨g, l, rfl, hrep, hfill⟩, hrc⟩
    rw [List.getElem?_map] at hm
    obtain ⟨x, hx, rfl⟩ := Option.map_eq_some_iff.1 hm
    have hgx : Good x := hgood i hi.1 x (mem_selTo (List.mem_of_getElem? hx))
    have hx' : (selTo (dests i) (batch i) X.me)[doneOf dests X.me a r i]? = some x := by
      unfold doneOf; rw [if_neg hi.2]; exact hx
    rw [hrecv, hdec x hgx]
    refine ShuffleInv.put hf hplan hme hlen hgood hps hF hrep hfill hrc hi.1 hx' ?_ a rfl
    rw [doneOf_update _ _ _ _ _ _ hi.2]
    unfold doneOf
    rw [if_neg hi.2]

/-- The batch of this server after the forward shuffle, whatever the schedule. -/
theorem shuffle_does (X : Exchange ι) (h : Handlers ι (ParallelParty box) τ) (encode : τ → List Byte) (decode : List Byte → τ)
    (dests : Nat → List Nat) (batch : Nat → List τ) (ps : ParallelShuffler)
    (hsend : h.send = shuffleOut X own encode) (hrecv : ∀ s m st, h.recv s m st = own s (decode m) st)
    (hdec : ∀ x, Good x → decode (encode x) = x) (henc : ∀ x, Good x → (encode x).length = X.unit)
    (hf : Filler mk own Rep Good F) (hplan : Routing X.servers dests) (hme : X.me < X.servers)
    (hlen : ∀ s, s < X.servers → (batch s).length = (dests s).length) (hgood : ∀ s, s < X.servers → ∀ x ∈ batch s, Good x)
    (hfi : ps.forwardIdx = 0)
    (hfw : ps.forward = dests X.me) (hps : ps.prefixFrom = tab X.servers (preSum (fun a => (dests a).count X.me)))
    (hF : IsShuffler F B (sliceOf X.servers dests X.me)) (inj : Function.Injective X.sib) (unit0 : 0 < X.unit)
    (unitB : X.unit ≤ Sockets.bufferSize) (servers : X.servers < 255)
    (hcounts : ∀ s, X.Sib s → X.counts s = (dests s).count X.me) (total : Nat)
    (htotal : total = sliceOf X.servers dests X.me - (dests X.me).count X.me) (g : γ) (l : List τ) (hrep : Rep g l)
    (hl : l.length = sliceOf X.servers dests X.me) {is : ι → List Byte} {av}
    (his : ∀ s, X.Sib s → is (X.sib s) = ((selTo (dests s) (batch s) X.me).map encode).flatten)
    (his' : ∀ j, (∀ s, X.Sib s → j ≠ X.sib s) → is j = []) :
    PProc.Does (fun p' => ∃ g', p' = mk { ps with forwardIdx := (dests X.me).length } g' ∧
        Rep g' (pick B ((List.range X.servers).flatMap (fun s => selTo (dests s) (batch s) X.me))))
      (sendAndPoll X h (batch X.me) total (mk ps g))
      [.xchg ((routedBytes encode X.unit X.servers X.me (dests X.me) (batch X.me)).map (fun o => (X.sib o.1, o.2))) is av] := by
  have hsum : total = ∑ s ∈ X.sibs, X.counts s := by
    have h1 : ∑ s ∈ X.sibs, X.counts s = ∑ s ∈ X.sibs, (dests s).count X.me :=
      Finset.sum_congr rfl (fun s hs => hcounts s ((X.mem_sibs s).1 hs))
    have h3 : ∀ n, ∑ s ∈ Finset.range n, (dests s).count X.me = preSum (fun a => (dests a).count X.me) n := by
      intro n
      induction n with
      | zero => rfl
      | succ n ih => rw [Finset.sum_range_succ, ih, preSum_succ]
    have h4 : (dests X.me).count X.me + ∑ s ∈ X.sibs, (dests s).count X.me = sliceOf X.servers dests X.me := by
      unfold Exchange.sibs
      rw [Finset.add_sum_erase _ (fun s => (dests s).count X.me) (Finset.mem_range.2 hme), h3]
      rfl
    omega
  have hpsi : ({ ps with forwardIdx := 0 } : ParallelShuffler) = ps := by
    cases ps; simp only at hfi; subst hfi; rfl
  have h0 : ShuffleInv mk Rep F X.servers X.me dests batch ps 0 (fun _ => 0) (mk ps g) (List.replicate X.servers 0) := by
    have hz : doneOf dests X.me 0 (fun _ => 0) = fun _ => 0 := by
      funext s; unfold doneOf; simp
    refine ⟨⟨g, l, by rw [hpsi], hrep, ?_⟩, ?_⟩
    · rw [hz]; exact Filled.start _ _ _ _ (by rw [hF.length, hl])
    · rw [hz, replicate_eq_tab]
  have hd := (shuffleSpec X h encode decode dests batch ps hsend hrecv hdec henc hf hplan hme hlen hgood hfw hps hF inj unit0 unitB
    servers hcounts).does (mk ps g) total hsum h0 (is := is) (av := av) his his'
  have hout : (shuffleSpec X h encode decode dests batch ps hsend hrecv hdec henc hf hplan hme hlen hgood hfw hps hF inj unit0 unitB
    servers hcounts).allOut = routedBytes encode X.unit X.servers X.me (dests X.me) (batch X.me) := by
    unfold XSpec.allOut routedBytes XSpec.outsFrom
    congr 1
    exact routed_range encode X.me (dests X.me) (batch X.me) (hlen _ hme).symm
  rw [hout] at hd
  refine hd.mono ?_
  rintro p' ⟨r, rc, hr, ⟨g', l', rfl, hrep', hfill⟩, -⟩
  refine ⟨g', by rw [hlen X.me hme], ?_⟩
  have hlen' : ∀ s, s < X.servers → (selTo (dests s) (batch s) X.me).length = (dests s).count X.me :=
    fun s hs => selTo_length _ _ _ (hlen s hs).symm
  have hF' : IsShuffler F B (preSum (fun s => (selTo (dests s) (batch s) X.me).length) X.servers) := by
    rw [preSum_congr hlen']; exact hF
  have := hfill.all hF' (fun s hs => by
    rw [hlen' s hs]
    unfold doneOf
    split
    · rename_i e
      rw [e, hlen X.me hme, List.take_length]
    · rename_i e
      rw [hr s ⟨hs, e⟩, hcounts s ⟨hs, e⟩])
  rw [← this]
  exact hrep'

end

/-! ## Batches of queries and of ciphers -/

/-- The batch holds `l`. -/
structure QRep (b : Batch Query) (l : List Query) : Prop where
  ptr : b.ptr = l
  cap : b.capacity = l.length

theorem QRep.elements {b : Batch Query} {l : List Query} (h : QRep b l) : b.elements = .ok l := by
  unfold Batch.elements
  rw [h.ptr, h.cap, slice_ok (by simp)]
  simp

/-- The cipher batch holds `l`. -/
structure CRep (unit : Nat) (b : CipherBatch) (l : List (List Byte)) : Prop where
  short : b.shortSize = unit
  mem : b.mem = l.flatten
  len : ∀ c ∈ l, c.length = unit
  last : b.lastShort = 0
  first : b.firstLong = l.length * unit

theorem CRep.initialize (b : CipherBatch) (n : Nat) :
    CRep b.shortSize (b.initialize n 0) (List.replicate n (List.replicate b.shortSize 0)) where
  short := rfl
  mem := by simp [CipherBatch.initialize]
  len := by intro c hc; rw [List.eq_of_mem_replicate hc]; simp
  last := rfl
  first := by simp [CipherBatch.initialize]

theorem flatten_set (unit : Nat) (l : List (List Byte)) (hl : ∀ c ∈ l, c.length = unit) (i : Nat) (hi : i < l.length)
    (v : List Byte) :
    l.flatten.take (i * unit) ++ v ++ l.flatten.drop (i * unit + unit) = (l.set i v).flatten := by
  induction l generalizing i with
  | nil => simp at hi
  | cons c l ih =>
    have hc : c.length = unit := hl c (by simp)
    cases i with
    | zero =>
      simp only [Nat.zero_mul, List.take_zero, List.nil_append, Nat.zero_add, List.flatten_cons, List.set_cons_zero]
      rw [← hc, List.drop_left]
    | succ i =>
      rw [List.set_cons_succ, List.flatten_cons, List.flatten_cons, ← ih (fun c h => hl c (by simp [h])) i (by simpa using hi)]
      have e : (i + 1) * unit = c.length + i * unit := by rw [hc, Nat.succ_mul, Nat.add_comm]
      rw [e, List.take_length_add_append, Nat.add_assoc, List.drop_length_add_append]
      simp

theorem CRep.set {unit : Nat} {b : CipherBatch} {l : List (List Byte)} (h : CRep unit b l) (i : Nat) (hi : i < l.length)
    (v : List Byte) (hv : v.length = unit) : ∃ b', b.setShort i v = .ok b' ∧ CRep unit b' (l.set i v) := by
  have hfl := flatten_length unit l h.len
  have hle : i * unit + v.length ≤ b.mem.length := by
    have : (i + 1) * unit ≤ l.length * unit := Nat.mul_le_mul_right _ hi
    rw [Nat.succ_mul] at this
    rw [h.mem, hfl, hv]
    exact this
  refine ⟨{ b with mem := (l.set i v).flatten }, ?_, ?_⟩
  · unfold CipherBatch.setShort
    have : slice v 0 b.shortSize = .ok v := by
      rw [h.short, slice_ok (by omega), List.drop_zero, List.take_of_length_le (by omega)]
    rw [this, bind_ok, h.short, blit_ok hle, bind_ok, hv, h.mem, flatten_set unit l h.len i hi v]
  · refine ⟨h.short, rfl, ?_, h.last, ?_⟩
    · intro c hc
      rcases List.mem_or_eq_of_mem_set hc with hc | rfl
      · exact h.len c hc
      · exact hv
    · show b.firstLong = _
      rw [List.length_set]; exact h.first

theorem CRep.elements {unit : Nat} {b : CipherBatch} {l : List (List Byte)} (h : CRep unit b l) (hu : 0 < unit) :
    b.elements = .ok l := by
  unfold CipherBatch.elements
  simp only [h.last, if_true, h.first, h.short]
  rw [if_pos ⟨by omega, by rw [Nat.mul_mod_left]⟩, Nat.mul_div_cancel _ hu, h.mem,
    readUnits_ok (by rw [flatten_length unit l h.len])]
  have := chunks_flatten unit l [] h.len
  rw [List.append_nil] at this
  rw [this]

theorem queryFiller (p0 : ParallelParty box) (F : List Nat) (hF : p0.shuffler.forward = F) :
    Filler (fun ps g => { p0 with pshuffler := ps, outQueries := g }) ParallelParty.queryFrom QRep (fun _ => True) F where
  ps _ _ := rfl
  ps' _ _ _ := rfl
  shuffler _ _ := hF
  own ps g l source x rc target rc' hrep _ hpl ht := by
    refine ⟨{ g with ptr := l.set target x }, ?_, ⟨rfl, by simpa using hrep.cap⟩⟩
    unfold ParallelParty.queryFrom
    simp only
    rw [hpl, bind_ok]
    simp only [Batch.set]
    rw [hrep.ptr, wr_ok ht]
    rfl

theorem cipherFiller (p0 : ParallelParty box) (F : List Nat) (hF : p0.shuffler.forward = F) (unit : Nat) :
    Filler (fun ps g => { p0 with pshuffler := ps, outCiphers := g }) ParallelParty.cipherFrom (CRep unit)
      (fun c => c.length = unit) F where
  ps _ _ := rfl
  ps' _ _ _ := rfl
  shuffler _ _ := hF
  own ps g l source x rc target rc' hrep hx hpl ht := by
    obtain ⟨b', h1, h2⟩ := hrep.set target ht x hx
    refine ⟨b', ?_, h2⟩
    unfold ParallelParty.cipherFrom
    simp only
    rw [hpl, bind_ok]
    simp only
    rw [h1, bind_ok]

end DPPIR.Protocol
