import Verif.Proofs.ReadAhead
import Verif.Proofs.ChainFacts
import Verif.Proofs.GridTags

/-!
# Deployments whose processes read ahead
-/

namespace DPPIR.Protocol
open DPPIR Proc PNet RNet Onion Incremental Additive Spec Props Shuffle

variable {box : SealedBox} {ι σ τ : Type} {links : ι × ι → Prop} {i : ι}

theorem direct_lift {α : Type} (x : Res α) : Direct (O := Obs) links i (PProc.lift x) := Direct.ofProc _

theorem direct_ploop (n j : Nat) (f : Nat → σ → PProg ι σ) (h : ∀ j s, Direct links i (f j s)) (s : σ) :
    Direct links i (ploop n j f s) := by
  induction n generalizing j s with
  | zero => exact .done _
  | succ n ih => exact (h j s).bind (fun a => ih _ _)

theorem direct_readCall (s : ι) (hs : ¬ links (s, i)) (n : Nat) : Direct (O := Obs) links i (PProc.readCall s n) := by
  unfold PProc.readCall
  split
  · exact .done _
  · exact .read hs (fun _ => .done _)

theorem direct_readFrom (X : Exchange ι) (hX : ∀ t, ¬ links (X.sib t, i)) (h : Handlers ι σ τ) (source : Nat) (st : Bool × XState σ) :
    Direct links i (XState.readFrom X h source st) := by
  unfold XState.readFrom
  refine (direct_lift _).bind (fun got => ?_)
  dsimp only
  split
  · exact (direct_readCall _ (hX _) _).bind (fun c => (direct_lift _).bind (fun s => (direct_lift _).bind (fun _ => .done _)))
  · exact .done _

theorem direct_pollRound (X : Exchange ι) (hX : ∀ t, ¬ links (X.sib t, i)) (h : Handlers ι σ τ) (block : Bool) (x : XState σ) :
    Direct links i (x.pollRound X h block) := by
  unfold XState.pollRound
  refine Direct.bind ?_ (fun r => direct_ploop _ _ _ (fun j s => ?_) _)
  · refine .poll (fun s hs => ?_) (fun _ => .done _)
    obtain ⟨t, -, rfl⟩ := List.mem_map.1 hs
    exact hX t
  · split
    · exact direct_readFrom X hX h _ _
    · exact .done _

theorem direct_drain (X : Exchange ι) (hX : ∀ t, ¬ links (X.sib t, i)) (h : Handlers ι σ τ) (fuel : Nat) (x : XState σ) :
    Direct links i (x.drain X h fuel) := by
  induction fuel generalizing x with
  | zero => exact .fault _
  | succ fuel ih =>
    unfold XState.drain
    refine (direct_pollRound X hX h _ _).bind (fun a => ?_)
    dsimp only
    split
    · exact ih _
    · exact .done _

theorem direct_sendLoop (X : Exchange ι) (hX : ∀ t, ¬ links (X.sib t, i)) (h : Handlers ι σ τ) (rate fuel : Nat) (items : List τ) (x : XState σ) :
    Direct links i (x.sendLoop X h rate fuel items) := by
  induction fuel generalizing items x with
  | zero =>
    cases items with
    | nil => exact .done _
    | cons _ _ => exact .fault _
  | succ fuel ih =>
    cases items with
    | nil => exact .done _
    | cons t ts =>
      unfold XState.sendLoop
      refine (Direct.ofProc _).bind (fun x => ?_)
      dsimp only
      split
      · exact ih _ _
      · exact (direct_drain X hX h _ _).bind (fun x => ih _ _)

theorem direct_finish (X : Exchange ι) (hX : ∀ t, ¬ links (X.sib t, i)) (h : Handlers ι σ τ) (fuel : Nat) (x : XState σ) :
    Direct links i (x.finish X h fuel) := by
  induction fuel generalizing x with
  | zero =>
    unfold XState.finish
    split
    · exact .fault _
    · exact .done _
  | succ fuel ih =>
    unfold XState.finish
    split
    · exact (direct_pollRound X hX h _ _).bind (fun a => ih _)
    · exact .done _

theorem direct_sendAndPoll (X : Exchange ι) (hX : ∀ t, ¬ links (X.sib t, i)) (h : Handlers ι σ τ) (items : List τ) (n : Nat) (s : σ) :
    Direct links i (sendAndPoll X h items n s) := by
  unfold sendAndPoll
  exact (direct_lift _).bind (fun _ => (direct_sendLoop X hX h _ _ _ _).bind (fun _ => (Direct.ofProc _).bind
    (fun _ => (direct_finish X hX h _ _).bind (fun _ => .done _))))

theorem direct_broadcast (me servers : Nat) (sib : Nat → ι) (hX : ∀ t, ¬ links (sib t, i)) (items : List OfflineSecret)
    (store : OfflineSecret → σ → Res σ) (s : σ) : Direct links i (broadcastSecrets me servers sib items store s) := by
  unfold broadcastSecrets
  exact (Direct.ofProc _).bind (fun _ => direct_sendAndPoll _ hX _ _ _ _)

section
variable (sib : Nat → ι) (hX : ∀ t, ¬ links (sib t, i)) (rand : ParallelRand box) (back next : ι)
include hX

theorem direct_shuffleCiphers (p : ParallelParty box) : Direct links i (p.shuffleCiphers sib) := by
  unfold ParallelParty.shuffleCiphers
  exact (direct_lift _).bind (fun _ => (direct_lift _).bind (fun _ => (direct_sendAndPoll _ hX _ _ _ _).bind
    (fun _ => (Direct.ofProc _).bind (fun _ => .done _))))

theorem direct_shuffleQueries (p : ParallelParty box) : Direct links i (p.shuffleQueries sib) := by
  unfold ParallelParty.shuffleQueries
  exact (direct_lift _).bind (fun _ => (direct_lift _).bind (fun _ => (direct_sendAndPoll _ hX _ _ _ _).bind
    (fun _ => (Direct.ofProc _).bind (fun _ => .done _))))

theorem direct_deshuffleResponses (p : ParallelParty box) : Direct links i (p.deshuffleResponses sib) := by
  unfold ParallelParty.deshuffleResponses
  exact (direct_lift _).bind (fun _ => (direct_lift _).bind (fun _ => (direct_lift _).bind (fun _ =>
    (direct_sendAndPoll _ hX _ _ _ _).bind (fun _ => (Direct.ofProc _).bind (fun _ => .done _)))))

omit hX in
theorem direct_initializeCounts (p : ParallelParty box) : Direct links i (p.initializeCounts back next sib) := by
  unfold ParallelParty.initializeCounts
  exact (Direct.ofProc _).bind (fun _ => (Direct.ofProc _).bind (fun _ => (Direct.ofProc _).bind (fun _ => .done _)))

omit hX in
theorem direct_initializeShufflers (p : ParallelParty box) : Direct links i (p.initializeShufflers rand sib) := by
  unfold ParallelParty.initializeShufflers
  exact (direct_lift _).bind (fun _ => (direct_lift _).bind (fun _ => (direct_lift _).bind (fun _ =>
    (Direct.ofProc _).bind (fun _ => (direct_lift _).bind (fun _ => .done _)))))

omit hX in
theorem direct_relayReady (p : ParallelParty box) : Direct links i (p.relayReady back next sib) := by
  unfold ParallelParty.relayReady
  exact (Direct.ofProc _).bind (fun _ => (Direct.ofProc _).bind (fun _ => Direct.ofProc _))

theorem direct_startOffline (p : ParallelParty box) : Direct links i (p.startOffline rand back next sib) := by
  unfold ParallelParty.startOffline
  exact (direct_lift _).bind (fun _ => (direct_initializeCounts _ _ _ _).bind (fun _ => (direct_lift _).bind (fun _ =>
    (direct_relayReady _ _ _ _).bind (fun _ => (Direct.ofProc _).bind (fun _ => (Direct.ofProc _).bind (fun _ =>
    (direct_initializeShufflers _ _ _).bind (fun _ => (Direct.ofProc _).bind (fun _ => (direct_shuffleCiphers _ hX _).bind (fun _ =>
    (Direct.ofProc _).bind (fun _ => Direct.bind (by
      unfold ParallelParty.broadcast
      exact (direct_broadcast _ _ _ hX _ _ _).bind (fun _ => .done _)) (fun _ =>
    (direct_initializeShufflers _ _ _).bind (fun _ => (direct_lift _).bind (fun _ => (direct_relayReady _ _ _ _).bind (fun _ => .done _))))))))))))))

omit hX in
theorem direct_simulateOffline (p : ParallelParty box) : Direct links i (p.simulateOffline rand back next sib) := by
  unfold ParallelParty.simulateOffline
  exact (direct_lift _).bind (fun _ => (direct_initializeCounts _ _ _ _).bind (fun _ => (direct_initializeShufflers _ _ _).bind (fun _ =>
    (direct_lift _).bind (fun _ => (direct_relayReady _ _ _ _).bind (fun _ => .done _)))))

theorem direct_startOnline (p : ParallelParty box) : Direct links i (p.startOnline back next sib) := by
  unfold ParallelParty.startOnline
  exact (Direct.ofProc _).bind (fun _ => (Direct.ofProc _).bind (fun _ => (direct_shuffleQueries _ hX _).bind (fun _ =>
    (Direct.ofProc _).bind (fun _ => (Direct.ofProc _).bind (fun _ => (direct_deshuffleResponses _ hX _).bind (fun _ =>
    (Direct.ofProc _).bind (fun _ => (Direct.ofProc _).bind (fun _ => .done _))))))))

theorem direct_start (p : ParallelParty box) (offline online : Bool) : Direct links i (p.start rand back next sib offline online) := by
  unfold ParallelParty.start
  have hon : ∀ p : ParallelParty box, Direct links i (if online = true then (do let _ ← p.startOnline back next sib; pure ()) else pure ()) := by
    intro p
    split
    · exact (direct_startOnline _ hX _ _ _).bind (fun _ => .done _)
    · exact .done _
  dsimp only
  split
  · exact (direct_startOffline _ hX _ _ _ _).bind hon
  · exact (direct_simulateOffline _ _ _ _ _).bind hon

theorem direct_backend (b : Backend box) (order : List (BitVec 64 × BackendSecret) → List (BitVec 64 × BackendSecret)) (me servers : Nat)
    (junk : Response) (offline online : Bool) : Direct links i (b.startParallel order me servers back sib junk offline online) := by
  unfold Backend.startParallel
  have hon : ∀ b : Backend box, Direct links i (if online = true then (do let _ ← PProc.ofProc (b.startOnline back junk); pure ()) else pure ()) := by
    intro p
    split
    · exact (Direct.ofProc _).bind (fun _ => .done _)
    · exact .done _
  dsimp only
  split
  · refine Direct.bind ?_ hon
    unfold Backend.startOfflineParallel
    exact (Direct.ofProc _).bind (fun _ => (Direct.ofProc _).bind (fun _ => (Direct.ofProc _).bind (fun _ =>
      Direct.bind (by
        unfold Backend.broadcast
        exact (direct_broadcast _ _ _ hX _ _ _).bind (fun _ => .done _)) (fun _ =>
      (Direct.ofProc _).bind (fun _ => (Direct.ofProc _).bind (fun _ => .done _))))))
  · exact (Direct.ofProc _).bind hon

end

/-! ### The whole deployment, several servers per party -/

namespace Grid

theorem direct_prog (g : Grid box) (offline online : Bool) (j : Node) :
    Direct (fun x : Node × Node => x.1.1 ≠ x.2.1) j (g.prog offline online j) := by
  unfold prog
  split
  · split
    · exact Direct.ofProc _
    · split
      · unfold party
        refine (direct_lift _).bind (fun _ => (direct_lift _).bind (fun _ => direct_start _ (fun t => ?_) _ _ _ _ _ _))
        simp only [ne_eq, not_not]
        omega
      · split
        · unfold backend
          refine (direct_lift _).bind (fun _ => (direct_lift _).bind (fun _ => (direct_lift _).bind (fun _ =>
            direct_backend _ (fun t => ?_) _ _ _ _ _ _ _ _)))
          simp only [ne_eq, not_not]
          omega
        · exact .done _
  · exact .done _

theorem every_run_ahead {g : Grid box} (h : g.Valid) (offline online : Bool) (hd : offline = true → g.DistinctTags)
    (cap : Node × Node → Nat) :
    (∀ n, RNet.Reach (fun x => x.1.1 ≠ x.2.1) cap (RNet.start (g.prog offline online)) n →
      (∀ i, ¬ n.Faulted i) ∧
      (∀ i s, s < g.servers → n.seen (i, s) <+: g.obsAll offline online i s) ∧
      (∀ i s, s < g.servers → n.Returned (i, s) () → n.seen (i, s) = g.obsAll offline online i s) ∧
      (g.Roomy cap → n.CanStep (fun x => x.1.1 ≠ x.2.1) cap ∨
        (∀ i, n.Returned i ()) ∧ (∀ c, n.chan c = []) ∧ ∀ c, n.ahead c = [])) ∧
    (∀ f : Nat → RNet Node Obs Unit, f 0 = RNet.start (g.prog offline online) →
      ¬ ∀ k, ∃ i, RNet.Step (fun x => x.1.1 ≠ x.2.1) cap i (f k) (f (k + 1))) := by
  obtain ⟨L, h1, h2, h3⟩ := all_do h offline online hd
  obtain ⟨cap', hc'⟩ := exists_roomy g
  refine ⟨fun n hn => ?_, fun f hf => ?_⟩
  · obtain ⟨a1, a2, a3, a4⟩ := RNet.script_net (script_ok h hc' offline online) h1 h2 (g.direct_prog offline online) hn
    refine ⟨a1, fun i s hs => ?_, fun i s hs hr => ?_, fun hc => ?_⟩
    · unfold obsAll
      rw [← h3 i s hs]
      exact a2 (i, s)
    · unfold obsAll
      rw [← h3 i s hs]
      exact (a3 (i, s) () hr).2
    · refine (a4 (script_ok h hc offline online)).imp id (fun b => ⟨fun i => ?_, b.2⟩)
      obtain ⟨a, ha⟩ := b.1 i
      exact ha
  · exact RNet.no_infinite_run ((Finset.range (g.parties + 1)) ×ˢ (Finset.range g.servers)) f
      (fun i hi => ⟨(), by rw [hf]; exact prog_out h offline online i hi⟩)

end Grid

/-! ### The whole deployment, one server per party -/

namespace Chain

theorem proj_msgs {ι O : Type} [DecidableEq ι] (i : ι) (G : List (ι × ι × Byte)) (hG : ∀ g ∈ G, g.1 ≠ g.2.1) :
    (PNet.proj i (G.map (fun g => GSeg.msg g.1 g.2.1 g.2.2)) : List (Seg ι O)) = (Net.proj i G).map Seg.act := by
  induction G with
  | nil => rfl
  | cons g G ih =>
    have h1 := hG g (by simp)
    have h2 := ih (fun g hg => hG g (by simp [hg]))
    simp only [PNet.proj, Net.proj, List.map_cons, List.flatMap_cons, List.map_append] at h2 ⊢
    rw [h2]
    congr 1
    unfold PNet.proj1
    by_cases e1 : g.1 = i
    · have e2 : g.2.1 ≠ i := by rintro e; exact h1 (e1.trans e.symm)
      simp [e1, e2]
    · by_cases e2 : g.2.1 = i
      · simp [e1, e2, Ne.symm e1]
      · simp [e1, e2, Ne.symm e1, Ne.symm e2]

theorem every_run_ahead {c : Chain box} (h : c.Valid) (offline online : Bool) (cap : Nat × Nat → Nat)
    (hcap : ∀ k < c.parties, 0 < cap (k, k + 1) ∧ 0 < cap (k + 1, k)) :
    (∀ n, RNet.Reach (fun _ => True) cap (RNet.start (fun i => PProc.ofProc (c.prog offline online i))) n →
      (∀ i, ¬ n.Faulted i) ∧ (∀ i, n.seen i <+: c.obsAll offline online i) ∧
      (∀ i, n.Returned i () → n.seen i = c.obsAll offline online i) ∧
      (n.CanStep (fun _ => True) cap ∨ (∀ i, n.Returned i ()) ∧ (∀ x, n.chan x = []) ∧ ∀ x, n.ahead x = [])) ∧
    (∀ f : Nat → RNet Nat Obs Unit, f 0 = RNet.start (fun i => PProc.ofProc (c.prog offline online i)) →
      ¬ ∀ k, ∃ i, RNet.Step (fun _ => True) cap i (f k) (f (k + 1))) := by
  choose pre post hd hout using proc_does h offline online
  have hadj : ∀ g ∈ c.script offline online, g.1 ≠ g.2.1 := by
    intro g hg
    rcases c.script_adjacent offline online g hg with h | h <;> omega
  have hok : ∀ g ∈ (c.script offline online).map (fun g => GSeg.msg g.1 g.2.1 g.2.2), GSeg.Ok cap g := by
    intro g hg
    obtain ⟨g', hg', rfl⟩ := List.mem_map.1 hg
    refine ⟨hadj g' hg', ?_⟩
    rcases c.script_adjacent offline online g' hg' with ⟨e, hk⟩ | ⟨e, hk⟩
    · rw [e]
      exact (hcap _ hk).1
    · rw [e]
      exact (hcap _ hk).2
  have hobs : ∀ i, segObs ((pre i ++ post i).map Seg.act) = c.obsAll offline online i := by
    intro i
    rw [segObs_acts, obsOf_append, (hd i).obsPre, (hd i).obsPost]
    rfl
  refine ⟨fun n hn => ?_, fun f hf => ?_⟩
  · obtain ⟨a1, a2, a3, a4⟩ := RNet.script_net (cap := cap) hok (L := fun i => (pre i ++ post i).map Seg.act)
      (fun i => PProc.Does.ofProc (hd i).runs) (fun i => by
        rw [segComm_acts, proj_msgs i _ hadj, proj_script, comm_append, (hd i).commPre, (hd i).commPost])
      (fun i => Direct.ofProc _) hn
    refine ⟨a1, fun i => hobs i ▸ a2 i, fun i hi => hobs i ▸ (a3 i () hi).2, (a4 hok).imp id (fun b => ⟨fun i => ?_, b.2⟩)⟩
    obtain ⟨a, ha⟩ := b.1 i
    exact ha
  · refine RNet.no_infinite_run (Finset.range (c.parties + 1)) f (fun i hi => ⟨(), ?_⟩)
    rw [hf]
    have := h.parties
    simp only [Finset.mem_range] at hi
    show PProc.ofProc (c.prog offline online i) = _
    unfold prog
    rw [if_neg (show ¬ i = 0 by omega), if_neg (show ¬ i < c.parties by omega), if_neg (show ¬ i = c.parties by omega)]
    rfl

end Chain

end DPPIR.Protocol
