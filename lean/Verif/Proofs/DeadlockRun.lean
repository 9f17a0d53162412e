import Verif.Proofs.Deadlock
import Verif.Proofs.BroadcastRun

/-!
# Exchanges of two servers that get stuck
-/

namespace DPPIR.Protocol
open DPPIR Proc PNet Onion Shuffle Spec

variable {box : SealedBox}

theorem toOne_all (os : List (Nat × Byte)) (t : Nat) (h : ∀ o ∈ os, o.1 = t) : (toOne t os).length = os.length := by
  unfold toOne
  induction os with
  | nil => rfl
  | cons o os ih =>
    have : o.1 = t := h o List.mem_cons_self
    simp only [List.filterMap_cons, this, if_true, List.length_cons]
    rw [ih (fun o ho => h o (List.mem_cons_of_mem _ ho))]

/-- In a round of two servers everything goes to the other one. -/
theorem two_all {S : Nat} (h2 : S = 2) {outs : Nat → List (Nat × Byte)} (h : OutsOk S outs) {s t : Nat} (hs : s < 2) (ht : t < 2) (hst : s ≠ t) :
    ∀ o ∈ outs s, o.1 = t := by
  intro o ho
  have := h s (by omega) o ho
  omega

theorem two_map {S : Nat} (h2 : S = 2) {outs : Nat → List (Nat × Byte)} (h : OutsOk S outs) {s t : Nat} (hs : s < 2) (ht : t < 2) (hst : s ≠ t) :
    (∀ o ∈ (outs s).map (fun o => (o.1, o.2)), o.1 = t) ∧ ((outs s).map (fun o => (o.1, o.2))).length = (toOne t (outs s)).length := by
  constructor
  · intro o ho
    obtain ⟨o', ho', rfl⟩ := List.mem_map.1 ho
    exact two_all h2 h hs ht hst o' ho'
  · rw [List.length_map, toOne_all _ _ (two_all h2 h hs ht hst)]

/-- Servers that broadcast to one another can get stuck. -/
theorem casting_blocks {σ V α : Type} {B : BStore σ V} {items : Nat → List OfflineSecret} {s0 : Nat → σ} {put : Nat → σ → α}
    {prog : Nat → α → PProg Nat α} {p : Nat → α} (h : Casting B 2 items s0 put prog p)
    (hnd : (((List.range 2).flatMap (fun s => B.get (s0 s))).map Prod.fst).Nodup) (cap : Nat × Nat → Nat)
    (h4 : 4 ≤ cap (0, 1) ∧ 4 ≤ cap (1, 0))
    (h0 : cap (0, 1) < (items 0).length * secretSize) (h1 : cap (1, 0) < (items 1).length * secretSize) :
    ∃ n, Reach cap (Spec.servers 2 prog p) n ∧ ¬ CanStep cap n ∧
      (∃ b k, n.proc 0 = .send 1 b k) ∧ (∃ b k, n.proc 1 = .send 0 b k) := by
  have hone : ∀ s, s < 2 → (items s).length < 2 ^ 32 := by
    intro s hs
    have := preSum_mono (fun s => (items s).length) (show s + 1 ≤ 2 by omega)
    rw [preSum_succ] at this
    have := h.total
    omega
  let pre : Nat → PProc Nat Obs (List Nat) := fun s =>
    if s < 2 then PProc.ofProc (exchangeCounts s 2 (fun s => s) (fun _ => .ok (wrap32 (items s).length)) 0) else .done []
  let f : Nat → List Nat → PProc Nat Obs α := fun s counts =>
    if s < 2 then (broadcastData s 2 (fun s => s) (items s) B.store (s0 s) counts).bind (fun st => .done (put s st)) else .done (p s)
  have e : Spec.servers 2 prog p = PNet.start (fun s => (pre s).bind (f s)) := by
    unfold Spec.servers
    congr 1
    funext s
    show _ = (if s < 2 then _ else _ : PProc Nat Obs (List Nat)).bind (f s)
    by_cases hs : s < 2
    · have ef : f s = fun counts => (broadcastData s 2 (fun s => s) (items s) B.store (s0 s) counts).bind (fun st => .done (put s st)) := by
        funext counts
        exact if_pos hs
      rw [if_pos hs, if_pos hs, h.prog s hs, ef, ← PProc.bind_assoc]
      rfl
    · rw [if_neg hs, if_neg hs]
      exact (if_neg hs).symm
  rw [e]
  have hb := bcastRound_ok 2 items
  have m0 := two_map rfl hb (s := 0) (t := 1) (by decide) (by decide) (by decide)
  have m1 := two_map rfl hb (s := 1) (t := 0) (by decide) (by decide) (by decide)
  have hdata : ∀ s, s < 2 → ∀ a, (s < 2 → a = tab 2 (fun t => if t = s then 0 else (items t).length)) →
      PProc.Does (fun _ => True) (f s a) [rseg (natIdx 2) (fun s => s) (bcastRound 2 items) s] := by
    intro s hs a ha
    obtain rfl := ha hs
    show PProc.Does _ (if s < 2 then _ else _) _
    rw [if_pos hs]
    refine PProc.Does.bind' (broadcastData_does (natGroup 2) (by decide) s hs items B.store
      (fun r st => B.K st ∧ (B.get st).Perm (B.get (s0 s) ++ others 2 s (fun i => ((items i).take (r i)).map B.ent))) ((preSum_others_le _ _ _).trans_lt h.total) ?_ (s0 s) ?_)
      (M := []) ?_ rfl
    · refine broadcast_union_step B.store B.get B.ent B.K B.hent B.fresh 2 s items (s0 s) ?_
      rw [((h.perm hs).map Prod.fst).nodup_iff]
      exact hnd
    · refine ⟨h.K s hs, ?_⟩
      have : others 2 s (fun i => ((items i).take ((fun _ => 0) i : Nat)).map B.ent) = [] := by
        unfold others
        simp
      rw [this, List.append_nil]
    · rintro st -
      exact .done trivial
  refine blocks_after (G := [groupRound (natIdx 2) (fun s => s) (bcastCounts 2 items)])
    (L := fun s => proj s [groupRound (natIdx 2) (fun s => s) (bcastCounts 2 items)])
    (Q' := fun s l => s < 2 → l = tab 2 (fun t => if t = s then 0 else (items t).length)) (Q := fun _ _ => True) ?_ ?_
    (fun k => proj_comm k _) (i := 0) (j := 1) (by decide) ?_ (hdata 0 (by decide)) (hdata 1 (by decide)) m0.1 m1.1 ?_ ?_
  · intro g hg
    rw [List.mem_singleton.1 hg]
    refine groupRound_ok (natGroup 2) (castOut_ok _ _) ?_
    intro s t hs ht
    rw [toOne_cast]
    split
    · rename_i hst
      rw [countMsg, natLE_length]
      have : (s = 0 ∧ t = 1) ∨ (s = 1 ∧ t = 0) := by omega
      rcases this with ⟨rfl, rfl⟩ | ⟨rfl, rfl⟩
      · exact h4.1
      · exact h4.2
    · simp
  · intro s
    show PProc.Does _ (if s < 2 then _ else _) (List.flatMap _ _)
    rw [List.flatMap_singleton]
    by_cases hs : s < 2
    · rw [if_pos hs, proj1_round (natGroup 2) _ hs]
      exact (counts_does (natGroup 2) hs (fun s _ => (items s).length) (fun s t hs _ => hone s hs)
        (fun _ => .ok (wrap32 (items s).length)) (fun t _ _ => by rw [wrap32_of_lt (hone s hs)]) 0 (fun _ => false)).mono (fun l hl _ => hl)
    · rw [if_neg hs, proj1_round_none _ (by simp [natIdx, hs])]
      exact .done (fun h => absurd h hs)
  · intro k h0 h1
    exact ⟨[], if_neg (by omega)⟩
  · rw [m0.2, m1.2, bcastRound_to _ _ _ _ (by decide) (by decide), bcastRound_to _ _ _ _ (by decide) (by decide),
      flatten_encode_length, flatten_encode_length]
    exact ⟨h0, h1⟩
  · intro k h0 h1 a
    exact ⟨p k, if_neg (by omega)⟩

theorem flatten_map_length {τ : Type} (encode : τ → List Byte) (unit : Nat) (l : List τ) (h : ∀ x ∈ l, (encode x).length = unit) :
    ((l.map encode).flatten).length = l.length * unit := by
  induction l with
  | nil => simp
  | cons x l ih =>
    rw [List.map_cons, List.flatten_cons, List.length_append, ih (fun y hy => h y (List.mem_cons_of_mem _ hy)), h x List.mem_cons_self,
      List.length_cons, Nat.succ_mul, Nat.add_comm]

theorem occ_count {l : List Nat} {t k a : Nat} (h : IsKthOcc l t k a) : k < l.count t := by
  obtain ⟨h1, h2⟩ := h
  obtain ⟨ha, rfl⟩ := List.getElem?_eq_some_iff.1 h1
  have : (l.take (a + 1)).count l[a] ≤ l.count l[a] := (List.take_sublist _ _).count_le _
  rw [List.take_succ_eq_append_getElem ha, List.count_append, h2] at this
  simp at this
  omega

/-- Two servers that shuffle queries can get stuck. -/
theorem queries_block {d : Deal} (h : DealOk d) (h2 : d.servers = 2) (rand : Nat → ParallelRand box)
    (hr : ∀ s, s < d.servers → (rand s).rand = d.gen)
    (p : Nat → ParallelParty box) (hp : ∀ s, s < d.servers → d.Ready s (p s)) (batch : Nat → List Query)
    (hb : ∀ s, s < d.servers → (p s).queries.elements = .ok (batch s) ∧ (batch s).length = d.counts.getD s 0)
    (cap : Nat × Nat → Nat) (h4 : 4 ≤ cap (0, 1) ∧ 4 ≤ cap (1, 0))
    (h0 : cap (0, 1) < (d.dests 0).count 1 * querySize) (h1 : cap (1, 0) < (d.dests 1).count 0 * querySize) :
    ∃ n, Reach cap (siblings d.servers (fun s => queryShuffle (rand s)) p) n ∧ ¬ CanStep cap n ∧
      (∃ b k, n.proc 0 = .send 1 b k) ∧ (∃ b k, n.proc 1 = .send 0 b k) := by
  let pre : Nat → PProc Nat Obs (ParallelParty box) := fun s =>
    if s < d.servers then (p s).initializeShufflers (rand s) (fun s => s) else .done (p s)
  let f : Nat → ParallelParty box → PProc Nat Obs (ParallelParty box) := fun s p =>
    if s < d.servers then p.shuffleQueries (fun s => s) else .done p
  have e : siblings d.servers (fun s => queryShuffle (rand s)) p = PNet.start (fun s => (pre s).bind (f s)) := by
    unfold siblings
    congr 1
    funext s
    show _ = (if s < d.servers then _ else _ : PProc Nat Obs (ParallelParty box)).bind (f s)
    by_cases hs : s < d.servers
    · have ef : f s = fun p => p.shuffleQueries (fun s => s) := by
        funext q
        exact if_pos hs
      rw [if_pos hs, if_pos hs, ef]
      rfl
    · rw [if_neg hs, if_neg hs]
      exact (if_neg hs).symm
  rw [e]
  have hout : OutsOk d.servers (queryRound d.servers d.dests batch) := routed_outsOk _ _ _ _ _ h.routing
  have l0 : 0 < d.servers := by omega
  have l1 : 1 < d.servers := by omega
  have m0 := two_map h2 hout (s := 0) (t := 1) (by decide) (by decide) (by decide)
  have m1 := two_map h2 hout (s := 1) (t := 0) (by decide) (by decide) (by decide)
  have hlen : ∀ s, s < d.servers → (batch s).length = (d.dests s).length := by
    intro s hs; rw [h.length hs, (hb s hs).2]
  let Q' : Nat → ParallelParty box → Prop := fun s a => s < d.servers → ∃ ps, Planned d.servers d.dests s (d.noise s) ps ∧ a = { p s with
        pshuffler := ps
        noiseFrom := tab d.servers (noiseTo d.dests d.noise s)
        noisePrefix := tab d.servers (fun t => preSum (noiseTo d.dests d.noise s) (t + 1))
        shuffler := d.local s }
  have hdata : ∀ s, s < d.servers → ∀ a, Q' s a →
      PProc.Does (fun _ => True) (f s a) [rseg (natIdx d.servers) (fun s => s) (queryRound d.servers d.dests batch) s,
        rseg (natIdx d.servers) (fun s => s) (castOut d.servers readyMsg) s] := by
    intro s hs a ha
    obtain ⟨ps, hps, hp'⟩ := ha hs
    show PProc.Does _ (if s < d.servers then _ else _) _
    rw [if_pos hs]
    exact (shuffleQueries_does (natGroup d.servers) (by omega) a s hs d.dests h.routing batch hlen (d.noise s)
      (by rw [hp']; exact (hp s hs).id) (by rw [hp']; exact (hp s hs).count) (by rw [hp']; exact hps) (d.local s).backward
      (by rw [hp']; exact (h.shuffler hs).2) (by rw [hp']; exact (h.counted hs (hp s hs)).slice) (by rw [hp']; exact (hb s hs).1)).mono
      (fun _ _ => trivial)
  have hsel : ∀ s t, s < d.servers → t < d.servers → t ≠ s →
      (toOne t (queryRound d.servers d.dests batch s)).length = (d.dests s).count t * querySize := by
    intro s t hs ht hst
    unfold queryRound
    rw [routedBytes_to _ _ _ _ _ _ _ ht hst, flatten_map_length _ querySize _ (fun x _ => Query.encode_length x),
      selTo_length _ _ _ (hlen s hs).symm]
  refine blocks_after (G := [groupRound (natIdx d.servers) (fun s => s) (noiseRound d.servers d.dests d.noise)])
    (L := fun s => proj s [groupRound (natIdx d.servers) (fun s => s) (noiseRound d.servers d.dests d.noise)])
    (Q' := Q') (Q := fun _ _ => True) ?_ ?_
    (fun k => proj_comm k _) (i := 0) (j := 1) (by decide) ?_ (hdata 0 l0) (hdata 1 l1) m0.1 m1.1 ?_ ?_
  · intro g hg
    rw [List.mem_singleton.1 hg]
    refine groupRound_ok (natGroup _) (castOut_ok _ _) ?_
    intro s t hs ht
    rw [toOne_cast]
    split
    · rename_i hst
      rw [countMsg, natLE_length]
      rw [h2] at hs ht
      have : (s = 0 ∧ t = 1) ∨ (s = 1 ∧ t = 0) := by omega
      rcases this with ⟨rfl, rfl⟩ | ⟨rfl, rfl⟩
      · exact h4.1
      · exact h4.2
    · simp
  · intro s
    show PProc.Does _ (if s < d.servers then _ else _) (List.flatMap _ _)
    rw [List.flatMap_singleton]
    by_cases hs : s < d.servers
    · rw [if_pos hs, proj1_round (natGroup _) _ hs]
      have hi := initializeShufflers_does (natGroup d.servers) (rand s) (p s) s hs d.seed (d.localSeed s) d.counts d.noise
        (sliceOf d.servers d.dests s) rfl h.small (by rw [hr s hs]; rfl) (h.counted hs (hp s hs))
      rw [hr s hs] at hi
      refine hi.mono ?_
      rintro p' ⟨ps, -, hps, hp'⟩ -
      exact ⟨ps, hps, hp'⟩
    · rw [if_neg hs, proj1_round_none _ (by simp [natIdx, hs])]
      exact .done (fun h => absurd h hs)
  · intro k h0 h1
    exact ⟨p k, if_neg (by omega)⟩
  · rw [m0.2, m1.2, hsel 0 1 l0 l1 (by decide), hsel 1 0 l1 l0 (by decide)]
    exact ⟨h0, h1⟩
  · intro k h0 h1 a
    exact ⟨a, if_neg (by omega)⟩

end DPPIR.Protocol
