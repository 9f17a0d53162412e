import Verif.Proofs.HostileSiblings
import Verif.Proofs.GridWaves

/-!
# How a backend stops among arbitrary peers, with several servers per party
-/

namespace DPPIR.Protocol
open DPPIR Proc Onion Spec Props Shuffle
variable {box : SealedBox} {ι : Type} [DecidableEq ι]

/-! ### Streams -/

theorem numberAt_append {pos : Nat} {l : List Byte} (h : pos + 4 ≤ l.length) (c : List Byte) : numberAt pos (l ++ c) = numberAt pos l := by
  unfold numberAt
  rw [List.drop_append_of_le_length (by omega), List.take_append_of_le_length (by simp; omega)]

theorem numberAt_natLE (pre : List Byte) (c : Nat) (hc : c < 2 ^ 32) (rest : List Byte) :
    numberAt pre.length (pre ++ (natLE 4 c ++ rest)) = c := by
  unfold numberAt
  rw [List.drop_left, List.take_left' (by simp), natOfLE_natLE]
  exact Nat.mod_eq_of_lt (by norm_num; omega)

theorem secretsAt_eq (pre : List Byte) (xs : List OfflineSecret) (hc : xs.length < 2 ^ 32) (rest : List Byte) :
    secretsAt pre.length (pre ++ (natLE 4 xs.length ++ ((xs.map OfflineSecret.encode).flatten ++ rest))) = xs := by
  unfold secretsAt
  rw [numberAt_natLE _ _ hc]
  have hdrop : ∀ (xs : List OfflineSecret) (rest : List Byte) (i : Nat) (hi : i < xs.length),
      OfflineSecret.decode (((((xs.map OfflineSecret.encode).flatten ++ rest)).drop (secretSize * i)).take secretSize) = xs[i] := by
    intro xs
    induction xs with
    | nil => intro rest i hi; simp at hi
    | cons x xs ih =>
      intro rest i hi
      rw [List.map_cons, List.flatten_cons, List.append_assoc]
      cases i with
      | zero =>
        rw [Nat.mul_zero, List.drop_zero, List.take_left' (OfflineSecret.encode_length x), OfflineSecret.decode_encode]
        rfl
      | succ i =>
        rw [Nat.mul_succ, Nat.add_comm, ← List.drop_drop, List.drop_left' (OfflineSecret.encode_length x)]
        exact ih rest i (by simpa using hi)
  refine List.ext_getElem (by simp) (fun i h1 h2 => ?_)
  rw [List.getElem_map, List.getElem_range, ← List.append_assoc, ← List.drop_drop, List.drop_left' (by simp)]
  exact hdrop xs rest i h2

theorem sumOthers_eq (S me : Nat) (f : Nat → Nat) : sumOthers S me f = preSum (fun s => if s = me then 0 else f s) S := by
  unfold sumOthers
  induction S with
  | zero => rfl
  | succ S ih =>
    rw [preSum_succ, ← ih, List.range_succ, List.filter_append, List.map_append, List.sum_append]
    by_cases h : S = me
    · simp [h]
    · simp [h]

/-! ### Too many secrets -/

/-- The siblings announce, at some position of their streams, numbers that add up to
more than the counters hold. -/
def Over (sib : Nat → ι) (S me : Nat) (own : Nat) (pos : Nat → Nat) (L : ι → List Byte) : Prop :=
  (∀ s, s < S → s ≠ me → pos s + 4 ≤ (L (sib s)).length) ∧ 2 ^ 32 ≤ own + sumOthers S me (fun s => numberAt (pos s) (L (sib s)))

theorem Over.hear {sib : Nat → ι} {S me own : Nat} {pos : Nat → Nat} {L : ι → List Byte} (h : Over sib S me own pos L) (i : ι) (c : List Byte) :
    Over sib S me own pos (hear L i c) := by
  have key : ∀ s, ∃ c', DPPIR.hear L i c (sib s) = L (sib s) ++ c' := by
    intro s
    unfold DPPIR.hear
    by_cases hs : sib s = i
    · rw [hs, Function.update_self]; exact ⟨_, rfl⟩
    · rw [Function.update_of_ne hs]; exact ⟨[], by simp⟩
  refine ⟨?_, ?_⟩
  · intro s h1 h2
    obtain ⟨c', e⟩ := key s
    rw [e, List.length_append]
    have := h.1 s h1 h2
    omega
  · have := h.2
    rw [sumOthers_eq] at this ⊢
    refine this.trans (le_of_eq (congrArg _ (preSum_congr (fun s hs => ?_))))
    by_cases hne : s = me
    · rw [if_pos hne, if_pos hne]
    · rw [if_neg hne, if_neg hne]
      obtain ⟨c', e⟩ := key s
      rw [e, numberAt_append (h.1 s hs hne)]

section
variable {F : (ι → List Byte) → List Obs → Fault → Prop}

theorem Over.any {α : Type} {sib : Nat → ι} {S me own : Nat} {pos : Nat → Nat} (hF : ∀ L h e, Over sib S me own pos L → F L h e) (p : PProc ι Obs α)
    {L : ι → List Byte} {h : List Obs} (h0 : Over sib S me own pos L) : PProc.Heeds F p (fun _ L _ => Over sib S me own pos L) L h :=
  PProc.Heeds.any p (fun L _ => Over sib S me own pos L) (fun L h e h0 => hF L h e h0) (fun _ _ _ _ h => h.hear _ _) (fun _ _ _ h => h) h0

theorem heeds_broadcastSecrets {σ : Type} {idx : ι → Option Nat} {sib : Nat → ι} {S : Nat} (hg : Group idx sib S) (hS : S < 255)
    (me : Nat) (hme : me < S) (items : List OfflineSecret) (store : OfflineSecret → σ → Res σ)
    (hF : ∀ L h, F L h .assertFail) (hfail : ∀ x s e, store x s = .error e → e = .assertFail)
    (Inv : σ → Prop) (Has : σ → OfflineSecret → Prop)
    (hstore : ∀ x s s', store x s = .ok s' → Inv s → Inv s' ∧ Has s' x ∧ ∀ y, Has s y → Has s' y)
    (s0 : σ) (h0 : Inv s0) (L : ι → List Byte) (h : List Obs)
    (hover : ∀ L' h e, Over sib S me 0 (fun s => (L (sib s)).length) L' → F L' h e) :
    PProc.Heeds F (broadcastSecrets me S sib items store s0)
      (fun s' L' h' => Over sib S me 0 (fun s => (L (sib s)).length) L' ∨ h' = h ∧ ∃ xs : Nat → List OfflineSecret,
        (∀ s, s < S → s ≠ me → (xs s).length < 2 ^ 32) ∧
        Heard sib S me L L' (fun s => natLE 4 (xs s).length ++ ((xs s).map OfflineSecret.encode).flatten) ∧ Inv s' ∧ (∀ y, Has s0 y → Has s' y) ∧
        ∀ s, s < S → s ≠ me → ∀ y ∈ xs s, Has s' y) L h := by
  have e : broadcastSecrets me S sib items store s0 =
      (PProc.ofProc (exchangeCounts me S sib (fun _ => .ok (wrap32 items.length)) 0)).bind (broadcastData me S sib items store s0) := rfl
  rw [e]
  refine PProc.Heeds.bind' (heeds_counts hg.inj me S _ (fun _ _ => ⟨_, rfl⟩) 0 L h) ?_
  rintro l L1 h' ⟨rfl, c, c1, rfl, c2⟩
  by_cases h32 : preSum (fun s => if s = me then 0 else c s) S < 2 ^ 32
  · refine (heeds_broadcastData hg hS me hme items store hF hfail Inv Has hstore c h32 s0 h0 L1 _).mono ?_
    rintro s' L2 h2 ⟨rfl, xs, d1, d2, d3, d4, d5⟩
    refine Or.inr ⟨rfl, xs, ?_, ?_, d3, d4, d5⟩
    · intro s h1 h2; rw [d1 s h1 h2]; exact c1 s
    · exact (c2.trans d2).congr (fun s h1 h2 => by rw [d1 s h1 h2])
  · refine (Over.any hover _ ⟨?_, ?_⟩).mono (fun _ _ _ h => Or.inl h)
    · intro s h1 h2
      rw [c2 s h1 h2]
      simp
    · rw [sumOthers_eq, Nat.zero_add]
      refine (Nat.not_lt.1 h32).trans (le_of_eq (preSum_congr (fun s hs => ?_)))
      by_cases hne : s = me
      · rw [if_pos hne, if_pos hne]
      · rw [if_neg hne, if_neg hne, c2 s hs hne]
        have := numberAt_natLE (L (sib s)) (c s) (c1 s) []
        rw [List.append_nil] at this
        exact this.symm

end

/-! ### The backend -/

section
omit [DecidableEq ι]

theorem only_readCount {S : ι → Prop} {s : ι} (hs : S s) : Only S (readCount s : Prog ι Nat) :=
  Only.bind (Only.recvBytes hs 4) (fun _ => trivial)

theorem only_sendReady {S : ι → Prop} (d : ι) : Only S (sendReady d : Prog ι Unit) :=
  Only.sendBytes (O := Obs) (S := S) d [1]

theorem only_pushBuffered {S : ι → Prop} (d : ι) (n : Nat) (w : WBuf) (m : List Byte) : Only S (pushBuffered d n w m) := by
  unfold pushBuffered
  split
  · split
    · exact Only.bind (Only.sendBytes _ _) (fun _ => trivial)
    · trivial
  · trivial

theorem only_install {S : ι → Prop} {back : ι} (hs : S back) (b : Backend box) : Only S (b.collectAndInstallSecrets back) := by
  refine Only.loop (fun j b => ?_) _ _ _
  refine Only.bind (Only.bind (Only.recvBytes hs _) (fun _ => trivial)) (fun c => ?_)
  exact Only.bind (Only.lift _) (fun _ => Only.bind (Only.lift _) (fun _ => Only.bind (S := S) (p := observe _) trivial
    (fun _ => Only.bind (Only.lift _) (fun _ => trivial))))

theorem only_backendOnline {S : ι → Prop} {back : ι} (hs : S back) (b : Backend box) (junk : Response) : Only S (b.startOnline back junk) := by
  refine Only.bind (Only.loop (fun j b => ?_) _ _ _) (fun b => ?_)
  · refine Only.bind (Only.bind (Only.recvBytes hs _) (fun _ => trivial)) (fun c => ?_)
    exact Only.bind (Only.lift _) (fun _ => trivial)
  · refine Only.bind (Only.lift _) (fun qs => Only.bind (Only.each (fun q s => ?_) _ _) (fun s => Only.bind (Only.sendBytes _ _) (fun _ => trivial)))
    refine Only.bind ?_ (fun x => Only.bind (only_pushBuffered _ _ _ _) (fun _ => trivial))
    refine Only.bind (Only.lift _) (fun _ => ?_)
    refine Only.bind (S := S) (p := observe _) trivial (fun _ => ?_)
    exact Only.bind (Only.lift _) (fun _ => Only.bind (Only.lift _) (fun _ => Only.bind (Only.lift _) (fun _ => trivial)))

end

/-- How such a backend may stop. -/
def BackendF (rows : Nat) (offline : Bool) (sib : Nat → ι) (S me : Nat) (L : ι → List Byte) (h : List Obs) (e : Fault) : Prop :=
  e = .assertFail ∨ e = .exception ∨ OutOfRange rows h ∨ offline = true ∧
    (2 ^ 32 ≤ sumOthers S me (fun s => numberAt 0 (L (sib s))) ∨
      ∃ q ∈ queriesRead h, q.tag ∉ (stores h).map OfflineSecret.tag ∧
        ∀ s, s < S → s ≠ me → q.tag ∉ (secretsAt 0 (L (sib s))).map OfflineSecret.tag)

theorem backendF_of_stop {rows : Nat} {offline : Bool} {sib : Nat → ι} {S me : Nat} {L : ι → List Byte} {h : List Obs} {e : Fault}
    (he : Stop (fun _ => False) h e) : BackendF rows offline sib S me L h e := by
  rcases he with he | he | he
  · exact Or.inl he
  · exact Or.inr (Or.inl he)
  · exact he.elim

theorem BackendState.store_err {x : OfflineSecret} {s : BackendState} {e : Fault} (h : s.store x = .error e) : e = .assertFail := by
  unfold BackendState.store at h
  split at h
  · exact (Except.error.inj h).symm
  · cases h

theorem backend_parallel_heeds {idx : ι → Option Nat} {sib : Nat → ι} {S : Nat} (hg : Group idx sib S) (hS : S < 255)
    (me : Nat) (hme : me < S) (b : Backend box) (order : List (BitVec 64 × BackendSecret) → List (BitVec 64 × BackendSecret))
    (back : ι) (hback : ∀ s, sib s ≠ back) (junk : Response) (rows : Nat) (offline online : Bool)
    (hst : b.state = {}) (hdb : b.db = { size := rows, rows := (List.range rows).map Database.row }) :
    PProc.Heeds (BackendF rows offline sib S me) (b.startParallel order me S back sib junk offline online) (fun _ _ _ => True) (fun _ => []) [] := by
  have hs : b.startParallel order me S back sib junk offline online =
      (if offline then b.startOfflineParallel order me S back sib else PProc.ofProc (b.simulateOffline back)).bind
        fun b => if online then (PProc.ofProc (b.startOnline back junk)).bind fun _ => .done () else .done () := by
    unfold Backend.startParallel
    cases offline <;> rfl
  have hA : ∀ (L : ι → List Byte) (h : List Obs), BackendF rows offline sib S me L h .assertFail := fun _ _ => Or.inl rfl
  -- the online stage
  have honl : ∀ (b' : Backend box) (L : ι → List Byte) (h : List Obs) (n : Nat) (xs : Nat → List OfflineSecret), n < 2 ^ 32 →
      b'.queries = Batch.initialize n ⟨0, 0⟩ → b'.db = b.db →
      KnowsB b'.state offline (fun tag => ∃ s, s < S ∧ s ≠ me ∧ tag ∈ (xs s).map OfflineSecret.tag) h →
      (offline = true → ∀ s, s < S → s ≠ me → secretsAt 0 (L (sib s)) = xs s) →
      PProc.Heeds (BackendF rows offline sib S me)
        (if online then (PProc.ofProc (b'.startOnline back junk)).bind fun _ => .done () else .done ()) (fun _ _ _ => True) L h := by
    intro b' L h n xs h1 h2 h3 h4 h5
    cases online with
    | false => trivial
    | true =>
      rw [if_pos rfl]
      refine PProc.Heeds.bind' (PProc.Heeds.ofProc (S := fun j => j = back) (backendOnline_safe b' back junk h n rows h1 h2 (h3.trans hdb) h4)
        (only_backendOnline (S := fun j => j = back) rfl b' junk) ?_) (fun _ _ _ _ => trivial)
      rintro L' h' e hL (he | he | ⟨ho, q, q1, q2, q3⟩ | he)
      · exact Or.inl he
      · exact Or.inr (Or.inl he)
      · refine Or.inr (Or.inr (Or.inr ⟨ho, Or.inr ⟨q, q1, q2, ?_⟩⟩))
        intro s k1 k2 hq
        rw [hL (sib s) (hback s), h5 ho s k1 k2] at hq
        exact q3 ⟨s, k1, k2, hq⟩
      · exact Or.inr (Or.inr (Or.inl he))
  have hbatch : PProc.Heeds (BackendF rows offline sib S me) (PProc.ofProc (b.initializeBatch back)) (fun b' L' h' => (∃ n, n < 2 ^ 32 ∧ Keeps [] h' ∧
        b' = { b with queries := Batch.initialize n ⟨0, 0⟩ }) ∧ SameOff (fun j => j = back) (fun _ => []) L') (fun _ => []) [] := by
    refine PProc.Heeds.ofProc (I := Any) (F0 := Stop (fun _ => False)) (S := fun j => j = back) (Safe.bind' (readCount_safe back) ?_)
      (Only.bind (only_readCount (S := fun j => j = back) rfl) (fun _ => trivial)) (fun _ _ _ _ he => backendF_of_stop he)
    rintro n h' ⟨h1, h2, -⟩
    exact ⟨n, h1, h2, rfl⟩
  have hready : ∀ (L : ι → List Byte) (h : List Obs), PProc.Heeds (BackendF rows offline sib S me) (PProc.ofProc (sendReady back))
      (fun _ L' h' => h' = h ++ [.sendReady] ∧ L' = L) L h := by
    intro L h
    refine (PProc.Heeds.ofProc (S := fun _ => False) (sendReady_safe (B := fun _ => False) back) (only_sendReady back) (fun _ _ _ _ he => backendF_of_stop he)).mono ?_
    rintro - L' h' ⟨h1, h2⟩
    exact ⟨h1, funext (fun j => h2 j (fun h => h))⟩
  rw [hs]
  cases offline with
  | false =>
    rw [if_neg (by simp)]
    unfold Backend.simulateOffline
    rw [Proc.bind_def, PProc.ofProc_bind]
    refine PProc.Heeds.bind (PProc.Heeds.bind' hbatch ?_)
    rintro b1 L1 h1 ⟨⟨n, hn, k1, rfl⟩, -⟩
    simp only [Proc.bind_def, PProc.ofProc_bind]
    refine PProc.Heeds.bind' (hready _ _) ?_
    rintro - L2 h2 ⟨rfl, rfl⟩
    refine honl _ _ _ n (fun _ => []) hn rfl rfl ?_ (by intro h; cases h)
    intro tag ht
    simp [BackendState.initialize] at ht
  | true =>
    rw [if_pos rfl]
    unfold Backend.startOfflineParallel
    simp only [PProc.bind_def]
    refine PProc.Heeds.bind (PProc.Heeds.bind' hbatch ?_)
    rintro b1 L1 h1 ⟨⟨n, hn, k1, rfl⟩, hL1⟩
    refine PProc.Heeds.bind' (hready _ _) ?_
    rintro - L2 h2 ⟨rfl, rfl⟩
    have k2 := k1.trans (Keeps.obs h1 (o := .sendReady) (by simp))
    refine PProc.Heeds.bind' (PProc.Heeds.ofProc (S := fun j => j = back) (backendInstall_safe (B := fun _ => False) _ back _ ?_ ?_)
      (only_install (S := fun j => j = back) rfl _) (fun _ _ _ _ he => backendF_of_stop he)) ?_
    · simp only [hst]; rfl
    · rw [k2.stores]; simp only [hst]; rfl
    rintro b2 L3 h2 ⟨⟨st, rfl, d1, d2⟩, hL3⟩
    have hL : ∀ s, L3 (sib s) = [] := fun s => by rw [hL3 _ (hback s), hL1 _ (hback s)]
    unfold Backend.broadcast
    simp only [PProc.bind_def]
    have hFO : ∀ (L : ι → List Byte) h e, Over sib S me 0 (fun _ => 0) L → BackendF rows true sib S me L h e := by
      intro L h e ho
      have := ho.2
      rw [Nat.zero_add] at this
      exact Or.inr (Or.inr (Or.inr ⟨rfl, Or.inl this⟩))
    have hbc := heeds_broadcastSecrets (F := BackendF rows true sib S me) hg hS me hme
      ((order st.secrets).map (fun s => (⟨s.1, 0, s.2.incremental, s.2.preshare⟩ : OfflineSecret))) (fun s st => BackendState.store st s) hA
      (fun x s e he => BackendState.store_err he) (fun st => st.simulated = false) (fun st y => y.tag ∈ st.secrets.map Prod.fst) (by
        intro x s s' hx hsim
        unfold BackendState.store at hx
        split at hx
        · cases hx
        · obtain rfl := Except.ok.inj hx
          refine ⟨hsim, by simp, fun y hy => ?_⟩
          simp only [List.map_append]
          exact List.mem_append_left _ hy) st d1 L3 h2 (by
        simp only [hL, List.length_nil]
        exact hFO)
    simp only [hL, List.length_nil] at hbc
    refine PProc.Heeds.bind' (R := fun b' L' h' => Over sib S me 0 (fun _ => 0) L' ∨ h' = h2 ∧ ∃ (xs : Nat → List OfflineSecret) (st' : BackendState),
        b' = { b with queries := Batch.initialize n ⟨0, 0⟩, state := st' } ∧ (∀ s, s < S → s ≠ me → (xs s).length < 2 ^ 32) ∧
        Heard sib S me L3 L' (fun s => natLE 4 (xs s).length ++ ((xs s).map OfflineSecret.encode).flatten) ∧ st'.simulated = false ∧
        (∀ y : OfflineSecret, y.tag ∈ st.secrets.map Prod.fst → y.tag ∈ st'.secrets.map Prod.fst) ∧
        ∀ s, s < S → s ≠ me → ∀ y ∈ xs s, y.tag ∈ st'.secrets.map Prod.fst) (PProc.Heeds.bind' hbc ?_) ?_
    · rintro st' L' h' (ho | ⟨rfl, xs, x1, x2, x3, x4, x5⟩)
      · exact Or.inl ho
      · exact Or.inr ⟨rfl, xs, st', rfl, x1, x2, x3, x4, x5⟩
    · rintro b' L4 h4 (ho | ⟨e4, xs, st', rfl, x1, x2, x3, x4, x5⟩)
      · refine (Over.any hFO _ ho).mono (fun a L h ho => ?_)
        exact (Over.any hFO _ ho).mono (fun _ _ _ _ => trivial)
      subst e4
      refine PProc.Heeds.bind' (heeds_barrier hg.inj me S hA L4 _) ?_
      rintro - L5 h5 ⟨rfl, hL5⟩
      refine PProc.Heeds.bind' (hready _ _) ?_
      rintro - L6 h6 ⟨rfl, rfl⟩
      refine honl _ _ _ n xs hn rfl rfl ?_ ?_
      · refine KnowsB.keeps ?_ (Keeps.obs _ (by simp))
        intro tag ht
        simp only [x3] at ht
        have hno := lookup_none_keys _ _ ht
        refine ⟨rfl, ?_, ?_⟩
        · intro hm
          obtain ⟨y, -, rfl⟩ := List.mem_map.1 hm
          rw [← d2] at hm
          exact hno (x4 y hm)
        · rintro ⟨s, k1, k2, hm⟩
          obtain ⟨y, hy, rfl⟩ := List.mem_map.1 hm
          exact hno (x5 s k1 k2 y hy)
      · intro _ s k1 k2
        rw [hL5 s k1 k2, x2 s k1 k2, hL, List.nil_append, List.append_assoc]
        exact secretsAt_eq [] (xs s) (x1 s k1 k2) [1]

end DPPIR.Protocol
