import Verif.Proofs.ParallelShuffleRun

/-!
# Broadcasting secrets among the servers of a party
-/

namespace DPPIR.Protocol
open DPPIR Proc PNet Onion Shuffle Spec

variable {ι σ : Type} [DecidableEq ι]

/-- The messages with which server `me` tells one secret to servers `i, …, i + n - 1`. -/
def castMsgs (me n i : Nat) (b : List Byte) : List (Nat × List Byte) :=
  (List.range' i n).flatMap (fun t => if t ≠ me then [(t, b)] else [])

theorem castMsgs_to (me n i : Nat) (b : List Byte) (t : Nat) (h1 : i ≤ t) (h2 : t < i + n) (ht : t ≠ me) :
    (castMsgs me n i b).flatMap (fun o => if o.1 = t then o.2 else []) = b := by
  have key : ∀ n i, (castMsgs me n i b).flatMap (fun o => if o.1 = t then o.2 else []) = if i ≤ t ∧ t < i + n then b else [] := by
    intro n
    induction n with
    | zero => intro i; simp [castMsgs]
    | succ n ih =>
      intro i
      have e : castMsgs me (n + 1) i b = (if i ≠ me then [(i, b)] else []) ++ castMsgs me n (i + 1) b := by
        simp [castMsgs, List.range'_succ]
      rw [e, List.flatMap_append, ih]
      by_cases hi : i = t
      · subst hi
        simp [ht]
      · by_cases hm : i = me
        · rw [if_neg (by simp [hm])]
          simp only [List.flatMap_nil, List.nil_append]
          congr 1
          simp only [eq_iff_iff]
          omega
        · simp only [ne_eq, hm, not_false_eq_true, if_true, List.flatMap_cons, List.flatMap_nil, hi, if_false, List.append_nil,
            List.nil_append]
          congr 1
          simp only [eq_iff_iff]
          omega
  rw [key, if_pos ⟨h1, h2⟩]

theorem castMsgs_mem (me n i : Nat) (b : List Byte) : ∀ o ∈ castMsgs me n i b, o.1 < i + n ∧ o.1 ≠ me := by
  intro o ho
  obtain ⟨t, h1, h2⟩ := List.mem_flatMap.1 ho
  split at h2
  · rename_i hne
    rw [List.mem_singleton] at h2
    subst h2
    rw [List.mem_range'_1] at h1
    exact ⟨h1.2, hne⟩
  · cases h2

theorem broadcastLoop_ok (X : Exchange ι) (h0 : 0 < X.unit) (hb : X.unit ≤ Sockets.bufferSize) (b : List Byte) (n : Nat) :
    ∀ (i : Nat) (x : XState σ), (∀ t, (x.wbuf t).Room X.unit) →
      Runs (loop n i (fun id x => if id ≠ X.me then x.sendTo X id b else .done x) x)
        ((emits (Sockets.bufferSize / X.unit) x.wbuf (castMsgs X.me n i b)).map (fun o => (Act.send (X.sib o.1) o.2 : PAct ι)))
        { x with wbuf := pushes (Sockets.bufferSize / X.unit) x.wbuf (castMsgs X.me n i b) } := by
  induction n with
  | zero => intro i x _; exact Runs.done _
  | succ n ih =>
    intro i x hw
    have e : castMsgs X.me (n + 1) i b = (if i ≠ X.me then [(i, b)] else []) ++ castMsgs X.me n (i + 1) b := by
      simp [castMsgs, List.range'_succ]
    rw [e, emits_append, pushes_append, List.map_append]
    refine Runs.bind (a := { x with wbuf := pushes (Sockets.bufferSize / X.unit) x.wbuf (if i ≠ X.me then [(i, b)] else []) }) ?_
      (ih (i + 1) _ (room_pushes X.unit h0 hb _ hw _))
    by_cases hi : i ≠ X.me
    · simp only [if_pos hi]
      exact runs_sendTo X x i b (hw i)
    · simp only [if_neg hi]
      exact Runs.done _

/-- Everything that server `s` writes when it tells its secrets to the others. -/
def bcastRound (S : Nat) (items : Nat → List OfflineSecret) (s : Nat) : List (Nat × Byte) :=
  outgoing (Sockets.bufferSize / secretSize) S s (fun _ => {}) ((items s).flatMap (fun x => castMsgs s S 0 x.encode))

theorem bcastRound_ok (S : Nat) (items : Nat → List OfflineSecret) : OutsOk S (bcastRound S items) := by
  intro s hs o ho
  refine outgoing_mem _ _ _ _ _ ?_ o ho
  intro m hm
  obtain ⟨x, -, hx⟩ := List.mem_flatMap.1 hm
  have := castMsgs_mem s S 0 _ m hx
  rwa [Nat.zero_add] at this

theorem bcastRound_to (S : Nat) (items : Nat → List OfflineSecret) (s t : Nat) (ht : t < S) (hne : t ≠ s) :
    toOne t (bcastRound S items s) = ((items s).map OfflineSecret.encode).flatten := by
  unfold bcastRound
  rw [toOne_outgoing _ _ _ _ _ ht hne, List.flatMap_assoc, ← List.flatMap_def]
  congr 1
  funext x
  exact castMsgs_to s S 0 _ t (Nat.zero_le _) (by omega) hne

theorem foldl_wrap_sum (l : List Nat) (a : Nat) (h : a + l.sum < 2 ^ 32) : l.foldl (fun a c => wrap32 (a + c)) a = a + l.sum := by
  induction l generalizing a with
  | nil => rfl
  | cons c l ih =>
    rw [List.sum_cons] at h
    rw [List.foldl_cons, wrap32_of_lt (by omega), ih _ (by omega), List.sum_cons]
    omega

theorem tab_sum (S : Nat) (f : Nat → Nat) : (tab S f).sum = preSum f S := rfl

/-- The state while the secrets of the siblings arrive: `r s` secrets of each sibling were
stored. -/
structure BcastInv (J : (Nat → Nat) → σ → Prop) (S me : Nat) (r : Nat → Nat) (s : σ) (rc : List Nat) : Prop where
  st : J r s
  counts : rc = tab S (fun i => r i)

/-- The broadcast as an exchange. -/
def bcastSpec (X : Exchange ι) (items : Nat → List OfflineSecret) (store : OfflineSecret → σ → Res σ)
    (J : (Nat → Nat) → σ → Prop) (hunit : X.unit = secretSize) (inj : Function.Injective X.sib) (servers : X.servers < 255)
    (hcounts : ∀ s, X.Sib s → X.counts s = (items s).length) (htotal : ∑ s ∈ X.sibs, X.counts s < 2 ^ 32)
    (hlen : ∀ s, X.Sib s → (items s).length < 2 ^ 32)
    (hstore : ∀ r s i x, X.Sib i → (∀ i, X.Sib i → r i ≤ (items i).length) → (items i)[r i]? = some x → J r s →
      ∃ s', store x s = .ok s' ∧ J (Function.update r i (r i + 1)) s') :
    XSpec X { send := broadcastSecret X
              recv := fun source m st => do
                let s ← store (OfflineSecret.decode m) st.1
                let count ← rd st.2 source
                let received ← wr st.2 source (wrap32 (count + 1))
                .ok (s, received) } (items X.me) where
  M s := (items s).map OfflineSecret.encode
  outs a := match (items X.me)[a]? with
    | some x => castMsgs X.me X.servers 0 x.encode
    | none => []
  I _ r s rc := BcastInv J X.servers X.me r s rc
  inj := inj
  unit0 := by rw [hunit]; decide
  unitB := by rw [hunit]; decide
  servers := servers
  hM := by
    intro s hs
    refine ⟨?_, by rw [List.length_map, hcounts s hs]⟩
    intro m hm
    obtain ⟨x, -, rfl⟩ := List.mem_map.1 hm
    rw [hunit]; exact x.encode_length
  total := htotal
  houts := by
    intro a o ho
    split at ho
    · have := castMsgs_mem _ _ _ _ o ho
      rw [Nat.zero_add] at this
      exact this
    · cases ho
  got := by
    intro a r s rc hI i hi
    rw [hI.counts, tab_get _ _ _ hi.1]
  send := by
    intro a r s rc ha _ hI
    refine ⟨s, rc, hI, ?_⟩
    rintro x rfl rfl hw
    rw [List.getElem?_eq_getElem ha]
    exact broadcastLoop_ok X (by rw [hunit]; decide) (by rw [hunit]; decide) _ _ _ x hw
  recv := by
    intro a r s rc i m hi hr hm hI
    rw [List.getElem?_map, Option.map_eq_some_iff] at hm
    obtain ⟨x, hx, rfl⟩ := hm
    obtain ⟨s', h1, h2⟩ := hstore r s i x hi (fun i hi => by rw [← hcounts i hi]; exact hr i hi) hx hI.st
    have hlt := (List.getElem?_eq_some_iff.1 hx).1
    have := hlen i hi
    refine ⟨s', rc.set i (r i + 1), ?_, h2, ?_⟩
    · simp only
      rw [OfflineSecret.decode_encode, h1, bind_ok, hI.counts, rd_tab _ _ _ hi.1, bind_ok, wrap32_of_lt (by omega),
        wr_ok (by simpa [tab] using hi.1), bind_ok]
    · rw [hI.counts, tab_update]

/-- The round in which each server tells how many secrets it has. -/
def bcastCounts (S : Nat) (items : Nat → List OfflineSecret) : Nat → List (Nat × Byte) :=
  castOut S (countMsg (fun s _ => (items s).length))

/-- `broadcastSecrets` after the counts are known. -/
def broadcastData (me servers : Nat) (sib : Nat → ι) (items : List OfflineSecret) (store : OfflineSecret → σ → Res σ) (s : σ)
    (counts : List Nat) : PProg ι σ :=
  let X : Exchange ι := { me := me, servers := servers, sib := sib, unit := secretSize, counts := fun s => counts.getD s 0 }
  sendAndPoll X { send := broadcastSecret X
                  recv := fun source m st => do
                    let s ← store (OfflineSecret.decode m) st.1
                    let count ← rd st.2 source
                    let received ← wr st.2 source (wrap32 (count + 1))
                    .ok (s, received) } items (counts.foldl (fun a c => wrap32 (a + c)) 0) s

theorem preSum_others_le (me S : Nat) (f : Nat → Nat) : preSum (fun s => if s = me then 0 else f s) S ≤ preSum f S := by
  induction S with
  | zero => exact Nat.le_refl _
  | succ n ih =>
    rw [preSum_succ, preSum_succ]
    split <;> omega

theorem broadcastData_does {idx : ι → Option Nat} {sib : Nat → ι} {S : Nat} (hg : Group idx sib S) (hS : S < 255)
    (me : Nat) (hme : me < S) (items : Nat → List OfflineSecret) (store : OfflineSecret → σ → Res σ)
    (J : (Nat → Nat) → σ → Prop) (h32 : preSum (fun s => if s = me then 0 else (items s).length) S < 2 ^ 32)
    (hstore : ∀ r s i x, i < S → i ≠ me → (∀ i, i < S → i ≠ me → r i ≤ (items i).length) → (items i)[r i]? = some x → J r s →
      ∃ s', store x s = .ok s' ∧ J (Function.update r i (r i + 1)) s')
    (s0 : σ) (h0 : J (fun _ => 0) s0) :
    PProc.Does (fun s' => ∃ r, (∀ i, i < S → i ≠ me → r i = (items i).length) ∧ J r s')
      (broadcastData me S sib (items me) store s0 (tab S (fun s => if s = me then 0 else (items s).length)))
      [rseg idx sib (bcastRound S items) me] := by
  have hone : ∀ s, s < S → s ≠ me → (items s).length < 2 ^ 32 := by
    intro s hs hne
    have := preSum_mono (fun s => if s = me then 0 else (items s).length) (show s + 1 ≤ S by omega)
    rw [preSum_succ, if_neg hne] at this
    omega
  unfold broadcastData
  have hfold : (tab S (fun s => if s = me then 0 else (items s).length)).foldl (fun a c => wrap32 (a + c)) 0 =
      preSum (fun s => if s = me then 0 else (items s).length) S := by
    rw [foldl_wrap_sum _ _ (by rw [tab_sum]; omega), tab_sum, Nat.zero_add]
  rw [hfold]
  generalize hX : ({ me := me, servers := S, sib := sib, unit := secretSize
                     counts := fun s => (tab S (fun s => if s = me then 0 else (items s).length)).getD s 0 } : Exchange ι) = X
  have e1 : X.me = me := by rw [← hX]
  have e2 : X.servers = S := by rw [← hX]
  have e3 : X.unit = secretSize := by rw [← hX]
  have e4 : X.sib = sib := by rw [← hX]
  have hXS : ∀ s, X.Sib s ↔ s < S ∧ s ≠ me := by intro s; unfold Exchange.Sib; rw [e1, e2]
  have e5 : ∀ s, s < S → X.counts s = if s = me then 0 else (items s).length := by
    intro s hs
    rw [← hX]
    show (tab S _).getD s 0 = _
    rw [List.getD_eq_getElem?_getD, tab_get _ _ _ hs]
    rfl
  have hsum : preSum (fun s => if s = me then 0 else (items s).length) S = ∑ s ∈ X.sibs, X.counts s := by
    have h1 : ∑ s ∈ X.sibs, X.counts s = ∑ s ∈ X.sibs, (if s = me then 0 else (items s).length) :=
      Finset.sum_congr rfl (fun s hs => e5 s ((hXS s).1 ((X.mem_sibs s).1 hs)).1)
    have h3 : ∀ n, ∑ s ∈ Finset.range n, (if s = me then 0 else (items s).length) = preSum (fun s => if s = me then 0 else (items s).length) n := by
      intro n
      induction n with
      | zero => rfl
      | succ n ih => rw [Finset.sum_range_succ, ih, preSum_succ]
    rw [h1, ← h3]
    unfold Exchange.sibs
    rw [e1, e2, ← Finset.add_sum_erase _ (fun s => if s = me then 0 else (items s).length) (Finset.mem_range.2 hme), if_pos rfl,
      Nat.zero_add]
  let SP := bcastSpec X items store J e3 (by rw [e4]; exact hg.inj) (by rw [e2]; exact hS)
    (fun s hs => by rw [e5 s ((hXS s).1 hs).1, if_neg ((hXS s).1 hs).2]) (by rw [← hsum]; omega)
    (fun s hs => hone s ((hXS s).1 hs).1 ((hXS s).1 hs).2)
    (fun r s i x hi hr hx hJ => hstore r s i x ((hXS i).1 hi).1 ((hXS i).1 hi).2 (fun i h1 h2 => hr i ((hXS i).2 ⟨h1, h2⟩)) hx hJ)
  have hI0 : SP.I 0 (fun _ => 0) s0 (List.replicate X.servers 0) := ⟨h0, by rw [replicate_eq_tab]⟩
  have hd := SP.does s0 _ hsum hI0 (is := roundIns idx (bcastRound S items) me) (av := fun _ => false)
    (by
      intro s hs
      have hs' := (hXS s).1 hs
      rw [e4, roundIns_sib hg _ hs'.1, bcastRound_to _ _ _ _ hme (Ne.symm hs'.2)]
      rfl)
    (by
      intro j hj
      refine roundIns_other hg (bcastRound_ok S items) ?_
      intro s hs
      have := hj s ((hXS s).2 hs)
      rwa [e4] at this)
  have hall : SP.allOut = bcastRound S items me := by
    have key : ∀ l : List OfflineSecret, ∀ n, n ≤ l.length → (List.range' 0 n).flatMap (fun a => match l[a]? with
        | some x => castMsgs X.me X.servers 0 x.encode
        | none => []) = (l.take n).flatMap (fun x => castMsgs X.me X.servers 0 x.encode) := by
      intro l n hn
      induction n with
      | zero => simp
      | succ n ih =>
        rw [List.range'_1_concat, List.flatMap_append, ih (by omega), List.take_succ_eq_append_getElem (show n < l.length by omega), List.flatMap_append]
        simp only [List.flatMap_cons, List.flatMap_nil, List.append_nil, Nat.zero_add, List.getElem?_eq_getElem (show n < l.length by omega)]
    have h := key (items X.me) (items X.me).length (Nat.le_refl _)
    rw [List.take_of_length_le (Nat.le_refl _)] at h
    have h' : SP.outsFrom (items X.me).length 0 = (items X.me).flatMap (fun x => castMsgs X.me X.servers 0 x.encode) := h
    unfold XSpec.allOut bcastRound
    rw [h', e3, e2, e1]
  rw [hall, e4] at hd
  have hi : items X.me = items me := by rw [e1]
  rw [← hi]
  refine hd.mono ?_
  rintro st ⟨r, rc, hr, hI⟩
  refine ⟨r, ?_, hI.st⟩
  intro i h1 h2
  rw [hr i ((hXS i).2 ⟨h1, h2⟩), e5 i h1, if_neg h2]

theorem broadcastSecrets_does {idx : ι → Option Nat} {sib : Nat → ι} {S : Nat} (hg : Group idx sib S) (hS : S < 255)
    (me : Nat) (hme : me < S) (items : Nat → List OfflineSecret) (store : OfflineSecret → σ → Res σ)
    (J : (Nat → Nat) → σ → Prop) (h32 : preSum (fun s => (items s).length) S < 2 ^ 32)
    (hstore : ∀ r s i x, i < S → i ≠ me → (∀ i, i < S → i ≠ me → r i ≤ (items i).length) → (items i)[r i]? = some x → J r s →
      ∃ s', store x s = .ok s' ∧ J (Function.update r i (r i + 1)) s')
    (s0 : σ) (h0 : J (fun _ => 0) s0) :
    PProc.Does (fun s' => ∃ r, (∀ i, i < S → i ≠ me → r i = (items i).length) ∧ J r s')
      (broadcastSecrets me S sib (items me) store s0) [rseg idx sib (bcastCounts S items) me, rseg idx sib (bcastRound S items) me] := by
  have hone : ∀ s, s < S → (items s).length < 2 ^ 32 := by
    intro s hs
    have := preSum_mono (fun s => (items s).length) (show s + 1 ≤ S by omega)
    rw [preSum_succ] at this
    omega
  unfold broadcastSecrets
  simp only [PProc.bind_def]
  refine PProc.Does.bind' (counts_does hg hme (fun s _ => (items s).length) (fun s t hs _ => hone s hs)
    (fun _ => .ok (wrap32 (items me).length)) (fun t _ _ => by rw [wrap32_of_lt (hone me hme)]) 0 (fun _ => false)) ?_
    (M := [rseg idx sib (bcastRound S items) me]) rfl
  rintro l rfl
  exact broadcastData_does hg hS me hme items store J (Nat.lt_of_le_of_lt (preSum_others_le _ _ _) h32) hstore s0 h0

end DPPIR.Protocol
