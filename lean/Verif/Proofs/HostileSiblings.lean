import Verif.Proofs.Heeds
import Verif.Proofs.Broadcast
import Verif.Proofs.HostileEnds
import Verif.Proofs.Falls

/-!
# Counts, barriers and broadcasts among arbitrary siblings
-/

namespace DPPIR.Protocol
open DPPIR Proc Shuffle Spec

variable {ι σ α : Type} [DecidableEq ι]

/-- `f s` was read from every sibling `s`, and nothing else. -/
def Heard (sib : Nat → ι) (S me : Nat) (L L' : ι → List Byte) (f : Nat → List Byte) : Prop :=
  ∀ s, s < S → s ≠ me → L' (sib s) = L (sib s) ++ f s

omit [DecidableEq ι] in
theorem Heard.refl (sib : Nat → ι) (S me : Nat) (L : ι → List Byte) : Heard sib S me L L (fun _ => []) := by
  intro s _ _; simp

omit [DecidableEq ι] in
theorem Heard.trans {sib : Nat → ι} {S me : Nat} {L L' L'' : ι → List Byte} {f g : Nat → List Byte} (h : Heard sib S me L L' f)
    (h' : Heard sib S me L' L'' g) : Heard sib S me L L'' (fun s => f s ++ g s) := by
  intro s h1 h2
  rw [h' s h1 h2, h s h1 h2, List.append_assoc]

omit [DecidableEq ι] in
theorem Heard.congr {sib : Nat → ι} {S me : Nat} {L L' : ι → List Byte} {f g : Nat → List Byte} (h : Heard sib S me L L' f)
    (e : ∀ s, s < S → s ≠ me → f s = g s) : Heard sib S me L L' g := by
  intro s h1 h2
  rw [h s h1 h2, e s h1 h2]

section
variable {F : (ι → List Byte) → List Obs → Fault → Prop}

theorem heeds_recvBytesFrom (s : ι) (n : Nat) (got : List Byte) (L : ι → List Byte) (h : List Obs) :
    PProc.Heeds F (PProc.ofProc (recvBytesFrom s n got)) (fun a L' h' => h' = h ∧ ∃ l, l.length = n ∧ a = got ++ l ∧ L' = hear L s l) L h := by
  induction n generalizing got L with
  | zero =>
    refine ⟨rfl, [], rfl, by simp, ?_⟩
    unfold hear
    simp
  | succ n ih =>
    intro b
    refine (ih _ _).mono ?_
    rintro a L' h' ⟨rfl, l, rfl, rfl, rfl⟩
    refine ⟨rfl, b :: l, by simp, by simp, ?_⟩
    unfold hear
    simp

theorem heeds_recvBytes (s : ι) (n : Nat) (L : ι → List Byte) (h : List Obs) :
    PProc.Heeds F (PProc.ofProc (recvBytes s n)) (fun a L' h' => h' = h ∧ a.length = n ∧ L' = hear L s a) L h := by
  refine (heeds_recvBytesFrom s n [] L h).mono ?_
  rintro a L' h' ⟨rfl, l, h1, h2, rfl⟩
  rw [List.nil_append] at h2
  subst h2
  exact ⟨rfl, h1, rfl⟩

theorem heeds_loop {f : Nat → σ → Prog ι σ} (Inv : Nat → σ → (ι → List Byte) → List Obs → Prop) (n i : Nat) (s : σ) (L : ι → List Byte)
    (h : List Obs) (h0 : Inv i s L h)
    (hstep : ∀ j s L h, i ≤ j → j < i + n → Inv j s L h → PProc.Heeds F (PProc.ofProc (f j s)) (Inv (j + 1)) L h) :
    PProc.Heeds F (PProc.ofProc (loop n i f s)) (Inv (i + n)) L h := by
  induction n generalizing i s L h with
  | zero => exact h0
  | succ n ih =>
    unfold loop
    rw [PProc.ofProc_bind]
    refine PProc.Heeds.bind' (hstep i s L h (Nat.le_refl _) (by omega) h0) (fun s' L' h' hs' => ?_)
    have := ih (i + 1) s' L' h' hs' (fun j s L h hj hj' => hstep j s L h (by omega) (by omega))
    rw [show i + 1 + n = i + (n + 1) by omega] at this
    exact this

/-- Bytes from one sibling after another. -/
theorem heard_step {sib : Nat → ι} (inj : Function.Injective sib) {S me j : Nat} {L L' : ι → List Byte} {f : Nat → List Byte} {l : List Byte}
    (hne : j ≠ me) (h : Heard sib S me L L' (fun s => if s < j then f s else [])) (hl : f j = l) :
    Heard sib S me L (hear L' (sib j) l) (fun s => if s < j + 1 then f s else []) := by
  intro s h1 h2
  unfold hear
  by_cases hs : s = j
  · subst hs
    have h3 := h s h1 h2
    simp only at h3
    rw [if_neg (by omega), List.append_nil] at h3
    rw [Function.update_self, h3]
    simp only
    rw [if_pos (by omega), hl]
  · rw [Function.update_of_ne (fun e => hs (inj e)), h s h1 h2]
    simp only
    by_cases hj : s < j
    · rw [if_pos hj, if_pos (by omega)]
    · rw [if_neg hj, if_neg (by omega)]

theorem heeds_sends {p : Prog ι Unit} (hs : ∀ h, Safe (Any) (fun _ _ => False) p (fun _ h' => h' = h) h) (ho : Only (fun _ => False) p)
    (L : ι → List Byte) (h : List Obs) : PProc.Heeds F (PProc.ofProc p) (fun _ L' h' => h' = h ∧ L' = L) L h := by
  refine (PProc.Heeds.ofProc (hs h) ho (fun _ _ _ _ h => h.elim)).mono ?_
  rintro - L' h' ⟨rfl, h2⟩
  exact ⟨rfl, funext (fun j => h2 j (fun h => h))⟩

theorem heeds_counts {sib : Nat → ι} (inj : Function.Injective sib) (me S : Nat) (n : Nat → Res Nat) (hn : ∀ s, s < S → ∃ c, n s = .ok c)
    (own : Nat) (L : ι → List Byte) (h : List Obs) :
    PProc.Heeds F (PProc.ofProc (exchangeCounts me S sib n own)) (fun l L' h' => h' = h ∧ ∃ c : Nat → Nat, (∀ s, c s < 2 ^ 32) ∧
      l = tab S (fun s => if s = me then own else c s) ∧ Heard sib S me L L' (fun s => natLE 4 (c s))) L h := by
  have e : exchangeCounts me S sib n own = (sendCounts me S sib n).bind (fun _ => readCounts me S sib own) := rfl
  rw [e, PProc.ofProc_bind]
  refine PProc.Heeds.bind' (heeds_sends (fun h => ?_) ?_ L h) ?_
  · refine Safe.loop (I := Any) (F := fun _ _ => False) (fun _ _ h' => h' = h) S 0 () h rfl ?_
    rintro j - h' - hj rfl
    split
    · obtain ⟨c, hc⟩ := hn j (by omega)
      exact safe_ok hc (Safe.sendBytes rfl)
    · rfl
  · refine Only.loop (fun j _ => ?_) _ _ _
    split
    · exact Only.bind (Only.lift _) (fun c => Only.sendBytes _ _)
    · trivial
  rintro - L' h' ⟨rfl, rfl⟩
  have := heeds_loop (F := F) (f := fun id l => if id ≠ me then do
      let c ← sibReadCount (sib id)
      return l ++ [c]
    else return l ++ [own])
    (fun j l L'' h'' => h'' = h' ∧ ∃ c : Nat → Nat, (∀ s, c s < 2 ^ 32) ∧ l = tab j (fun s => if s = me then own else c s) ∧
      Heard sib S me L' L'' (fun s => if s < j then natLE 4 (c s) else [])) S 0 [] L' h'
    ⟨rfl, fun _ => 0, by simp, by simp [tab], by intro s _ _; simp⟩ (by
      rintro j l L2 h2 - hj ⟨rfl, c, hc, rfl, hh⟩
      have tabs : ∀ (c' : Nat → Nat) (v : Nat), (∀ s, s < j → c' s = c s) → (if j = me then own else c' j) = v →
          tab j (fun s => if s = me then own else c s) ++ [v] = tab (j + 1) (fun s => if s = me then own else c' s) := by
        intro c' v hc' hv
        rw [← hv]
        have : tab (j + 1) (fun s => if s = me then own else c' s) = tab j (fun s => if s = me then own else c' s) ++ [if j = me then own else c' j] := by
          unfold tab
          rw [List.range_succ, List.map_append]
          rfl
        rw [this]
        congr 1
        exact tab_congr _ _ _ (fun s hs => by rw [hc' s hs])
      by_cases hme : j = me
      · rw [if_neg (by simp [hme])]
        refine ⟨rfl, c, hc, tabs c own (fun _ _ => rfl) (if_pos hme), ?_⟩
        refine hh.congr (fun s h1 h2 => ?_)
        by_cases hs : s < j
        · rw [if_pos hs, if_pos (by omega)]
        · rw [if_neg hs, if_neg (by omega)]
      · rw [if_pos hme]
        have e2 : (do let v ← sibReadCount (sib j); return tab j (fun s => if s = me then own else c s) ++ [v] : Prog ι (List Nat)) =
          (recvBytes (sib j) 4).bind (fun l => Proc.done (tab j (fun s => if s = me then own else c s) ++ [(BitVec.ofNat 32 (natOfLE l)).toNat])) := by
          show ((recvBytes (sib j) 4).bind _).bind _ = _
          rw [Proc.bind_assoc]
          rfl
        rw [e2, PProc.ofProc_bind]
        refine PProc.Heeds.bind' (heeds_recvBytes _ _ _ _) ?_
        rintro b L3 h3 ⟨rfl, hb, rfl⟩
        have hb4 : natOfLE b < 2 ^ 32 := by have := natOfLE_lt b; rw [hb] at this; exact this
        have hv : (BitVec.ofNat 32 (natOfLE b)).toNat = natOfLE b := by rw [BitVec.toNat_ofNat, Nat.mod_eq_of_lt hb4]
        refine ⟨rfl, fun s => if s = j then natOfLE b else c s, fun s => ?_, ?_, ?_⟩
        · dsimp only; split
          · exact hb4
          · exact hc s
        · rw [hv]
          refine tabs _ _ (fun s hs => if_neg (by omega)) ?_
          rw [if_neg hme, if_pos rfl]
        · refine heard_step inj hme (hh.congr (fun s h1 h2 => ?_)) ?_
          · by_cases hs : s < j
            · rw [if_pos hs, if_pos hs]
              show _ = natLE 4 (if s = j then natOfLE b else c s)
              rw [if_neg (by omega)]
            · rw [if_neg hs, if_neg hs]
          · show natLE 4 (if j = j then natOfLE b else c j) = b
            rw [if_pos rfl, ← hb, natLE_natOfLE])
  rw [Nat.zero_add] at this
  refine this.mono ?_
  rintro l L2 h2 ⟨rfl, c, h1, h2, h3⟩
  exact ⟨rfl, c, h1, h2, h3.congr (fun s hs _ => if_pos hs)⟩

theorem heeds_barrier {sib : Nat → ι} (inj : Function.Injective sib) (me S : Nat) (hF : ∀ L h, F L h .assertFail) (L : ι → List Byte) (h : List Obs) :
    PProc.Heeds F (PProc.ofProc (barrier me S sib)) (fun _ L' h' => h' = h ∧ Heard sib S me L L' (fun _ => [1])) L h := by
  unfold barrier
  rw [Proc.bind_def, PProc.ofProc_bind]
  refine PProc.Heeds.bind' (heeds_sends (fun h => ?_) ?_ L h) ?_
  · refine Safe.loop (I := Any) (F := fun _ _ => False) (fun _ _ h' => h' = h) S 0 () h rfl ?_
    rintro j - h' - hj rfl
    split
    · exact Safe.sendBytes rfl
    · rfl
  · refine Only.loop (fun j _ => ?_) _ _ _
    split
    · exact Only.sendBytes _ _
    · trivial
  rintro - L' h' ⟨rfl, rfl⟩
  have := heeds_loop (F := F) (f := fun id (_ : Unit) => if id ≠ me then do
      let l ← recvBytes (sib id) 1
      lift (assert (l = [1]))
    else .done ())
    (fun j _ L'' h'' => h'' = h' ∧ Heard sib S me L' L'' (fun s => if s < j then [1] else [])) S 0 () L' h'
    ⟨rfl, by intro s _ _; simp⟩ (by
      rintro j - L2 h2 - hj ⟨rfl, hh⟩
      by_cases hme : j = me
      · rw [if_neg (by simp [hme])]
        refine ⟨rfl, hh.congr (fun s h1 h2 => ?_)⟩
        by_cases hs : s < j
        · rw [if_pos hs, if_pos (by omega)]
        · rw [if_neg hs, if_neg (by omega)]
      · rw [if_pos hme, Proc.bind_def, PProc.ofProc_bind]
        refine PProc.Heeds.bind' (heeds_recvBytes _ _ _ _) ?_
        rintro b L3 h3 ⟨rfl, hb, rfl⟩
        by_cases h1 : b = [1]
        · simp only [assert, h1]
          exact ⟨rfl, heard_step (f := fun _ => [1]) inj hme hh rfl⟩
        · simp only [assert, h1]
          exact hF _ _)
  rw [Nat.zero_add] at this
  refine this.mono ?_
  rintro l L2 h2 ⟨rfl, h3⟩
  exact ⟨rfl, h3.congr (fun s hs _ => if_pos hs)⟩

end

/-! ### Exchanges -/

/-- Bytes as messages. -/
theorem units_of (u : Nat) : ∀ (n : Nat) (l : List Byte), l.length = n * u →
    ∃ ms : List (List Byte), ms.length = n ∧ (∀ m ∈ ms, m.length = u) ∧ ms.flatten = l := by
  intro n
  induction n with
  | zero =>
    intro l h
    rw [Nat.zero_mul] at h
    exact ⟨[], rfl, by simp, by rw [List.length_eq_zero_iff.1 h]; rfl⟩
  | succ n ih =>
    intro l h
    rw [Nat.succ_mul] at h
    obtain ⟨ms, h1, h2, h3⟩ := ih (l.drop u) (by simp [h])
    refine ⟨l.take u :: ms, by simp [h1], ?_, by simp [h3]⟩
    intro m hm
    rcases List.mem_cons.1 hm with rfl | hm
    · simp; omega
    · exact h2 m hm

/-- Numbers of bytes in an exchange with `c s` messages from every sibling. -/
def lensOf (idx : ι → Option Nat) (me unit : Nat) (c : Nat → Nat) (j : ι) : Nat :=
  match idx j with
  | some s => if s = me then 0 else c s * unit
  | none => 0

theorem lensOf_sib {idx : ι → Option Nat} {sib : Nat → ι} {S : Nat} (hg : Group idx sib S) (me unit : Nat) (c : Nat → Nat) {s : Nat} (hs : s < S)
    (hne : s ≠ me) : lensOf idx me unit c (sib s) = c s * unit := by
  unfold lensOf
  rw [hg.sib hs]
  exact if_neg hne

theorem roundIns_eq {idx : ι → Option Nat} {sib : Nat → ι} {S : Nat} (hg : Group idx sib S) {me unit : Nat} {c : Nat → Nat}
    {outs : Nat → List (Nat × Byte)} (ho : OutsOk S outs) {is : ι → List Byte} (his : ∀ j, (is j).length = lensOf idx me unit c j)
    (h : ∀ s, s < S → s ≠ me → toOne me (outs s) = is (sib s)) : roundIns idx outs me = is := by
  funext j
  by_cases hj : ∀ s, s < S ∧ s ≠ me → j ≠ sib s
  · rw [roundIns_other hg ho hj]
    have := his j
    unfold lensOf at this
    cases e : idx j with
    | none => simp only [e] at this; exact (List.length_eq_zero_iff.1 this).symm
    | some s =>
      simp only [e] at this
      obtain ⟨h1, h2⟩ := (hg.iff _ _).1 e
      have hsm : s = me := by
        by_contra hne
        exact hj s ⟨h1, hne⟩ h2
      rw [if_pos hsm] at this
      exact (List.length_eq_zero_iff.1 this).symm
  · push Not at hj
    obtain ⟨s, ⟨h1, h2⟩, rfl⟩ := hj
    rw [roundIns_sib hg _ h1, h s h1 h2]

section
variable {F : (ι → List Byte) → List Obs → Fault → Prop}

/-- `store`, with a state for a failed assertion. -/
def storeOr (store : OfflineSecret → σ → Res σ) (x : OfflineSecret) (s : Option σ) : Res (Option σ) :=
  .ok (s.bind (fun s => match store x s with
    | .ok s' => some s'
    | .error _ => none))

theorem heeds_broadcastData {idx : ι → Option Nat} {sib : Nat → ι} {S : Nat} (hg : Group idx sib S) (hS : S < 255)
    (me : Nat) (hme : me < S) (items : List OfflineSecret) (store : OfflineSecret → σ → Res σ)
    (hF : ∀ L h, F L h .assertFail) (hfail : ∀ x s e, store x s = .error e → e = .assertFail)
    (Inv : σ → Prop) (Has : σ → OfflineSecret → Prop)
    (hstore : ∀ x s s', store x s = .ok s' → Inv s → Inv s' ∧ Has s' x ∧ ∀ y, Has s y → Has s' y)
    (c : Nat → Nat) (h32 : preSum (fun s => if s = me then 0 else c s) S < 2 ^ 32) (s0 : σ) (h0 : Inv s0)
    (L : ι → List Byte) (h : List Obs) :
    PProc.Heeds F (broadcastData me S sib items store s0 (tab S (fun s => if s = me then 0 else c s)))
      (fun s' L' h' => h' = h ∧ ∃ xs : Nat → List OfflineSecret, (∀ s, s < S → s ≠ me → (xs s).length = c s) ∧
        Heard sib S me L L' (fun s => ((xs s).map OfflineSecret.encode).flatten) ∧ Inv s' ∧ (∀ y, Has s0 y → Has s' y) ∧
        ∀ s, s < S → s ≠ me → ∀ y ∈ xs s, Has s' y) L h := by
  have hfalls : PProc.Falls (fun (s : σ) s' => s' = some s)
      (broadcastData me S sib items store s0 (tab S (fun s => if s = me then 0 else c s)))
      (broadcastData me S sib items (storeOr store) (some s0) (tab S (fun s => if s = me then 0 else c s))) := by
    unfold broadcastData
    refine falls_sendAndPoll (R := fun (s : σ) s' => s' = some s) ?_ ?_ _ _ _ _ rfl
    · intro t x y hx
      have key : ∀ (X : Exchange ι) n i (x : XState σ) (y : XState (Option σ)), FRel (fun s s' => s' = some s) x y →
          PProc.Falls (FRel (fun s s' => s' = some s))
            (PProc.ofProc (loop n i (fun id x => if id ≠ X.me then x.sendTo X id t.encode else .done x) x))
            (PProc.ofProc (loop n i (fun id x => if id ≠ X.me then x.sendTo X id t.encode else .done x) y)) := by
        intro X n
        induction n with
        | zero => intro i x y hx; exact .done hx
        | succ n ih =>
          intro i x y hx
          unfold loop
          rw [PProc.ofProc_bind, PProc.ofProc_bind]
          refine PProc.Falls.bind (R := FRel (fun s s' => s' = some s)) ?_ (fun x y h => ih _ x y h)
          beta_reduce
          by_cases hid : i ≠ X.me
          · rw [if_pos hid, if_pos hid]
            unfold XState.sendTo
            rw [Proc.bind_def, Proc.bind_def, PProc.ofProc_bind, PProc.ofProc_bind, hx.wbuf]
            refine PProc.Falls.bind (PProc.Falls.refl _) ?_
            rintro w _ rfl
            exact .done ⟨hx.st, hx.received, rfl, hx.left, hx.ignored, hx.readCount⟩
          · rw [if_neg hid, if_neg hid]
            exact .done hx
      exact key _ _ _ _ _ hx
    · rintro src m s _ rc rfl
      dsimp only
      cases e : store (OfflineSecret.decode m) s with
      | error e' => rw [hfail _ _ _ e]; exact Or.inl rfl
      | ok s' =>
        refine RFalls.bind (R := fun s s' => s' = some s) (Or.inr (Or.inl ⟨s', some s', rfl, ?_, rfl⟩)) ?_
        · unfold storeOr
          simp [e]
        · rintro a _ rfl
          refine RFalls.bind (RFalls.refl _) ?_
          rintro n _ rfl
          refine RFalls.bind (RFalls.refl _) ?_
          rintro n _ rfl
          exact Or.inr (Or.inl ⟨_, _, rfl, rfl, rfl, rfl⟩)
  refine (hfalls.heeds hF (PProc.Heeds.ofDoes _ (lensOf idx me secretSize c)
    (fun is s' => ∀ s, s' = some s → ∃ xs : Nat → List OfflineSecret, (∀ s, s < S → s ≠ me → (xs s).length = c s) ∧
        (∀ s, s < S → s ≠ me → is (sib s) = ((xs s).map OfflineSecret.encode).flatten) ∧ Inv s ∧ (∀ y, Has s0 y → Has s y) ∧
        ∀ i, i < S → i ≠ me → ∀ y ∈ xs i, Has s y) ?_ L h)).mono ?_
  · intro is his
    have hun : ∀ s, ∃ ms : List (List Byte), s < S → s ≠ me → ms.length = c s ∧ (∀ m ∈ ms, m.length = secretSize) ∧ ms.flatten = is (sib s) := by
      intro s
      by_cases hs : s < S ∧ s ≠ me
      · obtain ⟨ms, hms⟩ := units_of secretSize (c s) (is (sib s)) (by rw [his, lensOf_sib hg _ _ _ hs.1 hs.2])
        exact ⟨ms, fun _ _ => hms⟩
      · exact ⟨[], fun h1 h2 => absurd ⟨h1, h2⟩ hs⟩
    choose ms hms using hun
    let xs : Nat → List OfflineSecret := fun s => if s = me then items else (ms s).map OfflineSecret.decode
    have hxs : ∀ s, s ≠ me → xs s = (ms s).map OfflineSecret.decode := fun s hs => if_neg hs
    have hlen : ∀ s, s < S → s ≠ me → (xs s).length = c s := by
      intro s h1 h2
      rw [hxs s h2, List.length_map, (hms s h1 h2).1]
    have henc : ∀ s, s < S → s ≠ me → is (sib s) = ((xs s).map OfflineSecret.encode).flatten := by
      intro s h1 h2
      rw [hxs s h2, List.map_map, ← (hms s h1 h2).2.2]
      congr 1
      refine (List.map_id _).symm.trans (List.map_congr_left (fun m hm => ?_))
      exact (OfflineSecret.encode_decode m ((hms s h1 h2).2.1 m hm)).symm
    have htab : tab S (fun s => if s = me then 0 else c s) = tab S (fun s => if s = me then 0 else (xs s).length) := by
      refine tab_congr _ _ _ (fun s hs => ?_)
      by_cases hne : s = me
      · rw [if_pos hne, if_pos hne]
      · rw [if_neg hne, if_neg hne, hlen s hs hne]
    have hme' : xs me = items := if_pos rfl
    have hd := broadcastData_does hg hS me hme xs (storeOr store)
      (fun r s => ∀ s', s = some s' → Inv s' ∧ (∀ y, Has s0 y → Has s' y) ∧ ∀ i, i < S → i ≠ me → ∀ y ∈ (xs i).take (r i), Has s' y)
      (by rw [← tab_sum, ← htab, tab_sum]; exact h32)
      (by
        intro r s i x hi hne hr hx hJ
        refine ⟨_, rfl, ?_⟩
        intro s' hs'
        cases s with
        | none => cases hs'
        | some s =>
          simp only [Option.bind_some] at hs'
          cases e : store x s with
          | error e' => rw [e] at hs'; cases hs'
          | ok s2 =>
            rw [e] at hs'
            obtain rfl := Option.some.inj hs'
            obtain ⟨j1, j2, j3⟩ := hJ s rfl
            obtain ⟨k1, k2, k3⟩ := hstore x s s2 e j1
            refine ⟨k1, fun y hy => k3 y (j2 y hy), ?_⟩
            intro i' h1 h2 y hy
            by_cases hii : i' = i
            · subst hii
              rw [Function.update_self, List.take_add_one, hx] at hy
              rcases List.mem_append.1 hy with hy | hy
              · exact k3 y (j3 i' h1 h2 y hy)
              · have : y = x := by simpa using hy
                rw [this]; exact k2
            · rw [Function.update_of_ne hii] at hy
              exact k3 y (j3 i' h1 h2 y hy))
      (some s0) (by
        intro s' hs'
        obtain rfl := Option.some.inj hs'
        exact ⟨h0, fun _ h => h, by simp⟩)
    rw [hme', ← htab] at hd
    have e : roundIns idx (bcastRound S xs) me = is := roundIns_eq hg (bcastRound_ok S xs) his (fun s h1 h2 => by
      rw [bcastRound_to _ _ _ _ hme (Ne.symm h2), henc s h1 h2])
    unfold rseg at hd
    rw [e] at hd
    refine ⟨_, _, hd.mono ?_⟩
    rintro s' ⟨r, hr, hJ⟩ s rfl
    obtain ⟨j1, j2, j3⟩ := hJ s rfl
    refine ⟨xs, hlen, henc, j1, j2, ?_⟩
    intro i h1 h2 y hy
    refine j3 i h1 h2 y ?_
    rw [hr i h1 h2, List.take_of_length_le (Nat.le_refl _)]
    exact hy
  · rintro a L' h' ⟨b, rfl, rfl, is, h1, h2, h3⟩
    obtain ⟨xs, k1, k2, k3, k4, k5⟩ := h3 a rfl
    exact ⟨rfl, xs, k1, fun s hs hne => by rw [h2, k2 s hs hne], k3, k4, k5⟩

end

end DPPIR.Protocol
