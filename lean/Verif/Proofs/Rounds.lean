import Verif.Proofs.ShuffleRound

/-!
# Rounds among the servers of a party
-/

namespace DPPIR.Protocol
open DPPIR Proc PNet Shuffle

variable {ι : Type} [DecidableEq ι]

/-! ## Writing everything, then reading everything -/

theorem does_recvs {α : Type} {p : Prog ι α} {rs : List (ι × Byte)} {a : α}
    (h : Runs p (rs.map (fun o => (Act.recv o.1 o.2 : PAct ι))) a) {is av} (his : ∀ j, is j = bytesTo j rs) :
    PProc.Does (fun x => x = a) (PProc.ofProc p) [.xchg [] is av] := by
  induction rs generalizing p is av with
  | nil =>
    cases h
    exact .xend (fun j => by rw [his j]; rfl) (.done rfl)
  | cons o rs ih =>
    obtain ⟨s, b⟩ := o
    cases h with
    | recv h =>
      refine .xrecv (l := bytesTo s rs) (by rw [his s]; simp [bytesTo]) (ih h ?_)
      intro j
      by_cases hj : j = s
      · subst hj; rw [Function.update_self]
      · rw [Function.update_of_ne hj, his j]
        simp [bytesTo, Ne.symm hj]

/-- A program that writes and then reads takes part in a round. -/
theorem does_round {α : Type} {p : Prog ι α} {os rs : List (ι × Byte)} {a : α}
    (h : Runs p (os.map (fun o => (Act.send o.1 o.2 : PAct ι)) ++ rs.map (fun o => (Act.recv o.1 o.2 : PAct ι))) a) {is av}
    (his : ∀ j, is j = bytesTo j rs) :
    PProc.Does (fun x => x = a) (PProc.ofProc p) [.xchg os is av] := by
  induction os generalizing p with
  | nil => exact does_recvs h his
  | cons o os ih =>
    cases h with
    | send h => exact .xsend (ih h)

/-! ## Rounds of a group -/

/-- The servers of a party: `sib s` is the name of server `s < S`, `idx` its inverse. -/
structure Group (idx : ι → Option Nat) (sib : Nat → ι) (S : Nat) : Prop where
  iff : ∀ i s, idx i = some s ↔ s < S ∧ i = sib s
  inj : Function.Injective sib

theorem Group.sib {idx : ι → Option Nat} {sib : Nat → ι} {S : Nat} (h : Group idx sib S) {s : Nat} (hs : s < S) :
    idx (sib s) = some s := (h.iff _ _).2 ⟨hs, rfl⟩

/-- What server `t` reads in a round in which server `s` writes `outs s`. -/
def roundIns (idx : ι → Option Nat) (outs : Nat → List (Nat × Byte)) (t : Nat) (i : ι) : List Byte :=
  match idx i with
  | some s => toOne t (outs s)
  | none => []

/-- A round in which server `s` writes `outs s`. -/
def groupRound (idx : ι → Option Nat) (sib : Nat → ι) (outs : Nat → List (Nat × Byte)) : GSeg ι :=
  .round (fun i => (idx i).isSome)
    (fun i => match idx i with
      | some s => (outs s).map (fun o => (sib o.1, o.2))
      | none => [])
    (fun j i => match idx j with
      | some t => roundIns idx outs t i
      | none => [])

/-- The servers write to each other. -/
def OutsOk (S : Nat) (outs : Nat → List (Nat × Byte)) : Prop := ∀ s, s < S → ∀ o ∈ outs s, o.1 < S ∧ o.1 ≠ s

theorem bytesTo_sib {sib : Nat → ι} (inj : Function.Injective sib) (os : List (Nat × Byte)) (t : Nat) :
    bytesTo (sib t) (os.map (fun o => (sib o.1, o.2))) = toOne t os := by
  unfold bytesTo toOne
  rw [List.filterMap_map]
  congr 1
  funext o
  simp only [Function.comp_def]
  by_cases h : o.1 = t
  · simp [h]
  · rw [if_neg h, if_neg (fun e => h (inj e))]

theorem toOne_self {S : Nat} {outs : Nat → List (Nat × Byte)} (h : OutsOk S outs) {s : Nat} (hs : s < S) : toOne s (outs s) = [] := by
  unfold toOne
  rw [List.filterMap_eq_nil_iff]
  intro o ho
  rw [if_neg (h s hs o ho).2]

theorem roundIns_sib {idx : ι → Option Nat} {sib : Nat → ι} {S : Nat} (h : Group idx sib S) (outs : Nat → List (Nat × Byte))
    {t s : Nat} (hs : s < S) : roundIns idx outs t (sib s) = toOne t (outs s) := by
  unfold roundIns
  rw [h.sib hs]

/-- Nothing is read from others. -/
theorem roundIns_other {idx : ι → Option Nat} {sib : Nat → ι} {S : Nat} (h : Group idx sib S) {outs : Nat → List (Nat × Byte)}
    (ho : OutsOk S outs) {t : Nat} {j : ι} (hj : ∀ s, s < S ∧ s ≠ t → j ≠ sib s) : roundIns idx outs t j = [] := by
  unfold roundIns
  cases e : idx j with
  | none => rfl
  | some s =>
    obtain ⟨h1, h2⟩ := (h.iff _ _).1 e
    by_cases hst : s = t
    · subst hst; exact toOne_self ho h1
    · exact absurd h2 (hj s ⟨h1, hst⟩)

theorem groupRound_ok {idx : ι → Option Nat} {sib : Nat → ι} {S : Nat} (h : Group idx sib S) {outs : Nat → List (Nat × Byte)}
    (ho : OutsOk S outs) {cap : ι × ι → Nat}
    (hcap : ∀ s t, s < S → t < S → (toOne t (outs s)).length ≤ cap (sib s, sib t)) : GSeg.Ok cap (groupRound idx sib outs) := by
  intro i j
  cases ei : idx i with
  | none =>
    simp only [ei, Option.isSome_none, Bool.false_eq_true, if_false, false_implies, and_true]
    cases ej : idx j with
    | none => simp
    | some t => simp [roundIns, ei]
  | some s =>
    obtain ⟨hs, rfl⟩ := (h.iff _ _).1 ei
    simp only [ei, Option.isSome_some, if_true, true_implies]
    cases ej : idx j with
    | some t =>
      obtain ⟨ht, rfl⟩ := (h.iff _ _).1 ej
      simp only [Option.isSome_some, if_true]
      rw [bytesTo_sib h.inj, roundIns_sib h _ hs]
      exact ⟨rfl, hcap s t hs ht⟩
    | none =>
      have : bytesTo j ((outs s).map (fun o => (sib o.1, o.2))) = [] := by
        unfold bytesTo
        rw [List.filterMap_map, List.filterMap_eq_nil_iff]
        intro o hoo
        simp only [Function.comp_def]
        rw [if_neg]
        rintro rfl
        rw [h.sib (ho s hs o hoo).1] at ej
        cases ej
      rw [this]
      simp

/-- The part of server `s` in a round. -/
theorem proj1_round {idx : ι → Option Nat} {sib : Nat → ι} {S : Nat} (h : Group idx sib S) (outs : Nat → List (Nat × Byte)) {O : Type}
    {s : Nat} (hs : s < S) :
    (proj1 (sib s) (groupRound idx sib outs) : List (Seg ι O)) =
      [.xchg ((outs s).map (fun o => (sib o.1, o.2))) (roundIns idx outs s) (fun _ => false)] := by
  unfold groupRound proj1
  simp only [h.sib hs, Option.isSome_some, if_true]

theorem proj1_round_none {idx : ι → Option Nat} {sib : Nat → ι} (outs : Nat → List (Nat × Byte)) {O : Type}
    {i : ι} (hi : idx i = none) : (proj1 i (groupRound idx sib outs) : List (Seg ι O)) = [] := by
  unfold groupRound proj1
  simp [hi]

/-! ## One message to every sibling -/

/-- Server `s` writes `m s t` to every other server `t`. -/
def castOut (S : Nat) (m : Nat → Nat → List Byte) (s : Nat) : List (Nat × Byte) :=
  (List.range S).flatMap (fun t => if t ≠ s then (m s t).map (fun x => (t, x)) else [])

theorem toOne_cast (S : Nat) (m : Nat → Nat → List Byte) (s t : Nat) :
    toOne t (castOut S m s) = if t < S ∧ t ≠ s then m s t else [] :=
  toOne_flushes S s (fun t => ⟨0, m s t⟩) t

theorem castOut_ok (S : Nat) (m : Nat → Nat → List Byte) : OutsOk S (castOut S m) := by
  intro s hs o ho
  obtain ⟨t, h1, h2⟩ := List.mem_flatMap.1 ho
  split at h2
  · rename_i hne
    obtain ⟨x, -, rfl⟩ := List.mem_map.1 h2
    exact ⟨by simpa using h1, hne⟩
  · cases h2

/-- What server `t` reads, in the order of the servers. -/
def castIn (S : Nat) (sib : Nat → ι) (m : Nat → Nat → List Byte) (t : Nat) : List (ι × Byte) :=
  (List.range S).flatMap (fun s => if s ≠ t then (m s t).map (fun x => (sib s, x)) else [])

theorem roundIns_cast {idx : ι → Option Nat} {sib : Nat → ι} {S : Nat} (h : Group idx sib S) (m : Nat → Nat → List Byte)
    {t : Nat} (ht : t < S) (j : ι) : roundIns idx (castOut S m) t j = bytesTo j (castIn S sib m t) := by
  have e : castIn S sib m t = (castOut S (fun t s => m s t) t).map (fun o => (sib o.1, o.2)) := by
    unfold castIn castOut
    rw [List.map_flatMap]
    congr 1
    funext s
    split <;> simp [Function.comp_def]
  rw [e]
  cases ej : idx j with
  | some s =>
    obtain ⟨hs, rfl⟩ := (h.iff _ _).1 ej
    rw [roundIns_sib h _ hs, bytesTo_sib h.inj, toOne_cast, toOne_cast]
    by_cases hst : s = t
    · subst hst; simp
    · rw [if_pos ⟨ht, Ne.symm hst⟩, if_pos ⟨hs, hst⟩]
  | none =>
    unfold roundIns
    rw [ej]
    symm
    unfold bytesTo
    rw [List.filterMap_map, List.filterMap_eq_nil_iff]
    intro o hoo
    simp only [Function.comp_def]
    rw [if_neg]
    rintro rfl
    rw [h.sib (castOut_ok S _ t ht o hoo).1] at ej
    cases ej

theorem castOut_send (S : Nat) (sib : Nat → ι) (m : Nat → Nat → List Byte) (s : Nat) :
    ((castOut S m s).map (fun o => (sib o.1, o.2))).map (fun o => (Act.send o.1 o.2 : PAct ι)) =
      (List.range' 0 S).flatMap (fun t => if t ≠ s then (m s t).map (Act.send (sib t)) else []) := by
  unfold castOut
  rw [List.map_map, List.map_flatMap, List.range_eq_range']
  congr 1
  funext t
  split <;> simp [Function.comp_def]

theorem castIn_recv (S : Nat) (sib : Nat → ι) (m : Nat → Nat → List Byte) (t : Nat) :
    (castIn S sib m t).map (fun o => (Act.recv o.1 o.2 : PAct ι)) =
      (List.range' 0 S).flatMap (fun s => if s ≠ t then (m s t).map (Act.recv (sib s)) else []) := by
  unfold castIn
  rw [List.map_flatMap, List.range_eq_range']
  congr 1
  funext s
  split <;> simp [Function.comp_def]

/-- The bytes of a barrier. -/
def readyMsg : Nat → Nat → List Byte := fun _ _ => [1]

/-- A barrier. -/
theorem barrier_does {idx : ι → Option Nat} {sib : Nat → ι} {S : Nat} (h : Group idx sib S) {me : Nat} (hme : me < S) (av) :
    PProc.Does (fun _ => True) (PProc.ofProc (barrier me S sib))
      [.xchg ((castOut S readyMsg me).map (fun o => (sib o.1, o.2))) (roundIns idx (castOut S readyMsg) me) av] := by
  refine (does_round (rs := castIn S sib readyMsg me) (a := ()) ?_ (fun j => roundIns_cast h _ hme j)).mono (fun _ _ => trivial)
  rw [castOut_send, castIn_recv]
  unfold barrier
  have h1 := Runs.loop (ι := ι) (O := Obs) (fun id (_ : Unit) => if id ≠ me then sendBytes (sib id) [1] else .done ())
    (fun t => if t ≠ me then (readyMsg me t).map (Act.send (sib t)) else []) (fun _ => ()) S 0 (by
      intro j _ _
      by_cases hj : j = me
      · simp only [hj, ne_eq, not_true_eq_false, if_false]; exact Runs.done _
      · simp only [ne_eq, hj, not_false_eq_true, if_true]; exact Runs.sendBytes _ _)
  have h2 := Runs.loop (ι := ι) (O := Obs) (fun id (_ : Unit) => if id ≠ me then do
      let l ← recvBytes (sib id) 1
      lift (assert (l = [1]))
    else .done ())
    (fun s => if s ≠ me then (readyMsg s me).map (Act.recv (sib s)) else []) (fun _ => ()) S 0 (by
      intro j _ _
      by_cases hj : j = me
      · simp only [hj, ne_eq, not_true_eq_false, if_false]; exact Runs.done _
      · simp only [ne_eq, hj, not_false_eq_true, if_true]
        exact Runs.bind' (Runs.recvBytes (sib j) [1] rfl) (Runs.lift rfl) (List.append_nil _).symm)
  exact Runs.bind h1 h2

/-- The bytes of an exchange of counts. -/
def countMsg (c : Nat → Nat → Nat) : Nat → Nat → List Byte := fun s t => natLE 4 (BitVec.ofNat 32 (c s t)).toNat

theorem runs_sibReadCount (s : ι) (n : Nat) (h : n < 2 ^ 32) :
    Runs (sibReadCount s) ((natLE 4 (BitVec.ofNat 32 n).toNat).map (Act.recv s) : List (PAct ι)) n := by
  have hr : Runs (sibReadCount s) _ _ := Runs.bind (O := Obs) (Runs.recvBytes s (natLE 4 (BitVec.ofNat 32 n).toNat) (natLE_length _ _))
    (Runs.done _)
  rw [ofNat_natOfLE_natLE 32 4 _ rfl] at hr
  have e : (BitVec.ofNat 32 n).toNat = n := by simp; omega
  rw [List.append_nil] at hr
  conv at hr => rhs; rw [e]
  exact hr

/-- An exchange of counts. -/
theorem counts_does {idx : ι → Option Nat} {sib : Nat → ι} {S : Nat} (h : Group idx sib S) {me : Nat} (hme : me < S)
    (c : Nat → Nat → Nat) (hc : ∀ s t, s < S → t < S → c s t < 2 ^ 32) (n : Nat → Res Nat)
    (hn : ∀ t, t < S → t ≠ me → n t = .ok (c me t)) (own : Nat) (av) :
    PProc.Does (fun l => l = tab S (fun s => if s = me then own else c s me)) (PProc.ofProc (exchangeCounts me S sib n own))
      [.xchg ((castOut S (countMsg c) me).map (fun o => (sib o.1, o.2))) (roundIns idx (castOut S (countMsg c)) me) av] := by
  refine does_round (rs := castIn S sib (countMsg c) me) ?_ (fun j => roundIns_cast h _ hme j)
  rw [castOut_send, castIn_recv]
  unfold exchangeCounts sendCounts readCounts
  have h1 := Runs.loop (ι := ι) (O := Obs) (fun id (_ : Unit) => if id ≠ me then do
      let c ← lift (n id)
      sibSendCount (sib id) c
    else .done ())
    (fun t => if t ≠ me then (countMsg c me t).map (Act.send (sib t)) else []) (fun _ => ()) S 0 (by
      intro j _ hjS
      by_cases hj : j = me
      · simp only [hj, ne_eq, not_true_eq_false, if_false]; exact Runs.done _
      · simp only [ne_eq, hj, not_false_eq_true, if_true]
        exact Runs.bind' (Runs.lift (hn j (by omega) hj)) (Runs.sendBytes _ _) (List.nil_append _).symm)
  have h2 := Runs.loop (ι := ι) (O := Obs) (fun id (l : List Nat) => if id ≠ me then do
      let c ← sibReadCount (sib id)
      return l ++ [c]
    else return l ++ [own])
    (fun s => if s ≠ me then (countMsg c s me).map (Act.recv (sib s)) else [])
    (fun k => tab k (fun s => if s = me then own else c s me)) S 0 (by
      intro j _ hjS
      have e : ∀ f : Nat → Nat, tab (j + 1) f = tab j f ++ [f j] := by
        intro f; simp [tab, List.range_succ]
      by_cases hj : j = me
      · simp only [e]
        simp only [hj, ne_eq, not_true_eq_false, if_false, if_true]
        exact Runs.done _
      · simp only [e]
        simp only [ne_eq, hj, not_false_eq_true, if_true, if_false]
        exact Runs.bind' (runs_sibReadCount _ _ (hc j me (by omega) hme)) (Runs.done _) (List.append_nil _).symm)
  rw [Nat.zero_add] at h2
  exact Runs.bind h1 h2

end DPPIR.Protocol
