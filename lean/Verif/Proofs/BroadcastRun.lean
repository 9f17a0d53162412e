import Verif.Proofs.Below
import Verif.Proofs.Siblings
import Verif.Spec.Broadcast

/-!
# Networks of servers that broadcast their secrets
-/

namespace DPPIR.Protocol
open DPPIR Proc PNet Onion Shuffle Spec

variable {σ V α : Type}

/-- The order of the rounds. -/
def bcastOrder (S : Nat) (items : Nat → List OfflineSecret) : List (GSeg Nat) :=
  [groupRound (natIdx S) (fun s => s) (bcastCounts S items), groupRound (natIdx S) (fun s => s) (bcastRound S items)]

theorem bcastOrder_proj (S : Nat) (items : Nat → List OfflineSecret) {s : Nat} (hs : s < S) :
    (proj s (bcastOrder S items) : List (Seg Nat Obs)) =
      [rseg (natIdx S) (fun s => s) (bcastCounts S items) s, rseg (natIdx S) (fun s => s) (bcastRound S items) s] := by
  unfold bcastOrder proj
  have e := fun outs => proj1_round (natGroup S) outs (O := Obs) hs
  simp only [List.flatMap_cons, List.flatMap_nil, List.append_nil]
  rw [e, e]
  rfl

theorem bcastOrder_none (S : Nat) (items : Nat → List OfflineSecret) {s : Nat} (hs : ¬ s < S) :
    (proj s (bcastOrder S items) : List (Seg Nat Obs)) = [] := by
  unfold bcastOrder proj
  have e := fun outs => proj1_round_none (idx := natIdx S) (sib := fun s => s) outs (O := Obs) (i := s) (by simp [natIdx, hs])
  simp only [List.flatMap_cons, List.flatMap_nil, List.append_nil]
  rw [e, e]
  rfl

theorem flatten_encode_length (l : List OfflineSecret) : ((l.map OfflineSecret.encode).flatten).length = l.length * secretSize := by
  induction l with
  | nil => simp
  | cons x l ih =>
    rw [List.map_cons, List.flatten_cons, List.length_append, ih, x.encode_length, List.length_cons, Nat.succ_mul, Nat.add_comm]

theorem bcastOrder_ok (S : Nat) (items : Nat → List OfflineSecret) {cap : Nat × Nat → Nat}
    (hcap : Roomy S (fun s => (items s).length) cap) : ∀ g ∈ bcastOrder S items, GSeg.Ok cap g := by
  intro g hg
  unfold bcastOrder at hg
  simp only [List.mem_cons, List.not_mem_nil, or_false] at hg
  rcases hg with rfl | rfl
  · refine groupRound_ok (natGroup _) (castOut_ok _ _) ?_
    intro s t hs ht
    rw [toOne_cast]
    split
    · rw [countMsg, natLE_length]; exact (hcap s t hs ht).1
    · simp
  · refine groupRound_ok (natGroup _) (bcastRound_ok _ _) ?_
    intro s t hs ht
    by_cases e : t = s
    · subst e
      have : toOne t (bcastRound S items t) = [] := by
        unfold toOne
        rw [List.filterMap_eq_nil_iff]
        intro o ho
        rw [if_neg (bcastRound_ok S items t hs o ho).2]
      rw [this]; exact Nat.zero_le _
    · rw [bcastRound_to _ _ _ _ ht e, flatten_encode_length]
      exact (hcap s t hs ht).2

/-- What is needed of a store of secrets. -/
structure BStore (σ V : Type) where
  store : OfflineSecret → σ → Res σ
  get : σ → List (BitVec 64 × V)
  ent : OfflineSecret → BitVec 64 × V
  K : σ → Prop
  hent : ∀ x, (ent x).1 = x.tag
  fresh : ∀ x s, K s → (get s).lookup x.tag = none → ∃ s', store x s = .ok s' ∧ K s' ∧ get s' = get s ++ [ent x]
  clash : ∀ x s v, (get s).lookup x.tag = some v → store x s = .error .assertFail
  error : ∀ x s e, store x s = .error e → e = .assertFail

namespace BStore
variable (B : BStore σ V)

/-- A store that goes on after a failure. -/
def lenient (x : OfflineSecret) : Option σ → Res (Option σ)
  | none => .ok none
  | some s => match B.store x s with
    | .ok s' => .ok (some s')
    | .error _ => .ok none

/-- All the entries. -/
def all (S : Nat) (items : Nat → List OfflineSecret) : List (BitVec 64 × V) := (List.range S).flatMap (fun s => (items s).map B.ent)

theorem none_of_not_nodup {k : BitVec 64} {v : V} {l : List (BitVec 64 × V)} (h : ((l ++ [(k, v)]).map Prod.fst).Nodup) : l.lookup k = none := by
  apply lookup_eq_none_of
  intro e he heq
  rw [List.map_append, List.nodup_append] at h
  exact h.2.2 e.1 (List.mem_map_of_mem he) k (by simp) heq

/-- Broadcasting with the lenient store: if nothing failed, the keys were different. -/
theorem lenient_does {ι : Type} [DecidableEq ι] {idx : ι → Option Nat} {sib : Nat → ι} {S : Nat} (hg : Group idx sib S) (hS : S < 255) (me : Nat) (hme : me < S) (items : Nat → List OfflineSecret)
    (h32 : preSum (fun s => (items s).length) S < 2 ^ 32) (s0 : σ) (hK : B.K s0) (hnd : ((B.get s0).map Prod.fst).Nodup) :
    PProc.Does (fun o => ∀ s', o = some s' → ((B.get s0 ++ others S me (fun i => (items i).map B.ent)).map Prod.fst).Nodup)
      (broadcastSecrets me S sib (items me) B.lenient (some s0))
      [rseg idx sib (bcastCounts S items) me, rseg idx sib (bcastRound S items) me] := by
  refine (broadcastSecrets_does hg hS me hme items B.lenient
    (fun r o => ∀ s, o = some s → B.K s ∧ ((B.get s).map Prod.fst).Nodup ∧
      (B.get s).Perm (B.get s0 ++ others S me (fun i => ((items i).take (r i)).map B.ent))) h32 ?_ (some s0) ?_).mono ?_
  · rintro r o i x hi him hr hx hJ
    cases o with
    | none => exact ⟨none, rfl, fun s hs => by cases hs⟩
    | some s =>
      obtain ⟨hk, hn, hp⟩ := hJ s rfl
      cases hl : (B.get s).lookup x.tag with
      | some v =>
        refine ⟨none, ?_, fun s hs => by cases hs⟩
        show (match B.store x s with | .ok s' => _ | .error _ => _) = _
        rw [B.clash x s v hl]
      | none =>
        obtain ⟨s', h1, h2, h3⟩ := B.fresh x s hk hl
        refine ⟨some s', ?_, ?_⟩
        · show (match B.store x s with | .ok s' => _ | .error _ => _) = _
          rw [h1]
        · rintro _ ⟨rfl⟩
          refine ⟨h2, ?_, ?_⟩
          · rw [h3, List.map_append, List.nodup_append]
            refine ⟨hn, by simp, ?_⟩
            intro a ha b hb
            rw [List.map_singleton, List.mem_singleton, B.hent] at hb
            subst hb
            rintro rfl
            obtain ⟨e, he, heq⟩ := List.mem_map.1 ha
            have := lookup_of_nodup hn (show (x.tag, e.2) ∈ B.get s by rw [← heq]; exact he)
            rw [hl] at this
            cases this
          · rw [h3]
            refine (hp.append_right _).trans ?_
            rw [List.append_assoc]
            refine List.Perm.append_left _ (List.Perm.symm ?_)
            refine flatMap_update_perm _ _ i (B.ent x) ?_ ?_ S hi
            · simp only [if_neg him, Function.update_self]
              have hlt := (List.getElem?_eq_some_iff.1 hx).1
              rw [List.take_succ_eq_append_getElem hlt, List.map_append, (List.getElem?_eq_some_iff.1 hx).2]
              rfl
            · intro j hj
              simp only [Function.update_of_ne hj]
  · rintro s ⟨rfl⟩
    refine ⟨hK, hnd, ?_⟩
    have : others S me (fun i => ((items i).take ((fun _ => 0) i : Nat)).map B.ent) = [] := by
      unfold others
      simp
    rw [this, List.append_nil]
  · rintro o ⟨r, hr, hJ⟩ s rfl
    obtain ⟨-, hn, hp⟩ := hJ s rfl
    rw [(hp.map Prod.fst).nodup_iff] at hn
    rwa [others_congr S me _ (fun i => (items i).map B.ent)] at hn
    intro i hi him
    rw [hr i hi him, List.take_of_length_le (Nat.le_refl _)]

theorem lenient_rel (x : OfflineSecret) (s : σ) (o : Option σ) (a : σ) (h : o = some s) (ha : B.store x s = .ok a) :
    ∃ b, B.lenient x o = .ok b ∧ b = some a := by
  subst h
  refine ⟨some a, ?_, rfl⟩
  show (match B.store x s with | .ok s' => _ | .error _ => _) = _
  rw [ha]

end BStore

/-- The store of a party. -/
def partyStore : BStore PartyState PartySecret where
  store x s := s.store x
  get s := s.secrets
  ent := OfflineSecret.entry
  K s := s.simulated = false
  hent _ := rfl
  fresh := by
    intro x s hs hl
    refine ⟨{ s with secrets := s.secrets ++ [OfflineSecret.entry x], it := none }, ?_, hs, rfl⟩
    unfold PartyState.store
    rw [hl]
    rfl
  clash := by
    intro x s v hl
    unfold PartyState.store
    rw [hl]
  error := by
    intro x s e h
    unfold PartyState.store at h
    split at h
    · exact (Except.error.inj h).symm
    · cases h

/-- The store of the backend. -/
def backendStore : BStore BackendState BackendSecret where
  store x s := s.store x
  get s := s.secrets
  ent := OfflineSecret.entryB
  K s := s.simulated = false
  hent _ := rfl
  fresh := by
    intro x s hs hl
    refine ⟨{ s with secrets := s.secrets ++ [OfflineSecret.entryB x], it := none }, ?_, hs, rfl⟩
    unfold BackendState.store
    rw [hl]
    rfl
  clash := by
    intro x s v hl
    unfold BackendState.store
    rw [hl]
  error := by
    intro x s e h
    unfold BackendState.store at h
    split at h
    · exact (Except.error.inj h).symm
    · cases h

theorem bind_done {ι O α : Type} (p : PProc ι O α) : p.bind (fun a => .done a) = p := by
  induction p with
  | done a => rfl
  | fault e => rfl
  | send d b k ih => exact congrArg _ ih
  | recv s k ih => exact congrArg _ (funext ih)
  | obs o k ih => exact congrArg _ ih
  | poll l b k ih => exact congrArg _ (funext ih)
  | read s m k ih => exact congrArg _ (funext ih)

/-- Servers that broadcast and then put the result where it belongs. -/
structure Casting (B : BStore σ V) (S : Nat) (items : Nat → List OfflineSecret) (s0 : Nat → σ) (put : Nat → σ → α)
    (prog : Nat → α → PProg Nat α) (p : Nat → α) : Prop where
  servers : 0 < S ∧ S < 255
  prog : ∀ s, s < S → prog s (p s) = (broadcastSecrets s S (fun s => s) (items s) B.store (s0 s)).bind (fun st => .done (put s st))
  K : ∀ s, s < S → B.K (s0 s)
  get : ∀ s, s < S → ((items s).map B.ent).Perm (B.get (s0 s))
  keys : ∀ s, s < S → ((B.get (s0 s)).map Prod.fst).Nodup
  total : preSum (fun s => (items s).length) S < 2 ^ 32

namespace Casting
variable {B : BStore σ V} {S : Nat} {items : Nat → List OfflineSecret} {s0 : Nat → σ} {put : Nat → σ → α}
  {prog : Nat → α → PProg Nat α} {p : Nat → α}

theorem perm (h : Casting B S items s0 put prog p) {s : Nat} (hs : s < S) :
    (B.get (s0 s) ++ others S s (fun i => (items i).map B.ent)).Perm ((List.range S).flatMap (fun s => B.get (s0 s))) := by
  refine ((h.get s hs).symm.append_right _).trans ((own_others_perm S s hs (fun i => (items i).map B.ent)).trans ?_)
  exact List.Perm.flatMap_left _ (fun i hi => h.get i (List.mem_range.1 hi))

/-- With different keys. -/
theorem does (h : Casting B S items s0 put prog p)
    (hnd : (((List.range S).flatMap (fun s => B.get (s0 s))).map Prod.fst).Nodup) (s : Nat) :
    PProc.Does (fun a => s < S → ∃ st, a = put s st ∧ B.K st ∧ (B.get st).Perm ((List.range S).flatMap (fun s => B.get (s0 s))))
      ((Spec.servers S prog p).proc s) (proj s (bcastOrder S items)) := by
  show PProc.Does _ (if s < S then prog s (p s) else .done (p s)) _
  by_cases hs : s < S
  · rw [if_pos hs, bcastOrder_proj S items hs, h.prog s hs]
    refine PProc.Does.bind' (broadcast_union (natGroup S) h.servers.2 s hs items B.store B.get B.ent B.K B.hent B.fresh h.total (s0 s)
      (h.K s hs) (by rw [((h.perm hs).map Prod.fst).nodup_iff]; exact hnd)) (M := []) ?_ rfl
    rintro st ⟨h1, h2⟩
    exact .done (fun _ => ⟨st, rfl, h1, h2.trans (h.perm hs)⟩)
  · rw [if_neg hs, bcastOrder_none S items hs]
    exact .done (fun h => absurd h hs)

theorem safe (h : Casting B S items s0 put prog p)
    (hnd : (((List.range S).flatMap (fun s => B.get (s0 s))).map Prod.fst).Nodup) {cap : Nat × Nat → Nat} {n : PNet Nat Obs α}
    (hr : Reach cap (Spec.servers S prog p) n) :
    (∀ s, ¬ n.Faulted s) ∧
    (∀ t a, t < S → n.Returned t a → ∃ st, a = put t st ∧ B.K st ∧ (B.get st).Perm ((List.range S).flatMap (fun s => B.get (s0 s)))) ∧
    (Roomy S (fun s => (items s).length) cap → CanStep cap n ∨ ∀ t, ∃ a, n.Returned t a) := by
  obtain ⟨h1, -, h3⟩ := script_safe (bcastOrder_ok S items
      (cap := fun c => 4 + (items c.1).length * secretSize) (fun s t _ _ => ⟨Nat.le_add_right _ _, Nat.le_add_left _ _⟩))
    (h.does hnd) (fun i => proj_comm i _) hr
  refine ⟨h1, fun t a ht ha => (h3 t a ha).1 ht, fun room => ?_⟩
  rcases (script_net (bcastOrder_ok S items room) (h.does hnd) (fun i => proj_comm i _) hr).2.2 with h1 | h1
  · exact .inl h1
  · exact .inr (fun t => by obtain ⟨⟨a, ha, -⟩, -⟩ := h1.1 t; exact ⟨a, ha⟩)

theorem finite (S : Nat) (prog : Nat → α → PProg Nat α) (p : Nat → α) :
    ∀ s ∉ Finset.range S, ∃ a, (Spec.servers S prog p).Returned s a := by
  intro s hs
  refine ⟨p s, ?_⟩
  show (if s < S then prog s (p s) else .done (p s)) = _
  rw [if_neg (by simpa using hs)]

/-- With equal keys. -/
theorem stops (h : Casting B S items s0 put prog p)
    (hnd : ¬ (((List.range S).flatMap (fun s => B.get (s0 s))).map Prod.fst).Nodup) {cap : Nat × Nat → Nat} {n : PNet Nat Obs α}
    (hr : Reach cap (Spec.servers S prog p) n) :
    (∀ s a, s < S → ¬ n.Returned s a) ∧ (∀ s e, n.proc s = .fault e → e = .assertFail) ∧
    (Roomy S (fun s => (items s).length) cap → CanStep cap n ∨ ∃ s, n.Faulted s) := by
  let q : Nat → PProc Nat Obs (Option σ) := fun s =>
    if s < S then broadcastSecrets s S (fun s => s) (items s) B.lenient (some (s0 s)) else .done none
  have hpq : ∀ s, PProc.Below (fun e => e = .assertFail) (fun a o => s < S → ∃ st, o = some st ∧ a = put s st)
      (if s < S then prog s (p s) else .done (p s)) (q s) := by
    intro s
    show PProc.Below _ _ _ (if s < S then _ else _)
    by_cases hs : s < S
    · rw [if_pos hs, if_pos hs, h.prog s hs]
      have := (broadcastSecrets_rel (F := fun e => e = Fault.assertFail) s S (fun s => s) (items s) (store := B.store)
        (store' := B.lenient) (R := fun s o => o = some s) B.lenient_rel (fun x s o e _ he => .inl (B.error x s e he))
        (s := s0 s) (s' := some (s0 s)) rfl).bind (T := fun a o => s < S → ∃ st, o = some st ∧ a = put s st)
        (f := fun st => PProc.done (put s st)) (g := fun o => PProc.done o) (by
          rintro st o rfl
          exact .done (fun _ => ⟨st, rfl, rfl⟩))
      rwa [bind_done] at this
    · rw [if_neg hs, if_neg hs]
      exact .done (fun h => absurd h hs)
  have hd : ∀ s, PProc.Does (fun o => s < S → ∀ st, o = some st → False) (q s) (proj s (bcastOrder S items)) := by
    intro s
    show PProc.Does _ (if s < S then _ else _) _
    by_cases hs : s < S
    · rw [if_pos hs, bcastOrder_proj S items hs]
      refine (B.lenient_does (natGroup S) h.servers.2 s hs items h.total (s0 s) (h.K s hs) (h.keys s hs)).mono ?_
      intro o ho _ st hst
      apply hnd
      rw [← ((h.perm hs).map Prod.fst).nodup_iff]
      exact ho st hst
    · rw [if_neg hs, bcastOrder_none S items hs]
      exact .done (fun h => absurd h hs)
  obtain ⟨-, h2, h3, h4⟩ := below_script (bcastOrder_ok S items
      (cap := fun c => 4 + (items c.1).length * secretSize) (fun s t _ _ => ⟨Nat.le_add_right _ _, Nat.le_add_left _ _⟩))
    hpq hd (fun i => proj_comm i _) hr
  refine ⟨?_, h2, ?_⟩
  · intro s a hs ha
    obtain ⟨o, h5, h6⟩ := h3 s a ha
    obtain ⟨st, h7, -⟩ := h5 hs
    exact h6 hs st h7
  · intro hroom
    rcases h4 (bcastOrder_ok S items hroom) with h5 | h5 | h5
    · exact .inl h5
    · exact .inr h5
    · obtain ⟨a, o, h6, h7, h8⟩ := h5 0
      obtain ⟨st, h9, -⟩ := h7 h.servers.1
      exact absurd (h8 h.servers.1 st h9) id

end Casting

end DPPIR.Protocol
