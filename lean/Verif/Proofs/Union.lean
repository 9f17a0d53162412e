import Verif.Proofs.Broadcast
import Verif.Proofs.State

/-!
# What is stored after the servers of a party broadcast their secrets
-/

namespace DPPIR.Protocol
open DPPIR Proc PNet Onion Shuffle Spec

variable {ι σ V α : Type}

theorem lookup_of_nodup {k : BitVec 64} {v : V} : ∀ {l : List (BitVec 64 × V)}, (l.map Prod.fst).Nodup → (k, v) ∈ l → l.lookup k = some v := by
  intro l hnd hm
  exact lookup_map_of_nodup l Prod.fst Prod.snd hnd (k, v) hm ▸ (by
    congr 1
    exact (List.map_id l).symm)

theorem flatMap_sublist (f g : Nat → List α) (h : ∀ i, (f i).Sublist (g i)) (l : List Nat) : (l.flatMap f).Sublist (l.flatMap g) := by
  induction l with
  | nil => exact List.Sublist.refl _
  | cons a l ih => exact (h a).append ih

theorem flatMap_update_perm (f f' : Nat → List α) (i : Nat) (y : α) (hi : f' i = f i ++ [y]) (hj : ∀ j, j ≠ i → f' j = f j) :
    ∀ S, i < S → ((List.range S).flatMap f').Perm ((List.range S).flatMap f ++ [y]) := by
  intro S hS
  induction S with
  | zero => omega
  | succ S ih =>
    rw [List.range_succ, List.flatMap_append, List.flatMap_append]
    simp only [List.flatMap_cons, List.flatMap_nil, List.append_nil]
    by_cases e : i = S
    · subst e
      have : (List.range i).flatMap f' = (List.range i).flatMap f := by
        refine List.flatMap_congr ?_
        intro j hj'
        exact hj j (by have := List.mem_range.1 hj'; omega)
      rw [this, hi, List.append_assoc]
    · rw [hj S (Ne.symm e)]
      have := (ih (by omega)).append_right (f S)
      refine this.trans ?_
      rw [List.append_assoc, List.append_assoc]
      exact List.Perm.append_left _ List.perm_append_comm

/-- The secrets that server `me` gets from the others. -/
def others (S me : Nat) (l : Nat → List α) : List α := (List.range S).flatMap (fun i => if i = me then [] else l i)

theorem own_others_perm (S me : Nat) (hme : me < S) (l : Nat → List α) : (l me ++ others S me l).Perm ((List.range S).flatMap l) := by
  have key : ∀ n, ((if me < n then l me else []) ++ others n me l).Perm ((List.range n).flatMap l) := by
    intro n
    induction n with
    | zero => simp [others]
    | succ n ih =>
      unfold others at *
      rw [List.range_succ, List.flatMap_append, List.flatMap_append]
      simp only [List.flatMap_cons, List.flatMap_nil, List.append_nil]
      by_cases e : n = me
      · subst e
        simp only [lt_irrefl, if_false, List.nil_append, if_true, List.append_nil, Nat.lt_succ_self] at *
        exact List.perm_append_comm.trans (ih.append_right _)
      · rw [if_neg e]
        have h : (me < n + 1) = (me < n) := by apply propext; omega
        simp only [h]
        rw [← List.append_assoc]
        exact ih.append_right _
  have := key S
  rwa [if_pos hme] at this

theorem others_congr (S me : Nat) (l l' : Nat → List α) (h : ∀ i, i < S → i ≠ me → l i = l' i) : others S me l = others S me l' := by
  unfold others
  refine List.flatMap_congr ?_
  intro i hi
  split
  · rfl
  · rename_i e; exact h i (List.mem_range.1 hi) e

theorem others_perm (S me : Nat) (l l' : Nat → List α) (h : ∀ i, i < S → (l i).Perm (l' i)) : (others S me l).Perm (others S me l') := by
  unfold others
  refine List.Perm.flatMap_left _ ?_
  intro i hi
  split
  · exact List.Perm.refl _
  · exact h i (List.mem_range.1 hi)

/-- One more secret. -/
theorem broadcast_union_step (store : OfflineSecret → σ → Res σ)
    (get : σ → List (BitVec 64 × V)) (ent : OfflineSecret → BitVec 64 × V) (K : σ → Prop) (hent : ∀ x, (ent x).1 = x.tag)
    (hstore : ∀ x s, K s → (get s).lookup x.tag = none → ∃ s', store x s = .ok s' ∧ K s' ∧ get s' = get s ++ [ent x])
    (S me : Nat) (items : Nat → List OfflineSecret) (s0 : σ)
    (hnd : ((get s0 ++ others S me (fun i => (items i).map ent)).map Prod.fst).Nodup) (r : Nat → Nat) (s : σ) (i : Nat) (x : OfflineSecret)
    (hi : i < S) (him : i ≠ me) (_ : ∀ i, i < S → i ≠ me → r i ≤ (items i).length) (hx : (items i)[r i]? = some x)
    (hJ : K s ∧ (get s).Perm (get s0 ++ others S me (fun i => ((items i).take (r i)).map ent))) :
    ∃ s', store x s = .ok s' ∧ K s' ∧
      (get s').Perm (get s0 ++ others S me (fun j => ((items j).take (Function.update r i (r i + 1) j)).map ent)) := by
  obtain ⟨hk, hp⟩ := hJ
  have hstep : (others S me (fun j => ((items j).take (Function.update r i (r i + 1) j)).map ent)).Perm
      (others S me (fun j => ((items j).take (r j)).map ent) ++ [ent x]) := by
    refine flatMap_update_perm _ _ i (ent x) ?_ ?_ S hi
    · simp only [if_neg him, Function.update_self]
      have hlt := (List.getElem?_eq_some_iff.1 hx).1
      rw [List.take_succ_eq_append_getElem hlt, List.map_append, (List.getElem?_eq_some_iff.1 hx).2]
      rfl
    · intro j hj
      simp only [Function.update_of_ne hj]
  have hfull : (get s ++ [ent x]).Perm (get s0 ++ others S me (fun j => ((items j).take (Function.update r i (r i + 1) j)).map ent)) := by
    refine (hp.append_right _).trans ?_
    rw [List.append_assoc]
    exact hstep.symm.append_left _
  have hnd' : ((get s ++ [ent x]).map Prod.fst).Nodup := by
    refine ((hfull.map Prod.fst).nodup_iff).2 (hnd.sublist (List.Sublist.map _ ((List.Sublist.refl _).append ?_)))
    refine flatMap_sublist _ _ ?_ _
    intro j
    split
    · exact List.Sublist.refl _
    · exact (List.take_sublist _ _).map _
  obtain ⟨s', h1, h2, h3⟩ := hstore x s hk (by
    apply lookup_eq_none_of
    intro e he heq
    rw [List.map_append, List.nodup_append] at hnd'
    exact hnd'.2.2 e.1 (List.mem_map_of_mem he) (ent x).1 (by simp) (by rw [heq, hent]))
  exact ⟨s', h1, h2, h3 ▸ hfull⟩

variable [DecidableEq ι]

/-- If all the secrets have different tags, the store of a server ends up with those of
all servers. -/
theorem broadcast_union {idx : ι → Option Nat} {sib : Nat → ι} {S : Nat} (hg : Group idx sib S) (hS : S < 255)
    (me : Nat) (hme : me < S) (items : Nat → List OfflineSecret) (store : OfflineSecret → σ → Res σ)
    (get : σ → List (BitVec 64 × V)) (ent : OfflineSecret → BitVec 64 × V) (K : σ → Prop) (hent : ∀ x, (ent x).1 = x.tag)
    (hstore : ∀ x s, K s → (get s).lookup x.tag = none → ∃ s', store x s = .ok s' ∧ K s' ∧ get s' = get s ++ [ent x])
    (h32 : preSum (fun s => (items s).length) S < 2 ^ 32) (s0 : σ) (hK : K s0)
    (hnd : ((get s0 ++ others S me (fun i => (items i).map ent)).map Prod.fst).Nodup) :
    PProc.Does (fun s' => K s' ∧ (get s').Perm (get s0 ++ others S me (fun i => (items i).map ent)))
      (broadcastSecrets me S sib (items me) store s0) [rseg idx sib (bcastCounts S items) me, rseg idx sib (bcastRound S items) me] := by
  refine (broadcastSecrets_does hg hS me hme items store
    (fun r s => K s ∧ (get s).Perm (get s0 ++ others S me (fun i => ((items i).take (r i)).map ent))) h32 ?_ s0 ?_).mono ?_
  · exact broadcast_union_step store get ent K hent hstore S me items s0 hnd
  · refine ⟨hK, ?_⟩
    have : others S me (fun i => ((items i).take ((fun _ => 0) i : Nat)).map ent) = [] := by
      unfold others
      simp
    rw [this, List.append_nil]
  · rintro s' ⟨r, hr, hk, hp⟩
    refine ⟨hk, hp.trans ?_⟩
    rw [others_congr S me _ (fun i => (items i).map ent)]
    intro i hi him
    rw [hr i hi him, List.take_of_length_le (Nat.le_refl _)]

end DPPIR.Protocol
