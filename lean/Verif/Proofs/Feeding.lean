import Verif.Spec.Feeding

/-!
# What a fed program does, it does in a run
-/

namespace DPPIR.PProc
variable {ι O α : Type} [DecidableEq ι]

/-- How a fed process ended. -/
def ending : Except Fault α → PProc ι O α
  | .ok a => .done a
  | .error e => .fault e

theorem feed_hears (i : ι) (p : PProc ι O α) : ∀ (l : ι → List Byte) (n : PNet ι O α) (t : List O) (r : Except Fault α) (l' : ι → List Byte),
    feed i l p = some (t, r, l') → n.proc i = p → (∀ j, n.chan (j, i) = l j) →
    ∃ N, ∀ (cap : ι × ι → Nat), (∀ c, N ≤ cap c) → ∀ (n0 : PNet ι O α) (L : ι → List Byte), PNet.Hears cap i n0 n L →
      ∃ n' L', PNet.Hears cap i n0 n' L' ∧ n'.proc i = ending r ∧ n'.seen i = n.seen i ++ t ∧ ∀ j, L' j ++ l' j = L j ++ l j := by
  induction p with
  | done a =>
    intro l n t r l' h hp hc
    simp only [feed, Option.some.injEq, Prod.mk.injEq] at h
    obtain ⟨rfl, rfl, rfl⟩ := h
    exact ⟨0, fun cap _ n0 L hn => ⟨n, L, hn, hp, by simp, fun j => rfl⟩⟩
  | fault e =>
    intro l n t r l' h hp hc
    simp only [feed, Option.some.injEq, Prod.mk.injEq] at h
    obtain ⟨rfl, rfl, rfl⟩ := h
    exact ⟨0, fun cap _ n0 L hn => ⟨n, L, hn, hp, by simp, fun j => rfl⟩⟩
  | send d b k ih =>
    intro l n t r l' h hp hc
    simp only [feed] at h
    split at h
    · cases h
    · rename_i hd
      obtain ⟨N, hN⟩ := ih l { n with proc := Function.update n.proc i k, chan := Function.update n.chan (i, d) (n.chan (i, d) ++ [b]) } t r l' h
        (Function.update_self ..) (fun j => by
          show Function.update n.chan (i, d) _ (j, i) = _
          rw [Function.update_of_ne (fun e => hd (congrArg Prod.snd e).symm), hc j])
      refine ⟨max N ((n.chan (i, d)).length + 1), fun cap hcap n0 L hn => ?_⟩
      refine hN cap (fun c => le_trans (Nat.le_max_left _ _) (hcap c)) n0 L
        (.quiet hn (.send hp (le_trans (Nat.le_max_right _ _) (hcap _))) ⟨fun s k e => ?_, fun s l k e => ?_⟩) <;>
      · rw [hp] at e; cases e
  | recv s k ih =>
    intro l n t r l' h hp hc
    simp only [feed] at h
    split at h
    · cases h
    · rename_i b rest hl
      have hdata : n.chan (s, i) = b :: rest := by rw [hc, hl]
      obtain ⟨N, hN⟩ := ih b (Function.update l s rest) { n with proc := Function.update n.proc i (k b), chan := Function.update n.chan (s, i) rest } t r l' h
        (Function.update_self ..) (fun j => by
          show Function.update n.chan (s, i) _ (j, i) = _
          by_cases e : j = s
          · subst e; rw [Function.update_self, Function.update_self]
          · rw [Function.update_of_ne (fun h => e (congrArg Prod.fst h)), Function.update_of_ne e, hc j])
      refine ⟨N, fun cap hcap n0 L hn => ?_⟩
      obtain ⟨n', L', h1, h2, h3, h4⟩ := hN cap hcap n0 _ (.recv hn hp hdata)
      refine ⟨n', L', h1, h2, h3, fun j => ?_⟩
      rw [h4 j]
      by_cases e : j = s
      · subst e; rw [Function.update_self, Function.update_self, hl, List.append_assoc]; rfl
      · rw [Function.update_of_ne e, Function.update_of_ne e]
  | obs o k ih =>
    intro l n t r l' h hp hc
    simp only [feed, Option.map_eq_some_iff] at h
    obtain ⟨⟨t', r', l''⟩, h, e⟩ := h
    simp only [Prod.mk.injEq] at e
    obtain ⟨rfl, rfl, rfl⟩ := e
    obtain ⟨N, hN⟩ := ih l { n with proc := Function.update n.proc i k, seen := Function.update n.seen i (n.seen i ++ [o]) } t' r' l'' h
      (Function.update_self ..) hc
    refine ⟨N, fun cap hcap n0 L hn => ?_⟩
    obtain ⟨n', L', h1, h2, h3, h4⟩ := hN cap hcap n0 L (.quiet hn (.obs hp) ⟨fun s k e => (by rw [hp] at e; cases e), fun s l k e => (by rw [hp] at e; cases e)⟩)
    refine ⟨n', L', h1, h2, ?_, h4⟩
    rw [h3]
    simp only [Function.update_self]
    rw [List.append_assoc]
    rfl
  | poll srcs block k ih =>
    intro l n t r l' h hp hc
    simp only [feed] at h
    split at h
    · cases h
    · rename_i hb
      obtain ⟨N, hN⟩ := ih _ l { n with proc := Function.update n.proc i (k _) } t r l' h (Function.update_self ..) hc
      refine ⟨N, fun cap hcap n0 L hn => hN cap hcap n0 L (.quiet hn (.poll _ hp (fun j hj => ?_) (fun hblock => ?_))
        ⟨fun s k e => (by rw [hp] at e; cases e), fun s l k e => (by rw [hp] at e; cases e)⟩)⟩
      · simp only [Bool.and_eq_true, decide_eq_true_eq, Bool.not_eq_true', List.isEmpty_eq_false_iff] at hj
        rw [hc j]
        exact hj
      · rw [hblock] at hb
        simp only [Bool.true_and, List.all_eq_true, not_forall] at hb
        obtain ⟨j, hj, hne⟩ := hb
        exact ⟨j, by simp [hj]; simpa using hne⟩
  | read s m k ih =>
    intro l n t r l' h hp hc
    simp only [feed] at h
    split at h
    · cases h
    · rename_i hne
      rw [not_or] at hne
      have hdata : n.chan (s, i) = (l s).take m ++ (l s).drop m := by rw [hc, List.take_append_drop]
      obtain ⟨N, hN⟩ := ih _ (Function.update l s ((l s).drop m)) { n with proc := Function.update n.proc i (k _), chan := Function.update n.chan (s, i) ((l s).drop m) } t r l' h
        (Function.update_self ..) (fun j => by
          show Function.update n.chan (s, i) _ (j, i) = _
          by_cases e : j = s
          · subst e; rw [Function.update_self, Function.update_self]
          · rw [Function.update_of_ne (fun h => e (congrArg Prod.fst h)), Function.update_of_ne e, hc j])
      refine ⟨N, fun cap hcap n0 L hn => ?_⟩
      have hsome : (l s).take m ≠ [] := fun e => (List.take_eq_nil_iff.1 e).elim hne.1 hne.2
      obtain ⟨n', L', h1, h2, h3, h4⟩ := hN cap hcap n0 _ (.read hn hp hsome (by rw [List.length_take]; exact Nat.min_le_left _ _) hdata)
      refine ⟨n', L', h1, h2, h3, fun j => ?_⟩
      rw [h4 j]
      by_cases e : j = s
      · subst e; rw [Function.update_self, Function.update_self, List.append_assoc, List.take_append_drop]
      · rw [Function.update_of_ne e, Function.update_of_ne e]

end DPPIR.PProc
