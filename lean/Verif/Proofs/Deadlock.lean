import Verif.Proofs.Siblings

/-!
# How exchanges get stuck when connections are too small
-/

namespace DPPIR
open Proc

variable {ι O α β : Type}

namespace PNet
variable [DecidableEq ι]

/-- The network in which each process goes on with another program. -/
def andThen (n : PNet ι O α) (f : ι → α → PProc ι O β) : PNet ι O β :=
  { proc := fun i => (n.proc i).bind (f i), chan := n.chan, seen := n.seen }

theorem update_bind (g : ι → PProc ι O α) (i : ι) (p : PProc ι O α) (f : ι → α → PProc ι O β) :
    (fun j => (Function.update g i p j).bind (f j)) = Function.update (fun j => (g j).bind (f j)) i (p.bind (f i)) := by
  funext j
  by_cases h : j = i
  · subst h; simp
  · rw [Function.update_of_ne h, Function.update_of_ne h]

theorem Step.andThen {cap : ι × ι → Nat} {i : ι} {n m : PNet ι O α} (h : Step cap i n m) (f : ι → α → PProc ι O β) :
    Step cap i (n.andThen f) (m.andThen f) := by
  cases h with
  | send h room =>
    have := Step.send (cap := cap) (n := n.andThen f) (i := i) (show (n.proc i).bind (f i) = _ by rw [h]; rfl) room
    unfold PNet.andThen at this ⊢
    simp only [update_bind]
    exact this
  | recv h data =>
    have := Step.recv (cap := cap) (n := n.andThen f) (i := i) (show (n.proc i).bind (f i) = _ by rw [h]; rfl) data
    unfold PNet.andThen at this ⊢
    simp only [update_bind]
    exact this
  | obs h =>
    have := Step.obs (cap := cap) (n := n.andThen f) (i := i) (show (n.proc i).bind (f i) = _ by rw [h]; rfl)
    unfold PNet.andThen at this ⊢
    simp only [update_bind]
    exact this
  | poll ready h sound some =>
    have := Step.poll (cap := cap) (n := n.andThen f) (i := i) ready (show (n.proc i).bind (f i) = _ by rw [h]; rfl) sound some
    unfold PNet.andThen at this ⊢
    simp only [update_bind]
    exact this
  | read h some fits data =>
    have := Step.read (cap := cap) (n := n.andThen f) (i := i) (show (n.proc i).bind (f i) = _ by rw [h]; rfl) some fits data
    unfold PNet.andThen at this ⊢
    simp only [update_bind]
    exact this

theorem Reach.andThen {cap : ι × ι → Nat} {n m : PNet ι O α} (h : Reach cap n m) (f : ι → α → PProc ι O β) :
    Reach cap (n.andThen f) (m.andThen f) := by
  induction h with
  | refl => exact .refl
  | step _ s ih => exact ih.step (s.andThen f)

theorem Reach.trans {cap : ι × ι → Nat} {n m k : PNet ι O α} (h : Reach cap n m) (h' : Reach cap m k) : Reach cap n k := by
  induction h' with
  | refl => exact h
  | step _ s ih => exact ih.step s

/-- A process that is in an exchange in which it only writes to `d` can write as much as
the connection holds while its polls report nothing; it then stands before a write, if it
has more to write. -/
theorem fill {cap : ι × ι → Nat} {i d : ι} {Q : α → Prop} (os : List (ι × Byte)) :
    ∀ (p : PProc ι O α) (L : List (Seg ι O)) (is : ι → List Byte) (n : PNet ι O α), n.proc i = p →
      PProc.Does Q p (.xchg os is (fun _ => false) :: L) → (∀ o ∈ os, o.1 = d) → (n.chan (i, d)).length ≤ cap (i, d) →
      cap (i, d) < (n.chan (i, d)).length + os.length →
      ∃ m, Reach cap n m ∧ (∀ j, j ≠ i → m.proc j = n.proc j) ∧ (∀ c, c ≠ (i, d) → m.chan c = n.chan c) ∧
        (∃ b k, m.proc i = .send d b k) ∧ (m.chan (i, d)).length = cap (i, d) := by
  intro p L is n hp hd
  generalize hL : (Seg.xchg os is (fun _ => false) :: L : List (Seg ι O)) = L' at hd
  induction hd generalizing os is n L with
  | done h => cases hL
  | send h ih => cases hL
  | recv h ih => cases hL
  | obs h ih => cases hL
  | @xsend d' b k os' is' av' L' h ih =>
    obtain ⟨⟨rfl, rfl, rfl⟩, rfl⟩ := by simpa using hL
    intro hos hle hlt
    have hd' : d' = d := hos _ List.mem_cons_self
    subst hd'
    by_cases hfull : (n.chan (i, d')).length = cap (i, d')
    · exact ⟨n, .refl, fun _ _ => rfl, fun _ _ => rfl, ⟨b, k, hp⟩, hfull⟩
    · have hst := Step.send (cap := cap) hp (by omega)
      obtain ⟨m, h1, h2, h3, h4, h5⟩ := ih os' L _ { n with proc := Function.update n.proc i k, chan := Function.update n.chan (i, d') (n.chan (i, d') ++ [b]) } (by simp) rfl (fun o ho => hos o (List.mem_cons_of_mem _ ho))
        (by simp; omega) (by simp at hlt ⊢; omega)
      refine ⟨m, (Reach.refl.step hst).trans h1, ?_, ?_, h4, h5⟩
      · intro j hj
        rw [h2 j hj]
        exact Function.update_of_ne hj _ _
      · intro c hc
        rw [h3 c hc]
        exact Function.update_of_ne hc _ _
  | xrecv hi h ih =>
    obtain ⟨⟨rfl, rfl, rfl⟩, rfl⟩ := by simpa using hL
    intro _ hle hlt
    simp at hlt
    omega
  | @xpoll srcs block k os' is' av' L' hs hb h ih =>
    obtain ⟨⟨rfl, rfl, rfl⟩, rfl⟩ := by simpa using hL
    intro hos hle hlt
    have hbl : ¬ block = true := by
      intro e
      obtain ⟨rfl, -⟩ := hb e
      simp at hlt
      omega
    have hst := Step.poll (cap := cap) (fun _ => false) hp (by intro j hj; cases hj) (fun e => absurd e hbl)
    obtain ⟨m, h1, h2, h3, h4, h5⟩ := ih (fun _ => false) (by intro j hj; cases hj) (fun e => absurd e hbl) os L is
      { n with proc := Function.update n.proc i (k (fun _ => false)) } (by simp) rfl hos
      hle hlt
    refine ⟨m, (Reach.refl.step hst).trans h1, ?_, h3, h4, h5⟩
    intro j hj
    rw [h2 j hj]
    exact Function.update_of_ne hj _ _
  | xread hn hl hav h ih =>
    obtain ⟨⟨rfl, rfl, rfl⟩, rfl⟩ := by simpa using hL
    cases hav
  | xend hi h ih =>
    obtain ⟨⟨rfl, rfl, rfl⟩, rfl⟩ := by simpa using hL
    intro _ hle hlt
    simp at hlt
    omega

/-- Two processes at the beginning of an exchange with each other, both with more to write
than their connection holds; the other processes have returned: they can get stuck. -/
theorem two_block {cap : ι × ι → Nat} {i j : ι} (hij : i ≠ j) {Q : ι → α → Prop} (n : PNet ι O α)
    {oi oj : List (ι × Byte)} {ii ij : ι → List Byte} {Li Lj : List (Seg ι O)}
    (hi : PProc.Does (Q i) (n.proc i) (.xchg oi ii (fun _ => false) :: Li))
    (hj : PProc.Does (Q j) (n.proc j) (.xchg oj ij (fun _ => false) :: Lj))
    (hoi : ∀ o ∈ oi, o.1 = j) (hoj : ∀ o ∈ oj, o.1 = i) (hlen : cap (i, j) < oi.length ∧ cap (j, i) < oj.length)
    (hc : ∀ c, n.chan c = []) (hrest : ∀ k, k ≠ i → k ≠ j → ∃ a, n.proc k = .done a) :
    ∃ m, Reach cap n m ∧ ¬ CanStep cap m ∧ (∃ b k, m.proc i = .send j b k) ∧ (∃ b k, m.proc j = .send i b k) := by
  obtain ⟨m1, h1, h2, h3, ⟨b1, k1, h4⟩, h5⟩ := fill oi (n.proc i) Li ii n rfl hi hoi (by rw [hc]; simp) (by rw [hc]; simpa using hlen.1)
  have e : (m1.chan (j, i)) = [] := by
    rw [h3 _ (by simp [Ne.symm hij]), hc]
  obtain ⟨m2, g1, g2, g3, ⟨b2, k2, g4⟩, g5⟩ := fill oj (m1.proc j) Lj ij m1 rfl (by rw [h2 j hij.symm]; exact hj) hoj (by rw [e]; simp)
    (by rw [e]; simpa using hlen.2)
  have e1 : m2.proc i = .send j b1 k1 := by rw [g2 i hij, h4]
  have e2 : m2.chan (i, j) = m1.chan (i, j) := g3 _ (by simp [hij])
  refine ⟨m2, h1.trans g1, ?_, ⟨b1, k1, e1⟩, ⟨b2, k2, g4⟩⟩
  rintro ⟨k, m', hs⟩
  by_cases hki : k = i
  · subst hki
    cases hs with
    | send h room =>
      rw [e1] at h
      cases h
      rw [e2, h5] at room
      omega
    | recv h => rw [e1] at h; cases h
    | obs h => rw [e1] at h; cases h
    | poll _ h => rw [e1] at h; cases h
    | read h => rw [e1] at h; cases h
  · by_cases hkj : k = j
    · subst hkj
      cases hs with
      | send h room =>
        rw [g4] at h
        cases h
        rw [g5] at room
        omega
      | recv h => rw [g4] at h; cases h
      | obs h => rw [g4] at h; cases h
      | poll _ h => rw [g4] at h; cases h
      | read h => rw [g4] at h; cases h
    · obtain ⟨a, ha⟩ := hrest k hki hkj
      rw [← h2 k hki, ← g2 k hkj] at ha
      cases hs with
      | send h => rw [ha] at h; cases h
      | recv h => rw [ha] at h; cases h
      | obs h => rw [ha] at h; cases h
      | poll _ h => rw [ha] at h; cases h
      | read h => rw [ha] at h; cases h

/-- The same after a part that always completes. -/
theorem blocks_after {γ : Type} {cap : ι × ι → Nat} {G : List (GSeg ι)} (hG : ∀ g ∈ G, GSeg.Ok cap g) {pre : ι → PProc ι O γ}
    {L : ι → List (Seg ι O)} {Q' : ι → γ → Prop} (hd : ∀ k, PProc.Does (Q' k) (pre k) (L k)) (hL : ∀ k, segComm (L k) = proj k G)
    {i j : ι} (hij : i ≠ j) (hpre : ∀ k, k ≠ i → k ≠ j → ∃ a, pre k = .done a) {f : ι → γ → PProc ι O α} {Q : ι → α → Prop}
    {oi oj : List (ι × Byte)} {ii ij : ι → List Byte} {Li Lj : List (Seg ι O)}
    (hi : ∀ a, Q' i a → PProc.Does (Q i) (f i a) (.xchg oi ii (fun _ => false) :: Li))
    (hj : ∀ a, Q' j a → PProc.Does (Q j) (f j a) (.xchg oj ij (fun _ => false) :: Lj))
    (hoi : ∀ o ∈ oi, o.1 = j) (hoj : ∀ o ∈ oj, o.1 = i) (hlen : cap (i, j) < oi.length ∧ cap (j, i) < oj.length)
    (hrest : ∀ k, k ≠ i → k ≠ j → ∀ a, ∃ b, f k a = .done b) :
    ∃ m, Reach cap (PNet.start (fun k => (pre k).bind (f k))) m ∧ ¬ CanStep cap m ∧
      (∃ b k, m.proc i = .send j b k) ∧ (∃ b k, m.proc j = .send i b k) := by
  obtain ⟨n, h1, h2⟩ := script_complete hG hd hL {i, j} (by
    intro k hk
    simp only [Finset.mem_insert, Finset.mem_singleton, not_or] at hk
    exact hpre k hk.1 hk.2)
  rcases (script_net hG hd hL h1).2.2 with h3 | ⟨h3, h4⟩
  · exact absurd h3 h2
  have h5 := h1.andThen f
  have hproc : ∀ k a, n.Returned k a → (n.andThen f).proc k = f k a := by
    intro k a ha
    show (n.proc k).bind (f k) = _
    rw [show n.proc k = .done a from ha]
    rfl
  obtain ⟨⟨ai, hai, hqi⟩, -⟩ := h3 i
  obtain ⟨⟨aj, haj, hqj⟩, -⟩ := h3 j
  obtain ⟨m, g1, g2⟩ := two_block hij (Q := Q) (n.andThen f) (by rw [hproc i ai hai]; exact hi ai hqi)
    (by rw [hproc j aj haj]; exact hj aj hqj) hoi hoj hlen h4 (by
      intro k hki hkj
      obtain ⟨⟨a, ha, -⟩, -⟩ := h3 k
      rw [hproc k a ha]
      exact hrest k hki hkj a)
  exact ⟨m, h5.trans g1, g2⟩

end PNet

end DPPIR
