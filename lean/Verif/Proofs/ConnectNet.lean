import Verif.Model.Connect
import Mathlib.Data.Finset.Card
import Mathlib.Data.List.Perm.Subperm

/-!
# Invariants of connection set-up, part 1: the network

What the network looks like is determined by what the processes have done: `Know`.
-/

namespace DPPIR.Connect
open DPPIR.Protocol (Node)
open Classical

variable {A α : Type}

/-- Number of parties and servers, and the address of every listening socket: `ad i false`
for the previous party, `ad i true` for the siblings. -/
structure Plan (A : Type) where
  P : Nat
  S : Nat
  ad : Node → Bool → A

namespace Plan
variable (pl : Plan A)

/-- Process `i` is part of the deployment. -/
def In (i : Node) : Prop := i.1 ≤ pl.P ∧ i.2 < pl.S

/-- Process `i` listens at `ad i k`. -/
def End (i : Node) (k : Bool) : Prop := pl.In i ∧ 0 < i.1 ∧ (k = true → 0 < i.2)

/-- Process `j` connects to `i`: from the previous level, or a lower sibling. -/
def Lk (j i : Node) : Prop := pl.In j ∧ pl.In i ∧ 0 < i.1 ∧ ((j.1 + 1 = i.1 ∧ j.2 = i.2) ∨ (j.1 = i.1 ∧ j.2 < i.2))

/-- Whether it connects as a sibling. -/
def knd (j i : Node) : Bool := decide (j.1 = i.1)

/-- How many connections process `j` makes before those to its siblings. -/
def first (j : Node) : Nat := if j.1 < pl.P then 1 else 0

/-- The connection from `j` to `i`. -/
def link (j i : Node) : Conn Node := if j.1 = i.1 then (j, pl.first j + (i.2 - j.2 - 1)) else (j, 0)

/-- The backlog at `ad i k`. -/
def backlog (i : Node) (k : Bool) : Nat := if k = true then i.2 else 1

/-- All listening sockets have different addresses. -/
def Distinct : Prop := ∀ i k i' k', pl.End i k → pl.End i' k' → pl.ad i k = pl.ad i' k' → i = i' ∧ k = k'

variable {pl}

theorem link_fst (j i : Node) : (pl.link j i).1 = j := by unfold link; split <;> rfl

theorem Lk.end {j i : Node} (h : pl.Lk j i) : pl.End i (knd j i) := by
  obtain ⟨-, h2, h3, h4⟩ := h
  refine ⟨h2, h3, fun hk => ?_⟩
  simp only [knd, decide_eq_true_eq] at hk
  omega

theorem link_inj {j i j' i' : Node} (h : pl.Lk j i) (h' : pl.Lk j' i') (e : pl.link j i = pl.link j' i') : j = j' ∧ i = i' := by
  have e1 : j = j' := by rw [← link_fst (pl := pl) j i, ← link_fst (pl := pl) j' i', e]
  subst e1
  refine ⟨rfl, ?_⟩
  obtain ⟨h1, h2, h3, h4⟩ := h
  obtain ⟨-, h2', h3', h4'⟩ := h'
  have e2 : (pl.link j i).2 = (pl.link j i').2 := by rw [e]
  obtain ⟨l, s⟩ := j
  obtain ⟨l1, s1⟩ := i
  obtain ⟨l2, s2⟩ := i'
  simp only [link, In, first] at h1 h2 h2' h3 h3' h4 h4' e2
  have : l1 = l2 ∧ s1 = s2 := by
    split_ifs at e2 <;> simp only at e2 <;> omega
  rw [this.1, this.2]

end Plan

/-- What the processes have done: who listens where, who has accepted a connection from
whom, who has connected to whom, who has told whom its id, who has read whose id. -/
@[ext] structure Know where
  lis : Node → Bool → Prop
  acc : Node → Node → Prop
  dial : Node → Node → Prop
  greet : Node → Node → Prop
  read : Node → Node → Prop

/-- The network agrees with what the processes have done. -/
structure NetInv (pl : Plan A) (n : CNet Node A α) (K : Know) : Prop where
  lis : ∀ i k, pl.End i k → n.listener (pl.ad i k) = if K.lis i k then some (i, Plan.backlog i k) else none
  nodup : ∀ i k, pl.End i k → (n.pending (pl.ad i k)).Nodup
  pend : ∀ i k, pl.End i k → ∀ c, c ∈ n.pending (pl.ad i k) ↔
    ∃ j, pl.Lk j i ∧ k = Plan.knd j i ∧ c = pl.link j i ∧ K.dial j i ∧ ¬ K.acc i j
  chan : ∀ j i, pl.Lk j i → n.chan ⟨pl.link j i, true⟩ = if K.greet j i ∧ ¬ K.read i j then [BitVec.ofNat 8 j.2] else []
  other : ∀ x, n.chan x ≠ [] → ∃ j i, pl.Lk j i ∧ x = ⟨pl.link j i, true⟩
  acc : ∀ i j, pl.Lk j i → K.acc i j → K.dial j i
  read : ∀ i j, pl.Lk j i → K.read i j → K.greet j i

namespace NetInv
variable {pl : Plan A} {n : CNet Node A α} {K : Know} [DecidableEq A]

/-- Nothing depends on the programs. -/
theorem withProc (h : NetInv pl n K) (p : Node → CProc Node A α) : NetInv pl { n with proc := p } K :=
  ⟨h.lis, h.nodup, h.pend, h.chan, h.other, h.acc, h.read⟩

theorem withDials (h : NetInv pl n K) (p : Node → Nat) : NetInv pl { n with dials := p } K :=
  ⟨h.lis, h.nodup, h.pend, h.chan, h.other, h.acc, h.read⟩

/-- Process `i` starts listening. -/
theorem listen (h : NetInv pl n K) (hd : pl.Distinct) {i : Node} {k : Bool} (he : pl.End i k) (p : Node → CProc Node A α) :
    NetInv pl { n with proc := p, listener := Function.update n.listener (pl.ad i k) (some (i, Plan.backlog i k)) }
      { K with lis := fun j b => K.lis j b ∨ (j = i ∧ b = k) } := by
  refine ⟨?_, h.nodup, h.pend, h.chan, h.other, h.acc, h.read⟩
  intro j b hj
  by_cases e : pl.ad j b = pl.ad i k
  · obtain ⟨rfl, rfl⟩ := hd _ _ _ _ hj he e
    simp
  · show Function.update n.listener (pl.ad i k) (some (i, Plan.backlog i k)) (pl.ad j b) = _
    rw [Function.update_of_ne e, h.lis j b hj]
    have : ¬ (j = i ∧ b = k) := by rintro ⟨rfl, rfl⟩; exact e rfl
    simp only [this, or_false]

/-- Process `i` accepts the connection from `j`. -/
theorem accept (h : NetInv pl n K) (hd : pl.Distinct) {j i : Node} (hl : pl.Lk j i)
    (hc : pl.link j i ∈ n.pending (pl.ad i (Plan.knd j i))) (p : Node → CProc Node A α) {l : List (Conn Node)}
    (hln : l.Nodup) (hlm : ∀ c, c ∈ l ↔ c ≠ pl.link j i ∧ c ∈ n.pending (pl.ad i (Plan.knd j i))) :
    NetInv pl { n with proc := p, pending := Function.update n.pending (pl.ad i (Plan.knd j i)) l }
      { K with acc := fun a b => K.acc a b ∨ (a = i ∧ b = j) } := by
  refine ⟨h.lis, ?_, ?_, h.chan, h.other, ?_, h.read⟩
  · intro a b hj
    by_cases e : pl.ad a b = pl.ad i (Plan.knd j i)
    · show (Function.update n.pending _ _ _).Nodup
      rw [e, Function.update_self]
      exact hln
    · show (Function.update n.pending _ _ _).Nodup
      rw [Function.update_of_ne e]
      exact h.nodup a b hj
  · intro a b hj c
    by_cases e : pl.ad a b = pl.ad i (Plan.knd j i)
    · obtain ⟨rfl, rfl⟩ := hd _ _ _ _ hj hl.end e
      show c ∈ Function.update n.pending _ _ _ ↔ _
      rw [Function.update_self, hlm, h.pend _ _ hj]
      constructor
      · rintro ⟨hne, j', h1, h2, h3, h4, h5⟩
        refine ⟨j', h1, h2, h3, h4, ?_⟩
        rintro (h6 | ⟨-, rfl⟩)
        · exact h5 h6
        · exact hne h3
      · rintro ⟨j', h1, h2, h3, h4, h5⟩
        refine ⟨?_, j', h1, h2, h3, h4, fun h6 => h5 (Or.inl h6)⟩
        intro e
        obtain ⟨rfl, -⟩ := Plan.link_inj h1 hl (h3 ▸ e)
        exact h5 (Or.inr ⟨rfl, rfl⟩)
    · show c ∈ Function.update n.pending _ _ _ ↔ _
      rw [Function.update_of_ne e, h.pend a b hj]
      constructor
      · rintro ⟨j', h1, h2, h3, h4, h5⟩
        refine ⟨j', h1, h2, h3, h4, ?_⟩
        rintro (h6 | ⟨rfl, rfl⟩)
        · exact h5 h6
        · exact e (by rw [h2])
      · rintro ⟨j', h1, h2, h3, h4, h5⟩
        exact ⟨j', h1, h2, h3, h4, fun h6 => h5 (Or.inl h6)⟩
  · rintro a b hab (h1 | ⟨rfl, rfl⟩)
    · exact h.acc a b hab h1
    · obtain ⟨j', h1, h2, h3, h4, -⟩ := (h.pend _ _ hl.end _).mp hc
      obtain ⟨rfl, -⟩ := Plan.link_inj h1 hl h3.symm
      exact h4

/-- Process `j` connects to `i`. -/
theorem connect (h : NetInv pl n K) (hd : pl.Distinct) {j i : Node} (hl : pl.Lk j i) (hn : ¬ K.dial j i)
    (p : Node → CProc Node A α) (q : Node → Nat) :
    NetInv pl { n with proc := p, dials := q, pending := Function.update n.pending (pl.ad i (Plan.knd j i)) (n.pending (pl.ad i (Plan.knd j i)) ++ [pl.link j i]) }
      { K with dial := fun a b => K.dial a b ∨ (a = j ∧ b = i) } := by
  have hna : ¬ K.acc i j := fun ha => hn (h.acc i j hl ha)
  refine ⟨h.lis, ?_, ?_, h.chan, h.other, fun a b hab h1 => Or.inl (h.acc a b hab h1), h.read⟩
  · intro a b hj
    by_cases e : pl.ad a b = pl.ad i (Plan.knd j i)
    · show (Function.update n.pending _ _ _).Nodup
      rw [e, Function.update_self, List.nodup_append]
      refine ⟨h.nodup _ _ hl.end, by simp, ?_⟩
      rintro c hc d hd' rfl
      simp only [List.mem_singleton] at hd'
      obtain ⟨j', h1, h2, h3, h4, -⟩ := (h.pend _ _ hl.end _).mp hc
      obtain ⟨rfl, -⟩ := Plan.link_inj h1 hl (by rw [← h3, hd'])
      exact hn h4
    · show (Function.update n.pending _ _ _).Nodup
      rw [Function.update_of_ne e]
      exact h.nodup a b hj
  · intro a b hj c
    by_cases e : pl.ad a b = pl.ad i (Plan.knd j i)
    · obtain ⟨rfl, rfl⟩ := hd _ _ _ _ hj hl.end e
      show c ∈ Function.update n.pending _ _ _ ↔ _
      rw [Function.update_self, List.mem_append, h.pend _ _ hj, List.mem_singleton]
      constructor
      · rintro (⟨j', h1, h2, h3, h4, h5⟩ | rfl)
        · exact ⟨j', h1, h2, h3, Or.inl h4, h5⟩
        · exact ⟨j, hl, rfl, rfl, Or.inr ⟨rfl, rfl⟩, hna⟩
      · rintro ⟨j', h1, h2, h3, h4 | ⟨rfl, -⟩, h5⟩
        · exact Or.inl ⟨j', h1, h2, h3, h4, h5⟩
        · exact Or.inr h3
    · show c ∈ Function.update n.pending _ _ _ ↔ _
      rw [Function.update_of_ne e, h.pend a b hj]
      constructor
      · rintro ⟨j', h1, h2, h3, h4, h5⟩
        exact ⟨j', h1, h2, h3, Or.inl h4, h5⟩
      · rintro ⟨j', h1, h2, h3, h4 | ⟨rfl, rfl⟩, h5⟩
        · exact ⟨j', h1, h2, h3, h4, h5⟩
        · exact absurd (by rw [h2]) e

/-- Process `j` tells `i` its id. -/
theorem send (h : NetInv pl n K) {j i : Node} (hl : pl.Lk j i) (hn : ¬ K.greet j i) (p : Node → CProc Node A α) :
    NetInv pl { n with proc := p, chan := Function.update n.chan ⟨pl.link j i, true⟩ (n.chan ⟨pl.link j i, true⟩ ++ [BitVec.ofNat 8 j.2]) }
      { K with greet := fun a b => K.greet a b ∨ (a = j ∧ b = i) } := by
  have hnr : ¬ K.read i j := fun hr => hn (h.read i j hl hr)
  refine ⟨h.lis, h.nodup, h.pend, ?_, ?_, h.acc, fun a b hab h1 => Or.inl (h.read a b hab h1)⟩
  · intro a b hab
    show Function.update n.chan _ _ _ = _
    by_cases e : pl.link a b = pl.link j i
    · obtain ⟨rfl, rfl⟩ := Plan.link_inj hab hl e
      rw [Function.update_self, h.chan _ _ hl]
      simp [hn, hnr]
    · rw [Function.update_of_ne (by simpa using e), h.chan a b hab]
      have : ¬ (a = j ∧ b = i) := by rintro ⟨rfl, rfl⟩; exact e rfl
      simp only [this, or_false]
  · intro x hx
    by_cases e : x = ⟨pl.link j i, true⟩
    · exact ⟨j, i, hl, e⟩
    · refine h.other x ?_
      have hx : Function.update n.chan _ _ x ≠ [] := hx
      rwa [Function.update_of_ne e] at hx

/-- Process `i` reads the id of `j`. -/
theorem recv (h : NetInv pl n K) {j i : Node} (hl : pl.Lk j i) {b : Byte} {rest : List Byte}
    (hc : n.chan ⟨pl.link j i, true⟩ = b :: rest) (p : Node → CProc Node A α) :
    b = BitVec.ofNat 8 j.2 ∧ NetInv pl { n with proc := p, chan := Function.update n.chan ⟨pl.link j i, true⟩ rest }
      { K with read := fun a b => K.read a b ∨ (a = i ∧ b = j) } := by
  have hch := h.chan j i hl
  rw [hc] at hch
  split at hch
  · rename_i hg
    obtain ⟨rfl, rfl⟩ : b = BitVec.ofNat 8 j.2 ∧ rest = [] := by simpa using hch
    refine ⟨rfl, h.lis, h.nodup, h.pend, ?_, ?_, h.acc, ?_⟩
    · intro a c hac
      show Function.update n.chan _ _ _ = _
      by_cases e : pl.link a c = pl.link j i
      · obtain ⟨rfl, rfl⟩ := Plan.link_inj hac hl e
        rw [Function.update_self]
        simp
      · rw [Function.update_of_ne (by simpa using e), h.chan a c hac]
        have : ¬ (c = i ∧ a = j) := by rintro ⟨rfl, rfl⟩; exact e rfl
        simp only [this, or_false]
    · intro x hx
      by_cases e : x = ⟨pl.link j i, true⟩
      · exact ⟨j, i, hl, e⟩
      · refine h.other x ?_
        have hx : Function.update n.chan _ _ x ≠ [] := hx
        rwa [Function.update_of_ne e] at hx
    · rintro a c hac (h1 | ⟨rfl, rfl⟩)
      · exact h.read a c hac h1
      · exact hg.1
  · cases hch

/-- There is room for a connection that was not made yet. -/
theorem room (h : NetInv pl n K) {j i : Node} (hl : pl.Lk j i) (hn : ¬ K.dial j i) :
    (n.pending (pl.ad i (Plan.knd j i))).length < Plan.backlog i (Plan.knd j i) := by
  have hnd := h.nodup _ _ hl.end
  have hmem := h.pend _ _ hl.end
  unfold Plan.backlog
  by_cases hk : j.1 = i.1
  · have hk' : Plan.knd j i = true := by simp [Plan.knd, hk]
    have hlt : j.2 < i.2 := by obtain ⟨-, -, -, h4⟩ := hl; omega
    rw [if_pos hk', ← List.toFinset_card_of_nodup hnd]
    have hsub : (n.pending (pl.ad i (Plan.knd j i))).toFinset ⊆
        ((Finset.range i.2).erase j.2).image (fun t => pl.link (i.1, t) i) := by
      intro c hc
      rw [List.mem_toFinset, hmem] at hc
      obtain ⟨j', h1, h2, h3, h4, -⟩ := hc
      have hk2 : j'.1 = i.1 := by rw [hk'] at h2; simpa [Plan.knd] using h2.symm
      have hlt2 : j'.2 < i.2 := by obtain ⟨-, -, -, h5⟩ := h1; omega
      rw [Finset.mem_image]
      refine ⟨j'.2, ?_, ?_⟩
      · rw [Finset.mem_erase, Finset.mem_range]
        refine ⟨?_, hlt2⟩
        intro e
        apply hn
        have : j' = j := Prod.ext (by rw [hk2, hk]) e
        rwa [← this]
      · show pl.link (i.1, j'.2) i = c
        rw [h3, ← hk2]
    calc _ ≤ _ := Finset.card_le_card hsub
      _ ≤ _ := Finset.card_image_le
      _ < i.2 := by rw [Finset.card_erase_of_mem (by simpa using hlt), Finset.card_range]; omega
  · have hk' : Plan.knd j i = false := by simp [Plan.knd, hk]
    have : n.pending (pl.ad i (Plan.knd j i)) = [] := by
      rw [List.eq_nil_iff_forall_not_mem]
      intro c hc
      rw [hmem] at hc
      obtain ⟨j', h1, h2, h3, h4, -⟩ := hc
      have hk2 : ¬ j'.1 = i.1 := by rw [hk'] at h2; simpa [Plan.knd] using h2.symm
      have : j' = j := by
        obtain ⟨-, -, -, h5⟩ := h1
        obtain ⟨-, -, -, h6⟩ := hl
        exact Prod.ext (by omega) (by omega)
      exact hn (this ▸ h4)
    rw [this, hk']
    simp

end NetInv

end DPPIR.Connect
