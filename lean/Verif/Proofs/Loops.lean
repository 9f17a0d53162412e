import Verif.Proofs.ReadAhead
import Mathlib.Order.WellFounded

/-!
# Programs that read ahead, and programs that read byte by byte
-/

namespace DPPIR.RNet
open Proc PNet
variable {ι O α β : Type}

section
variable [DecidableEq ι]

/-- Program `p` does what `q` does, where on the connections in `links` `p` reads as much
as it likes and `q` takes bytes from a read buffer; `A` is what is in the buffers. -/
inductive Sim (links : ι → Prop) : (ι → List Byte) → PProc ι O α → PProc ι O α → Prop where
  | done {A} (a) (h : ∀ s, A s = []) : Sim links A (.done a) (.done a)
  | fault {A} (e) : Sim links A (.fault e) (.fault e)
  | send {A d b k k'} : Sim links A k k' → Sim links A (.send d b k) (.send d b k')
  | obs {A o k k'} : Sim links A k k' → Sim links A (.obs o k) (.obs o k')
  | recv {A s k k'} (h : A s = []) : (∀ b, Sim links A (k b) (k' b)) → Sim links A (.recv s k) (.recv s k')
  | poll {A srcs block k k'} (h : ∀ s ∈ srcs, ¬ links s) : (∀ r, Sim links A (k r) (k' r)) →
      Sim links A (.poll srcs block k) (.poll srcs block k')
  | read {A s m k k'} (h : ¬ links s) : (∀ c, Sim links A (k c) (k' c)) → Sim links A (.read s m k) (.read s m k')
  | fill {A s m k k'} (link : links s) (h : A s = []) (pos : 0 < m) :
      (∀ c, c ≠ [] → c.length ≤ m → Sim links (Function.update A s c) (k c) (.recv s k')) → Sim links A (.read s m k) (.recv s k')
  | take {A s b rest p k'} (link : links s) (h : A s = b :: rest) : Sim links (Function.update A s rest) p (k' b) →
      Sim links A p (.recv s k')

/-- The two programs are about to do the same. -/
inductive Match (links : ι → Prop) : (ι → List Byte) → PProc ι O α → PProc ι O α → Prop where
  | done {A} (a) (h : ∀ s, A s = []) : Match links A (.done a) (.done a)
  | fault {A} (e) : Match links A (.fault e) (.fault e)
  | send {A d b k k'} : Sim links A k k' → Match links A (.send d b k) (.send d b k')
  | obs {A o k k'} : Sim links A k k' → Match links A (.obs o k) (.obs o k')
  | recv {A s k k'} (h : A s = []) : (∀ b, Sim links A (k b) (k' b)) → Match links A (.recv s k) (.recv s k')
  | poll {A srcs block k k'} (h : ∀ s ∈ srcs, ¬ links s) : (∀ r, Sim links A (k r) (k' r)) →
      Match links A (.poll srcs block k) (.poll srcs block k')
  | read {A s m k k'} (h : ¬ links s) : (∀ c, Sim links A (k c) (k' c)) → Match links A (.read s m k) (.read s m k')
  | fill {A s m k k'} (link : links s) (h : A s = []) (pos : 0 < m) :
      (∀ c, c ≠ [] → c.length ≤ m → Sim links (Function.update A s c) (k c) (.recv s k')) → Match links A (.read s m k) (.recv s k')

theorem Sim.cases_take {links : ι → Prop} {A : ι → List Byte} {p q : PProc ι O α} (h : Sim links A p q) :
    Match links A p q ∨ ∃ s b rest k', q = .recv s k' ∧ links s ∧ A s = b :: rest ∧ Sim links (Function.update A s rest) p (k' b) := by
  cases h with
  | done a h => exact .inl (.done a h)
  | fault e => exact .inl (.fault e)
  | send h => exact .inl (.send h)
  | obs h => exact .inl (.obs h)
  | recv h h' => exact .inl (.recv h h')
  | poll h h' => exact .inl (.poll h h')
  | read h h' => exact .inl (.read h h')
  | fill a b c d => exact .inl (.fill a b c d)
  | take a b c => exact .inr ⟨_, _, _, _, rfl, a, b, c⟩

/-! ### Sequencing -/

section
variable {links : ι → Prop} {A : ι → List Byte}

theorem Sim.bind {p q : PProc ι O α} {f f' : α → PProc ι O β} (h : Sim links A p q)
    (hf : ∀ a, Sim links (fun _ => []) (f a) (f' a)) : Sim links A (p.bind f) (q.bind f') := by
  induction h with
  | done a h =>
    rename_i A
    obtain rfl : A = fun _ => [] := funext h
    exact hf a
  | fault e => exact .fault e
  | send _ ih => exact .send ih
  | obs _ ih => exact .obs ih
  | recv h _ ih => exact .recv h ih
  | poll h _ ih => exact .poll h ih
  | read h _ ih => exact .read h ih
  | fill a b c _ ih => exact .fill a b c ih
  | take a b _ ih => exact .take a b ih

end

/-! ### Networks -/

variable {links : ι × ι → Prop} {cap : ι × ι → Nat}

/-- A network of programs that read ahead, and one of programs with read buffers. -/
structure Rel (links : ι × ι → Prop) (n : PNet ι O α) (m : RNet ι O α) : Prop where
  chan : n.chan = m.chan
  seen : n.seen = m.seen
  sim : ∀ i, Sim (fun s => links (s, i)) (fun s => m.ahead (s, i)) (n.proc i) (m.proc i)

theorem Rel.start {proc proc' : ι → PProc ι O α} (h : ∀ i, Sim (fun s => links (s, i)) (fun _ => []) (proc i) (proc' i)) :
    Rel links (PNet.start proc) (RNet.start proc') := ⟨rfl, rfl, h⟩

/-- Bookkeeping for a change of one process. -/
theorem sim_update {n : PNet ι O α} {m : RNet ι O α}
    (h : ∀ i, Sim (fun s => links (s, i)) (fun s => m.ahead (s, i)) (n.proc i) (m.proc i)) (i : ι) (p q : PProc ι O α)
    (ahead : ι × ι → List Byte) (ha : ∀ s j, j ≠ i → ahead (s, j) = m.ahead (s, j))
    (hi : Sim (fun s => links (s, i)) (fun s => ahead (s, i)) p q) (j : ι) :
    Sim (fun s => links (s, j)) (fun s => ahead (s, j)) (Function.update n.proc i p j) (Function.update m.proc i q j) := by
  by_cases hj : j = i
  · subst hj
    rw [Function.update_self, Function.update_self]
    exact hi
  · rw [Function.update_of_ne hj, Function.update_of_ne hj]
    have : (fun s => ahead (s, j)) = fun s => m.ahead (s, j) := funext (fun s => ha s j hj)
    rw [this]
    exact h j

theorem update_pair (a : ι × ι → List Byte) (s i : ι) (l : List Byte) :
    (fun t => Function.update a (s, i) l (t, i)) = Function.update (fun t => a (t, i)) s l := by
  funext t
  by_cases h : t = s
  · subst h; simp
  · rw [Function.update_of_ne h, Function.update_of_ne (by rintro ⟨⟩; exact h rfl)]

/-- A process that is not about to do the same can take bytes from its buffer. -/
theorem Rel.take {n : PNet ι O α} {m : RNet ι O α} (h : Rel links n m) (i : ι)
    (hi : ¬ Match (fun s => links (s, i)) (fun s => m.ahead (s, i)) (n.proc i) (m.proc i)) :
    ∃ m', Step links cap i m m' ∧ Rel links n m' := by
  rcases (h.sim i).cases_take with h' | ⟨s, b, rest, k', e, hl, ha, hs⟩
  · exact absurd h' hi
  · refine ⟨_, .take e hl ha, h.chan, h.seen, fun j => ?_⟩
    have := sim_update h.sim i (n.proc i) (k' b) (Function.update m.ahead (s, i) rest)
      (fun t j hj => Function.update_of_ne (by rintro ⟨⟩; exact hj rfl) _ _) (by rw [update_pair]; exact hs) j
    rwa [Function.update_eq_self] at this

theorem Reach.trans {a b c : RNet ι O α} (h : Reach links cap a b) (h' : Reach links cap b c) : Reach links cap a c := by
  induction h' with
  | refl => exact h
  | step _ s ih => exact ih.step s

/-- Process `i` can be brought to the point where both programs are about to do the same. -/
theorem Rel.sync {n : PNet ι O α} {m : RNet ι O α} (h : Rel links n m) (i : ι) :
    ∃ m', Reach links cap m m' ∧ Rel links n m' ∧
      Match (fun s => links (s, i)) (fun s => m'.ahead (s, i)) (n.proc i) (m'.proc i) := by
  have key : ∀ (A : ι → List Byte) (p q : PProc ι O α), Sim (fun s => links (s, i)) A p q → ∀ m : RNet ι O α, Rel links n m →
      A = (fun s => m.ahead (s, i)) → n.proc i = p → m.proc i = q → ∃ m', Reach links cap m m' ∧ Rel links n m' ∧
      Match (fun s => links (s, i)) (fun s => m'.ahead (s, i)) (n.proc i) (m'.proc i) := by
    intro A p q hs
    induction hs with
    | take hl ha hs ih =>
      rename_i A s b rest p k'
      intro m h e1 e2 e3
      subst e1
      have hr := sim_update h.sim i (n.proc i) (k' b) (Function.update m.ahead (s, i) rest)
        (fun t j hj => Function.update_of_ne (by rintro ⟨⟩; exact hj rfl) _ _) (by rw [update_pair, e2]; exact hs)
      rw [Function.update_eq_self] at hr
      obtain ⟨m', h1, h2, h3⟩ := ih { m with proc := Function.update m.proc i (k' b), ahead := Function.update m.ahead (s, i) rest }
        ⟨h.chan, h.seen, hr⟩ (update_pair _ _ _ _).symm e2 (Function.update_self ..)
      exact ⟨m', (Reach.refl.step (.take e3 hl ha)).trans h1, h2, h3⟩
    | done a hA => intro m h e1 e2 e3; exact ⟨m, .refl, h, by rw [← e1, e2, e3]; exact .done a hA⟩
    | fault e => intro m h e1 e2 e3; exact ⟨m, .refl, h, by rw [← e1, e2, e3]; exact .fault e⟩
    | send hs => intro m h e1 e2 e3; exact ⟨m, .refl, h, by rw [← e1, e2, e3]; exact .send hs⟩
    | obs hs => intro m h e1 e2 e3; exact ⟨m, .refl, h, by rw [← e1, e2, e3]; exact .obs hs⟩
    | recv a hs => intro m h e1 e2 e3; exact ⟨m, .refl, h, by rw [← e1, e2, e3]; exact .recv a hs⟩
    | poll a hs => intro m h e1 e2 e3; exact ⟨m, .refl, h, by rw [← e1, e2, e3]; exact .poll a hs⟩
    | read a hs => intro m h e1 e2 e3; exact ⟨m, .refl, h, by rw [← e1, e2, e3]; exact .read a hs⟩
    | fill a b c hs => intro m h e1 e2 e3; exact ⟨m, .refl, h, by rw [← e1, e2, e3]; exact .fill a b c hs⟩
  exact key _ _ _ (h.sim i) m h rfl rfl rfl

/-- A step of the programs that read ahead. -/
theorem Rel.step {n n' : PNet ι O α} {m : RNet ι O α} (h : Rel links n m) {i : ι} (hs : PNet.Step cap i n n') :
    ∃ m', Reach links cap m m' ∧ Rel links n' m' := by
  obtain ⟨m, hr, h, hm⟩ := h.sync (cap := cap) i
  suffices ∃ m', Reach links cap m m' ∧ Rel links n' m' by
    obtain ⟨m', h1, h2⟩ := this
    exact ⟨m', hr.trans h1, h2⟩
  have hc := h.chan
  have hse := h.seen
  cases hs with
  | send hp room =>
    rename_i d b k
    rw [hp] at hm
    generalize hq : m.proc i = q at hm
    cases hm with
    | send hk =>
      refine ⟨_, Reach.refl.step (.plain (PNet.Step.send (n := m.toPNet) hq (by rw [← hc]; exact room)) (fun s k e => by rw [hq] at e; cases e)),
        by simp [hc], hse, sim_update h.sim i _ _ m.ahead (fun _ _ _ => rfl) hk⟩
  | recv hp data =>
    rename_i s k b rest
    rw [hp] at hm
    generalize hq : m.proc i = q at hm
    cases hm with
    | recv ha hk =>
      rename_i k'
      by_cases hl : links (s, i)
      · have ha : m.ahead (s, i) = [] := ha
        have hdata : m.chan (s, i) = [b] ++ rest := by rw [← hc, data]; rfl
        refine ⟨_, (Reach.refl.step (.fill hq hl ha (by simp) hdata)).step (.take (b := b) (rest := []) hq hl (Function.update_self ..)),
          by simp [hc], hse, ?_⟩
        refine sim_update h.sim i _ _ _ (fun t j hj => ?_) ?_
        · have hne : (t, j) ≠ (s, i) := by rintro ⟨⟩; exact hj rfl
          dsimp only
          rw [Function.update_of_ne hne, Function.update_of_ne hne]
        · simp only [Function.update_idem]
          rw [update_pair, show Function.update (fun t => m.ahead (t, i)) s [] = fun t => m.ahead (t, i) from by
            rw [← ha]; exact Function.update_eq_self s (fun t => m.ahead (t, i))]
          exact hk b
      · refine ⟨_, Reach.refl.step (.plain (PNet.Step.recv (n := m.toPNet) hq (b := b) (rest := rest) (by rw [← hc]; exact data))
          (fun s' k e => by rw [hq] at e; cases e; exact hl)), by simp [hc], hse, sim_update h.sim i _ _ m.ahead (fun _ _ _ => rfl) (hk b)⟩
  | obs hp =>
    rename_i o k
    rw [hp] at hm
    generalize hq : m.proc i = q at hm
    cases hm with
    | obs hk =>
      refine ⟨_, Reach.refl.step (.plain (PNet.Step.obs (n := m.toPNet) hq) (fun s k e => by rw [hq] at e; cases e)),
        hc, by simp [hse], sim_update h.sim i _ _ m.ahead (fun _ _ _ => rfl) hk⟩
  | poll r hp sound some =>
    rw [hp] at hm
    generalize hq : m.proc i = q at hm
    cases hm with
    | poll _ hk =>
      refine ⟨_, Reach.refl.step (.plain (PNet.Step.poll (n := m.toPNet) r hq (by rw [← hc]; exact sound) some) (fun s k e => by rw [hq] at e; cases e)),
        hc, hse, sim_update h.sim i _ _ m.ahead (fun _ _ _ => rfl) (hk r)⟩
  | read hp some fits data =>
    rename_i s k' k c rest
    rw [hp] at hm
    generalize hq : m.proc i = q at hm
    cases hm with
    | read hl hk =>
      refine ⟨_, Reach.refl.step (.plain (PNet.Step.read (n := m.toPNet) hq some fits (rest := rest) (by rw [← hc]; exact data))
        (fun s k e => by rw [hq] at e; cases e)), by simp [hc], hse, sim_update h.sim i _ _ m.ahead (fun _ _ _ => rfl) (hk c)⟩
    | fill hl ha pos hk =>
      refine ⟨_, Reach.refl.step (.fill hq hl ha some (rest := rest) (by rw [← hc]; exact data)), by simp [hc], hse, ?_⟩
      have := sim_update h.sim i (k c) (m.proc i) (Function.update m.ahead (s, i) c)
        (fun t j hj => Function.update_of_ne (by rintro ⟨⟩; exact hj rfl) _ _) (by rw [update_pair, hq]; exact hk c some fits)
      simpa only [Function.update_eq_self] using this

/-- Every state of a network of programs that read ahead is one of the network with read
buffers. -/
theorem Rel.reach {n n' : PNet ι O α} {m : RNet ι O α} (h : Rel links n m) (hr : PNet.Reach cap n n') :
    ∃ m', Reach links cap m m' ∧ Rel links n' m' := by
  induction hr with
  | refl => exact ⟨m, .refl, h⟩
  | step _ s ih =>
    obtain ⟨m1, h1, h2⟩ := ih
    obtain ⟨m2, h3, h4⟩ := h2.step s
    exact ⟨m2, h1.trans h3, h4⟩

/-- All processes at once. -/
theorem Rel.sync_all {n : PNet ι O α} {m : RNet ι O α} (h : Rel links n m) (ha : Acc (fun b a : RNet ι O α => ∃ i, Step links cap i a b) m) :
    ∃ m', Reach links cap m m' ∧ Rel links n m' ∧
      ∀ i, Match (fun s => links (s, i)) (fun s => m'.ahead (s, i)) (n.proc i) (m'.proc i) := by
  induction ha with
  | intro m _ ih =>
    by_cases hall : ∀ i, Match (fun s => links (s, i)) (fun s => m.ahead (s, i)) (n.proc i) (m.proc i)
    · exact ⟨m, .refl, h, hall⟩
    · push Not at hall
      obtain ⟨i, hi⟩ := hall
      obtain ⟨m1, h1, h2⟩ := h.take (cap := cap) i hi
      obtain ⟨m2, h3, h4⟩ := ih m1 ⟨i, h1⟩ h2
      exact ⟨m2, (Reach.refl.step h1).trans h3, h4⟩

/-- What can move with read buffers can move. -/
theorem Rel.canStep {n : PNet ι O α} {m : RNet ι O α} (h : Rel links n m)
    (hm : ∀ i, Match (fun s => links (s, i)) (fun s => m.ahead (s, i)) (n.proc i) (m.proc i)) (hs : m.CanStep links cap) : n.CanStep cap := by
  obtain ⟨i, m', hs⟩ := hs
  have hm := hm i
  have hc := h.chan
  generalize hp : n.proc i = p at hm
  generalize hq : m.proc i = q at hm
  cases hs with
  | plain hs direct =>
    cases hs with
    | send hq' room =>
      have hq' : m.proc i = _ := hq'
      rw [hq'] at hq; subst hq
      cases hm with
      | send hk => exact ⟨i, _, .send hp (by rw [hc]; exact room)⟩
    | recv hq' data =>
      have hq' : m.proc i = _ := hq'
      have hl := direct _ _ hq'
      rw [hq'] at hq; subst hq
      cases hm with
      | recv ha hk => exact ⟨i, _, .recv hp (by rw [hc]; exact data)⟩
      | fill hl' _ _ _ => exact absurd hl' hl
    | obs hq' =>
      have hq' : m.proc i = _ := hq'
      rw [hq'] at hq; subst hq
      cases hm with
      | obs hk => exact ⟨i, _, .obs hp⟩
    | poll r hq' sound some =>
      have hq' : m.proc i = _ := hq'
      rw [hq'] at hq; subst hq
      cases hm with
      | poll _ hk => exact ⟨i, _, .poll r hp (by rw [hc]; exact sound) some⟩
    | read hq' some fits data =>
      have hq' : m.proc i = _ := hq'
      rw [hq'] at hq; subst hq
      cases hm with
      | read _ hk => exact ⟨i, _, .read hp some fits (by rw [hc]; exact data)⟩
  | take hq' hl ha =>
    rw [hq'] at hq; subst hq
    cases hm with
    | recv ha' hk => rw [ha] at ha'; cases ha'
    | fill _ ha' _ _ => rw [ha] at ha'; cases ha'
  | fill hq' hl ha some data =>
    rename_i s k c rest
    rw [hq'] at hq; subst hq
    match c, some with
    | b :: c, _ =>
    cases hm with
    | recv ha' hk => exact ⟨i, _, .recv hp (b := b) (rest := c ++ rest) (by rw [hc]; exact data)⟩
    | fill _ _ pos _ => exact ⟨i, _, .read hp (c := [b]) (rest := c ++ rest) (by simp) (by exact pos) (by rw [hc]; exact data)⟩

end

end DPPIR.RNet
