import Verif.Proofs.LoopsNet
import Verif.Spec.Hearing

/-!
# What a process with receive loops hears from its siblings

The connections between siblings have no read buffers: the bytes a process read from
them are the same whether the other connections are read ahead or byte by byte.
-/

namespace DPPIR.PNet
variable {ι O α : Type} [DecidableEq ι]

theorem Hears.mono {cap cap' : ι × ι → Nat} (hc : ∀ c, cap c ≤ cap' c) {i : ι} {n m : PNet ι O α} {L : ι → List Byte}
    (h : Hears cap i n m L) : Hears cap' i n m L := by
  induction h with
  | refl => exact .refl
  | other _ s hj ih => exact .other ih (RNet.step_mono hc s) hj
  | quiet _ s hq ih => exact .quiet ih (RNet.step_mono hc s) hq
  | recv _ hp data ih => exact .recv ih hp data
  | read _ hp some fits data ih => exact .read ih hp some fits data

end DPPIR.PNet

namespace DPPIR.RNet
open Proc PNet
variable {ι O α : Type} [DecidableEq ι] {links : ι × ι → Prop} {cap : ι × ι → Nat}

/-- The steps of `Reach`, together with the bytes process `i` read from each process on
connections without a read buffer. -/
inductive Hears (links : ι × ι → Prop) (cap : ι × ι → Nat) (i : ι) (n : RNet ι O α) : RNet ι O α → (ι → List Byte) → Prop where
  | refl : Hears links cap i n n (fun _ => [])
  | other {m m' : RNet ι O α} {L : ι → List Byte} {j : ι} (h : Hears links cap i n m L) (s : Step links cap j m m') (hj : j ≠ i) :
      Hears links cap i n m' L
  | quiet {m m' : RNet ι O α} {L : ι → List Byte} (h : Hears links cap i n m L) (s : Step links cap i m m')
      (hq : (∀ src k, m.proc i = .recv src k → links (src, i)) ∧ ∀ src l k, m.proc i ≠ .read src l k) : Hears links cap i n m' L
  | recv {m : RNet ι O α} {L : ι → List Byte} {src : ι} {k : Byte → PProc ι O α} {b : Byte} {rest : List Byte}
      (h : Hears links cap i n m L) (hp : m.proc i = .recv src k) (hl : ¬ links (src, i)) (data : m.chan (src, i) = b :: rest) :
      Hears links cap i n { m with proc := Function.update m.proc i (k b), chan := Function.update m.chan (src, i) rest }
        (Function.update L src (L src ++ [b]))
  | read {m : RNet ι O α} {L : ι → List Byte} {src : ι} {l : Nat} {k : List Byte → PProc ι O α} {c rest : List Byte}
      (h : Hears links cap i n m L) (hp : m.proc i = .read src l k) (some : c ≠ []) (fits : c.length ≤ l)
      (data : m.chan (src, i) = c ++ rest) :
      Hears links cap i n { m with proc := Function.update m.proc i (k c), chan := Function.update m.chan (src, i) rest }
        (Function.update L src (L src ++ c))

/-- The same bytes are heard without read buffers. -/
theorem Hears.unread {i : ι} {n m : RNet ι O α} {L : ι → List Byte} (hn : Clean links n) (h : Hears links cap i n m L) :
    Clean links m ∧ ∃ cap' L', PNet.Hears cap' i n.unread m.unread L' ∧ ∀ s, ¬ links (s, i) → L' s = L s := by
  have room : ∀ (c1 c2 : ι × ι → Nat) (c), c1 c ≤ (fun c => c1 c + c2 c) c ∧ c2 c ≤ (fun c => c1 c + c2 c) c :=
    fun c1 c2 c => ⟨Nat.le_add_right _ _, Nat.le_add_left _ _⟩
  induction h with
  | refl => exact ⟨hn, fun _ => 0, _, .refl, fun _ _ => rfl⟩
  | other _ s hj ih =>
    obtain ⟨h1, c1, L', h2, h5⟩ := ih
    obtain ⟨h3, h4⟩ := s.unread h1
    refine ⟨h3, ?_⟩
    rcases h4 with h4 | ⟨c2, h4⟩
    · rw [h4]; exact ⟨c1, L', h2, h5⟩
    · exact ⟨_, L', .other (h2.mono (fun c => (room c1 c2 c).1)) (step_mono (fun c => (room c1 c2 c).2) h4) hj, h5⟩
  | @quiet m m' L _ s hq ih =>
    obtain ⟨h1, c1, L', h2, h5⟩ := ih
    obtain ⟨h3, h4⟩ := s.unread h1
    refine ⟨h3, ?_⟩
    rcases h4 with h4 | ⟨c2, h4⟩
    · rw [h4]; exact ⟨c1, L', h2, h5⟩
    · have h2 := h2.mono (fun c => (room c1 c2 c).1)
      have h4 := step_mono (fun c => (room c1 c2 c).2) h4
      generalize hm' : m'.unread = M at h4
      cases h4 with
      | send hp room => exact ⟨_, L', .quiet h2 (.send hp room) ⟨by simp [hp], by simp [hp]⟩, h5⟩
      | recv hp data =>
        rename_i src k b rest
        refine ⟨_, _, .recv h2 hp data, fun s hs => ?_⟩
        rw [Function.update_of_ne (by rintro rfl; exact hs (hq.1 _ _ hp))]
        exact h5 s hs
      | obs hp => exact ⟨_, L', .quiet h2 (.obs hp) ⟨by simp [hp], by simp [hp]⟩, h5⟩
      | poll ready hp sound some => exact ⟨_, L', .quiet h2 (.poll ready hp sound some) ⟨by simp [hp], by simp [hp]⟩, h5⟩
      | read hp => exact absurd hp (hq.2 _ _ _)
  | @recv m L src k b rest _ hp hl data ih =>
    obtain ⟨h1, c1, L', h2, h5⟩ := ih
    have st : Step links cap i m { m with proc := Function.update m.proc i (k b), chan := Function.update m.chan (src, i) rest } :=
      .plain (PNet.Step.recv (n := m.toPNet) hp data) (fun s' k e => by rw [hp] at e; cases e; exact hl)
    refine ⟨(st.unread h1).1, c1, Function.update L' src (L' src ++ [b]), ?_, fun s hs => ?_⟩
    · have := PNet.Hears.recv h2 (src := src) (k := k) (b := b) (rest := rest) hp (by simp [RNet.unread, h1.ahead _ hl, data])
      convert this using 1
      simp only [RNet.unread, PNet.mk.injEq, true_and, and_true]
      funext c
      by_cases hc : c = (src, i)
      · subst hc; simp [h1.ahead _ hl]
      · simp [Function.update_of_ne hc]
    · by_cases e : s = src
      · subst e; simp [h5 s hs]
      · rw [Function.update_of_ne e, Function.update_of_ne e]; exact h5 s hs
  | @read m L src l k c rest _ hp some fits data ih =>
    obtain ⟨h1, c1, L', h2, h5⟩ := ih
    have hl : ¬ links (src, i) := by
      have := h1.direct i
      rw [hp] at this
      cases this; assumption
    have st : Step links cap i m { m with proc := Function.update m.proc i (k c), chan := Function.update m.chan (src, i) rest } :=
      .plain (PNet.Step.read (n := m.toPNet) hp some fits data) (fun s' k e => by rw [hp] at e; cases e)
    refine ⟨(st.unread h1).1, c1, Function.update L' src (L' src ++ c), ?_, fun s hs => ?_⟩
    · have := PNet.Hears.read h2 (src := src) (k := k) (c := c) (rest := rest) hp some fits (by simp [RNet.unread, h1.ahead _ hl, data])
      convert this using 1
      simp only [RNet.unread, PNet.mk.injEq, true_and, and_true]
      funext x
      by_cases hc : x = (src, i)
      · subst hc; simp [h1.ahead _ hl]
      · simp [Function.update_of_ne hc]
    · by_cases e : s = src
      · subst e; simp [h5 s hs]
      · rw [Function.update_of_ne e, Function.update_of_ne e]; exact h5 s hs

/-- `Rel.sync` while hearing. -/
theorem Rel.sync_hears {n : PNet ι O α} {m0 m : RNet ι O α} {i j : ι} {L : ι → List Byte} (h : Rel links n m) (hh : Hears links cap i m0 m L) :
    ∃ m', Hears links cap i m0 m' L ∧ Rel links n m' ∧
      Match (fun s => links (s, j)) (fun s => m'.ahead (s, j)) (n.proc j) (m'.proc j) := by
  have key : ∀ (A : ι → List Byte) (p q : PProc ι O α), Sim (fun s => links (s, j)) A p q → ∀ m : RNet ι O α, Rel links n m →
      Hears links cap i m0 m L → A = (fun s => m.ahead (s, j)) → n.proc j = p → m.proc j = q → ∃ m', Hears links cap i m0 m' L ∧ Rel links n m' ∧
      Match (fun s => links (s, j)) (fun s => m'.ahead (s, j)) (n.proc j) (m'.proc j) := by
    intro A p q hs
    induction hs with
    | take hl ha hs ih =>
      rename_i A s b rest p k'
      intro m h hh e1 e2 e3
      subst e1
      have hr := sim_update h.sim j (n.proc j) (k' b) (Function.update m.ahead (s, j) rest)
        (fun t j hj => Function.update_of_ne (by rintro ⟨⟩; exact hj rfl) _ _) (by rw [update_pair, e2]; exact hs)
      rw [Function.update_eq_self] at hr
      have st : Step links cap j m { m with proc := Function.update m.proc j (k' b), ahead := Function.update m.ahead (s, j) rest } := .take e3 hl ha
      refine ih { m with proc := Function.update m.proc j (k' b), ahead := Function.update m.ahead (s, j) rest }
        ⟨h.chan, h.seen, hr⟩ ?_ (update_pair _ _ _ _).symm e2 (Function.update_self ..)
      by_cases hj : j = i
      · subst hj
        exact .quiet hh st ⟨fun src k e => by rw [e3] at e; cases e; exact hl, fun _ _ _ e => by rw [e3] at e; cases e⟩
      · exact .other hh st hj
    | done a hA => intro m h hh e1 e2 e3; exact ⟨m, hh, h, by rw [← e1, e2, e3]; exact .done a hA⟩
    | fault e => intro m h hh e1 e2 e3; exact ⟨m, hh, h, by rw [← e1, e2, e3]; exact .fault e⟩
    | send hs => intro m h hh e1 e2 e3; exact ⟨m, hh, h, by rw [← e1, e2, e3]; exact .send hs⟩
    | obs hs => intro m h hh e1 e2 e3; exact ⟨m, hh, h, by rw [← e1, e2, e3]; exact .obs hs⟩
    | recv a hs => intro m h hh e1 e2 e3; exact ⟨m, hh, h, by rw [← e1, e2, e3]; exact .recv a hs⟩
    | poll a hs => intro m h hh e1 e2 e3; exact ⟨m, hh, h, by rw [← e1, e2, e3]; exact .poll a hs⟩
    | read a hs => intro m h hh e1 e2 e3; exact ⟨m, hh, h, by rw [← e1, e2, e3]; exact .read a hs⟩
    | fill a b c hs => intro m h hh e1 e2 e3; exact ⟨m, hh, h, by rw [← e1, e2, e3]; exact .fill a b c hs⟩
  exact key _ _ _ (h.sim j) m h hh rfl rfl rfl

/-- A step of a process, with the bytes it read. -/
theorem Rel.step_hears {n n' : PNet ι O α} {m0 m : RNet ι O α} {i j : ι} {L : ι → List Byte} (h : Rel links n m) (hh : Hears links cap i m0 m L)
    (hs : PNet.Step cap j n n') :
    ∃ m', Rel links n' m' ∧
      ((j = i ∧ ∃ src k b rest, n.proc i = .recv src k ∧ n.chan (src, i) = b :: rest ∧ ¬ links (src, i) ∧
          n' = { n with proc := Function.update n.proc i (k b), chan := Function.update n.chan (src, i) rest } ∧
          Hears links cap i m0 m' (Function.update L src (L src ++ [b]))) ∨
        (j = i ∧ ∃ src l k c rest, n.proc i = .read src l k ∧ c ≠ [] ∧ c.length ≤ l ∧ n.chan (src, i) = c ++ rest ∧ ¬ links (src, i) ∧
          n' = { n with proc := Function.update n.proc i (k c), chan := Function.update n.chan (src, i) rest } ∧
          Hears links cap i m0 m' (Function.update L src (L src ++ c))) ∨
        Hears links cap i m0 m' L ∧ (j = i → (∀ src k, n.proc i = .recv src k → links (src, i)) ∧
          ∀ src l k, n.proc i = .read src l k → links (src, i))) := by
  obtain ⟨m, hh, h, hm⟩ := h.sync_hears (cap := cap) (j := j) hh
  have hc := h.chan
  have hse := h.seen
  have plain : ∀ {m' : RNet ι O α}, Step links cap j m m' → (j = i → (∀ src k, m.proc i = .recv src k → links (src, i)) ∧ ∀ src l k, m.proc i ≠ .read src l k) →
      Hears links cap i m0 m' L := by
    intro m' st hq
    by_cases hj : j = i
    · subst hj; exact .quiet hh st (hq rfl)
    · exact .other hh st hj
  cases hs with
  | send hp room =>
    rename_i d b k
    rw [hp] at hm
    generalize hq : m.proc j = q at hm
    cases hm with
    | send hk =>
      refine ⟨_, ⟨?_, ?_, sim_update h.sim j _ _ m.ahead (fun _ _ _ => rfl) hk⟩, .inr (.inr ⟨plain (.plain (PNet.Step.send (n := m.toPNet) hq (by rw [← hc]; exact room)) (fun s k e => by rw [hq] at e; cases e)) ?_, ?_⟩)⟩
      · simp [hc]
      · exact hse
      · rintro rfl; simp [hq]
      · rintro rfl; simp [hp]
  | recv hp data =>
    rename_i s k b rest
    rw [hp] at hm
    generalize hq : m.proc j = q at hm
    cases hm with
    | recv ha hk =>
      rename_i k'
      by_cases hl : links (s, j)
      · have ha : m.ahead (s, j) = [] := ha
        have hdata : m.chan (s, j) = [b] ++ rest := by rw [← hc, data]; rfl
        have s1 : Step links cap j m _ := .fill hq hl ha (by simp) hdata
        have s2 : Step links cap j { m with chan := Function.update m.chan (s, j) rest, ahead := Function.update m.ahead (s, j) [b] }
            { m with proc := Function.update m.proc j (k' b), chan := Function.update m.chan (s, j) rest, ahead := Function.update (Function.update m.ahead (s, j) [b]) (s, j) [] } :=
          .take (b := b) (rest := []) hq hl (Function.update_self ..)
        have hfin : Hears links cap i m0 { m with proc := Function.update m.proc j (k' b), chan := Function.update m.chan (s, j) rest, ahead := Function.update (Function.update m.ahead (s, j) [b]) (s, j) [] } L := by
          by_cases hj : j = i
          · subst hj
            exact .quiet (.quiet hh s1 ⟨fun _ _ e => by rw [hq] at e; cases e; exact hl, by simp [hq]⟩) s2
              ⟨fun _ _ e => by dsimp only at e; rw [hq] at e; cases e; exact hl, by simp [hq]⟩
          · exact .other (.other hh s1 hj) s2 hj
        refine ⟨_, ⟨?_, ?_, ?_⟩, .inr (.inr ⟨hfin, ?_⟩)⟩
        · simp [hc]
        · exact hse
        · refine sim_update h.sim j _ _ _ (fun t j' hj => ?_) ?_
          · have hne : (t, j') ≠ (s, j) := by rintro ⟨⟩; exact hj rfl
            dsimp only
            rw [Function.update_of_ne hne, Function.update_of_ne hne]
          · simp only [Function.update_idem]
            rw [update_pair, show Function.update (fun t => m.ahead (t, j)) s [] = fun t => m.ahead (t, j) from by
              rw [← ha]; exact Function.update_eq_self s (fun t => m.ahead (t, j))]
            exact hk b
        · rintro rfl
          exact ⟨fun _ _ e => by rw [hp] at e; cases e; exact hl, by simp [hp]⟩
      · have hdata : m.chan (s, j) = b :: rest := by rw [← hc]; exact data
        by_cases hj : j = i
        · subst hj
          refine ⟨_, ⟨?_, ?_, sim_update h.sim j _ _ m.ahead (fun _ _ _ => rfl) (hk b)⟩, .inl ⟨rfl, s, k, b, rest, hp, data, hl, rfl, .recv hh hq hl hdata⟩⟩
          · simp [hc]
          · exact hse
        · refine ⟨_, ⟨?_, ?_, sim_update h.sim j _ _ m.ahead (fun _ _ _ => rfl) (hk b)⟩, .inr (.inr ⟨.other hh (.plain (PNet.Step.recv (n := m.toPNet) hq (b := b) (rest := rest) hdata)
            (fun s' k e => by rw [hq] at e; cases e; exact hl)) hj, fun e => absurd e hj⟩)⟩
          · simp [hc]
          · exact hse
  | obs hp =>
    rename_i o k
    rw [hp] at hm
    generalize hq : m.proc j = q at hm
    cases hm with
    | obs hk =>
      refine ⟨_, ⟨?_, ?_, sim_update h.sim j _ _ m.ahead (fun _ _ _ => rfl) hk⟩, .inr (.inr ⟨plain (.plain (PNet.Step.obs (n := m.toPNet) hq) (fun s k e => by rw [hq] at e; cases e)) ?_, ?_⟩)⟩
      · exact hc
      · simp [hse]
      · rintro rfl; simp [hq]
      · rintro rfl; simp [hp]
  | poll r hp sound some =>
    rw [hp] at hm
    generalize hq : m.proc j = q at hm
    cases hm with
    | poll _ hk =>
      refine ⟨_, ⟨?_, ?_, sim_update h.sim j _ _ m.ahead (fun _ _ _ => rfl) (hk r)⟩, .inr (.inr ⟨plain (.plain (PNet.Step.poll (n := m.toPNet) r hq (by rw [← hc]; exact sound) some) (fun s k e => by rw [hq] at e; cases e)) ?_, ?_⟩)⟩
      · exact hc
      · exact hse
      · rintro rfl; simp [hq]
      · rintro rfl; simp [hp]
  | read hp some fits data =>
    rename_i s l k c rest
    have hdata : m.chan (s, j) = c ++ rest := by rw [← hc]; exact data
    rw [hp] at hm
    generalize hq : m.proc j = q at hm
    cases hm with
    | read hl hk =>
      by_cases hj : j = i
      · subst hj
        refine ⟨_, ⟨?_, ?_, sim_update h.sim j _ _ m.ahead (fun _ _ _ => rfl) (hk c)⟩, .inr (.inl ⟨rfl, s, l, k, c, rest, hp, some, fits, data, hl, rfl, .read hh hq some fits hdata⟩)⟩
        · simp [hc]
        · exact hse
      · refine ⟨_, ⟨?_, ?_, sim_update h.sim j _ _ m.ahead (fun _ _ _ => rfl) (hk c)⟩, .inr (.inr ⟨.other hh (.plain (PNet.Step.read (n := m.toPNet) hq some fits (rest := rest) hdata)
          (fun s k e => by rw [hq] at e; cases e)) hj, fun e => absurd e hj⟩)⟩
        · simp [hc]
        · exact hse
    | fill hl ha pos hk =>
      refine ⟨_, ⟨?_, ?_, ?_⟩, .inr (.inr ⟨plain (.fill hq hl ha some hdata) ?_, ?_⟩)⟩
      · simp [hc]
      · exact hse
      · have := sim_update h.sim j (k c) (m.proc j) (Function.update m.ahead (s, j) c)
          (fun t j hj => Function.update_of_ne (by rintro ⟨⟩; exact hj rfl) _ _) (by rw [update_pair, hq]; exact hk c some fits)
        simpa only [Function.update_eq_self] using this
      · rintro rfl
        exact ⟨fun _ _ e => by rw [hq] at e; cases e; exact hl, by simp [hq]⟩
      · rintro rfl
        exact ⟨by simp [hp], fun _ _ _ e => by rw [hp] at e; cases e; exact hl⟩

/-- A run of the programs that read ahead, with the bytes one of them heard. -/
theorem Rel.hears {n n' : PNet ι O α} {m : RNet ι O α} {i : ι} {L : ι → List Byte} (h : Rel links n m) (hr : PNet.Hears cap i n n' L) :
    ∃ m' L', Hears links cap i m m' L' ∧ Rel links n' m' ∧ ∀ s, ¬ links (s, i) → L' s = L s := by
  have upd : ∀ {L L' : ι → List Byte} (src : ι) (c : List Byte), (∀ s, ¬ links (s, i) → L' s = L s) → ∀ s, ¬ links (s, i) →
      Function.update L' src (L' src ++ c) s = Function.update L src (L src ++ c) s := by
    intro L L' src c hL s hs
    by_cases e : s = src
    · subst e; simp [hL s hs]
    · rw [Function.update_of_ne e, Function.update_of_ne e]; exact hL s hs
  have skip : ∀ {L L' : ι → List Byte} (src : ι) (c : List Byte), (∀ s, ¬ links (s, i) → L' s = L s) → links (src, i) → ∀ s, ¬ links (s, i) →
      L' s = Function.update L src (L src ++ c) s := by
    intro L L' src c hL hl s hs
    rw [Function.update_of_ne (by rintro rfl; exact hs hl)]
    exact hL s hs
  induction hr with
  | refl => exact ⟨m, _, .refl, h, fun _ _ => rfl⟩
  | other _ s hj ih =>
    obtain ⟨m1, L', h1, h2, h3⟩ := ih
    obtain ⟨m2, h4, ⟨e, -⟩ | ⟨e, -⟩ | ⟨h5, -⟩⟩ := h2.step_hears h1 s
    · exact absurd e hj
    · exact absurd e hj
    · exact ⟨m2, L', h5, h4, h3⟩
  | quiet _ s hq ih =>
    obtain ⟨m1, L', h1, h2, h3⟩ := ih
    obtain ⟨m2, h4, ⟨-, _, _, _, _, e, -⟩ | ⟨-, _, _, _, _, _, e, -⟩ | ⟨h5, -⟩⟩ := h2.step_hears h1 s
    · exact absurd e (hq.1 _ _)
    · exact absurd e (hq.2 _ _ _)
    · exact ⟨m2, L', h5, h4, h3⟩
  | @recv m' L src k b rest _ hp data ih =>
    obtain ⟨m1, L', h1, h2, h3⟩ := ih
    obtain ⟨m2, h4, ⟨-, src', k', b', rest', e, e', -, -, h5⟩ | ⟨-, _, _, _, _, _, e, -⟩ | ⟨h5, h6⟩⟩ := h2.step_hears h1 (.recv hp data)
    · rw [hp] at e; cases e
      rw [data] at e'; cases e'
      exact ⟨m2, _, h5, h4, upd _ _ h3⟩
    · rw [hp] at e; cases e
    · exact ⟨m2, L', h5, h4, skip _ _ h3 ((h6 rfl).1 _ _ hp)⟩
  | @read m' L src l k c rest _ hp some fits data ih =>
    obtain ⟨m1, L', h1, h2, h3⟩ := ih
    obtain ⟨m2, h4, ⟨-, _, _, _, _, e, -⟩ | ⟨-, src', l', k', c', rest', e, -, -, e', -, e2, h5⟩ | ⟨h5, h6⟩⟩ := h2.step_hears h1 (.read hp some fits data)
    · rw [hp] at e; cases e
    · rw [hp] at e; cases e
      have hrest : rest = rest' := by
        have := congrArg PNet.chan e2
        have := congrFun this (src, i)
        simpa using this
      subst hrest
      rw [data] at e'
      obtain rfl := List.append_cancel_right e'
      exact ⟨m2, _, h5, h4, upd _ _ h3⟩
    · exact ⟨m2, L', h5, h4, skip _ _ h3 ((h6 rfl).2 _ _ _ hp)⟩

/-- `one_of_many`, with what the process hears on the connections it does not read
ahead. -/
theorem one_of_many_hears {Q : ι → Prop} {i : ι} {p' : PProc ι O α} {n0 n : PNet ι O α} {L : ι → List Byte}
    (hs : Sim (fun s => (fun x : ι × ι => x.2 = i ∧ Q x.1) (s, i)) (fun _ => []) (n0.proc i) p')
    (hd : Direct (fun x : ι × ι => x.2 = i ∧ Q x.1) i p') (hr : PNet.Hears cap i n0 n L) :
    ∃ cap' m L', PNet.Hears cap' i { n0 with proc := Function.update n0.proc i p' } m L' ∧ (∀ s, ¬ Q s → L' s = L s) ∧ m.seen = n.seen ∧
      (∀ a, n.proc i = .done a → m.proc i = .done a) ∧ ∀ e, n.proc i = .fault e → m.proc i = .fault e := by
  let links : ι × ι → Prop := fun x => x.2 = i ∧ Q x.1
  have hnone : ∀ j, j ≠ i → ∀ s, ¬ links (s, j) := fun j hj s h => hj h.1
  let m0 : RNet ι O α := { n0 with proc := Function.update n0.proc i p', ahead := fun _ => [] }
  have hrel : Rel links n0 m0 := by
    refine ⟨rfl, rfl, fun j => ?_⟩
    by_cases hj : j = i
    · subst hj
      show Sim _ _ _ (Function.update n0.proc j p' j)
      rw [Function.update_self]
      exact hs
    · show Sim _ _ _ (Function.update n0.proc i p' j)
      rw [Function.update_of_ne hj]
      exact Protocol.sim_refl (links := links) (direct_of_none (hnone j hj) _)
  have hclean : Clean links m0 := by
    refine ⟨fun _ _ => rfl, fun j => ?_⟩
    by_cases hj : j = i
    · subst hj
      show Direct _ _ (Function.update n0.proc j p' j)
      rw [Function.update_self]
      exact hd
    · exact direct_of_none (hnone j hj) _
  obtain ⟨m1, L1, h1, h2, h3⟩ := hrel.hears hr
  obtain ⟨m2, h4, h5, h6⟩ := h2.sync_hears (j := i) h1
  obtain ⟨-, cap', L', h7, h8⟩ := h4.unread hclean
  refine ⟨cap', m2.unread, L', h7, fun s hq => ?_, h5.seen.symm, fun a e => ?_, fun e' e => ?_⟩
  · have hns : ¬ links (s, i) := fun h => hq h.2
    rw [h8 s hns, h3 s hns]
  all_goals
    rw [e] at h6
    show m2.proc i = _
    generalize m2.proc i = q at h6
    cases h6
    rfl

end DPPIR.RNet
