import Verif.Spec.State
import Verif.Proofs.Base
import Verif.Proofs.Types

namespace DPPIR
open DPPIR.Spec

theorem lookup_append {α β : Type} [BEq α] [LawfulBEq α] (l l' : List (α × β)) (a : α) :
    (l ++ l').lookup a = (l.lookup a).or (l'.lookup a) := by
  induction l with
  | nil => simp
  | cons e l ih =>
    obtain ⟨k, v⟩ := e
    simp only [List.cons_append, List.lookup_cons]
    by_cases h : a == k
    · simp [h]
    · simp [h, ih]

theorem lookup_eq_none_of {α β : Type} [BEq α] [LawfulBEq α] (l : List (α × β)) (a : α)
    (h : ∀ e ∈ l, e.1 ≠ a) : l.lookup a = none := by
  induction l with
  | nil => rfl
  | cons e l ih =>
    obtain ⟨k, v⟩ := e
    have h1 := h _ List.mem_cons_self
    have h2 : (a == k) = false := by simpa using Ne.symm h1
    rw [List.lookup_cons, h2]
    exact ih (fun e he => h e (List.mem_cons_of_mem _ he))

theorem lookup_map_of_nodup {α β γ : Type} [BEq α] [LawfulBEq α] (l : List γ) (f : γ → α) (g : γ → β)
    (hnd : (l.map f).Nodup) (c : γ) (hc : c ∈ l) :
    (l.map (fun x => (f x, g x))).lookup (f c) = some (g c) := by
  induction l with
  | nil => cases hc
  | cons x l ih =>
    simp only [List.map_cons, List.nodup_cons] at hnd
    simp only [List.map_cons, List.lookup_cons]
    rcases List.mem_cons.1 hc with rfl | h
    · simp
    · have hne : f c ≠ f x := fun e => hnd.1 (e ▸ List.mem_map_of_mem h)
      have : (f c == f x) = false := by simpa using hne
      rw [this]
      exact ih hnd.2 h

/-- Entry kept by a party for an offline secret. -/
def OfflineSecret.entry (o : OfflineSecret) : BitVec 64 × PartySecret :=
  (o.tag, ⟨o.nextTag, o.share, o.preshare⟩)
/-- Entry kept by the backend for an offline secret. -/
def OfflineSecret.entryB (o : OfflineSecret) : BitVec 64 × BackendSecret := (o.tag, ⟨o.share, o.preshare⟩)

theorem storeAll_ok (s : PartyState) (os : List OfflineSecret)
    (hnd : (os.map OfflineSecret.tag).Nodup) (hdis : ∀ o ∈ os, s.secrets.lookup o.tag = none) :
    ∃ s', storeAll s os = .ok s' ∧ s'.simulated = s.simulated ∧
      s'.secrets = s.secrets ++ os.map OfflineSecret.entry ∧ (os = [] → s' = s) := by
  induction os generalizing s with
  | nil => exact ⟨s, rfl, rfl, by simp, fun _ => rfl⟩
  | cons o os ih =>
    simp only [List.map_cons, List.nodup_cons] at hnd
    have h1 := hdis o List.mem_cons_self
    simp only [storeAll, PartyState.store, h1, bind_ok]
    obtain ⟨s', e1, e2, e3, -⟩ := ih
      { s with secrets := s.secrets ++ [(o.tag, ⟨o.nextTag, o.share, o.preshare⟩)], it := none } hnd.2 (by
      intro o' ho'
      simp only [lookup_append, hdis o' (List.mem_cons_of_mem _ ho'), Option.none_or]
      have : (o'.tag == o.tag) = false := by
        simp only [beq_eq_false_iff_ne]
        exact fun e => hnd.1 (e ▸ List.mem_map_of_mem ho')
      simp [List.lookup_cons, this])
    exact ⟨s', e1, e2, by simpa [OfflineSecret.entry] using e3, by simp⟩

theorem storeAll_fail (s : PartyState) (os : List OfflineSecret)
    (h : ¬ ((os.map OfflineSecret.tag).Nodup ∧ ∀ o ∈ os, s.secrets.lookup o.tag = none)) :
    storeAll s os = .error .assertFail := by
  induction os generalizing s with
  | nil => simp at h
  | cons o os ih =>
    cases hl : s.secrets.lookup o.tag with
    | some v => simp only [storeAll, PartyState.store, hl, bind_error]
    | none =>
      simp only [storeAll, PartyState.store, hl, bind_ok]
      apply ih
      rintro ⟨h1, h2⟩
      apply h
      simp only [List.map_cons, List.nodup_cons, List.mem_cons, forall_eq_or_imp]
      have key : ∀ o' ∈ os, s.secrets.lookup o'.tag = none ∧ o'.tag ≠ o.tag := by
        intro o' ho'
        have := h2 o' ho'
        simp only [lookup_append, Option.or_eq_none_iff] at this
        refine ⟨this.1, ?_⟩
        intro e
        simp [List.lookup_cons, e] at this
      refine ⟨⟨?_, h1⟩, hl, fun o' ho' => (key o' ho').1⟩
      intro hm
      obtain ⟨o', ho', e⟩ := List.mem_map.1 hm
      exact (key o' ho').2 e

theorem storeAllB_ok (s : BackendState) (os : List OfflineSecret)
    (hnd : (os.map OfflineSecret.tag).Nodup) (hdis : ∀ o ∈ os, s.secrets.lookup o.tag = none) :
    ∃ s', storeAllB s os = .ok s' ∧ s'.simulated = s.simulated ∧
      s'.secrets = s.secrets ++ os.map OfflineSecret.entryB ∧ (os = [] → s' = s) := by
  induction os generalizing s with
  | nil => exact ⟨s, rfl, rfl, by simp, fun _ => rfl⟩
  | cons o os ih =>
    simp only [List.map_cons, List.nodup_cons] at hnd
    have h1 := hdis o List.mem_cons_self
    simp only [storeAllB, BackendState.store, h1, bind_ok]
    obtain ⟨s', e1, e2, e3, -⟩ := ih
      { s with secrets := s.secrets ++ [(o.tag, ⟨o.share, o.preshare⟩)], it := none } hnd.2 (by
      intro o' ho'
      simp only [lookup_append, hdis o' (List.mem_cons_of_mem _ ho'), Option.none_or]
      have : (o'.tag == o.tag) = false := by
        simp only [beq_eq_false_iff_ne]
        exact fun e => hnd.1 (e ▸ List.mem_map_of_mem ho')
      simp [List.lookup_cons, this])
    exact ⟨s', e1, e2, by simpa [OfflineSecret.entryB] using e3, by simp⟩

theorem storeAllB_fail (s : BackendState) (os : List OfflineSecret)
    (h : ¬ ((os.map OfflineSecret.tag).Nodup ∧ ∀ o ∈ os, s.secrets.lookup o.tag = none)) :
    storeAllB s os = .error .assertFail := by
  induction os generalizing s with
  | nil => simp at h
  | cons o os ih =>
    cases hl : s.secrets.lookup o.tag with
    | some v => simp only [storeAllB, BackendState.store, hl, bind_error]
    | none =>
      simp only [storeAllB, BackendState.store, hl, bind_ok]
      apply ih
      rintro ⟨h1, h2⟩
      apply h
      simp only [List.map_cons, List.nodup_cons, List.mem_cons, forall_eq_or_imp]
      have key : ∀ o' ∈ os, s.secrets.lookup o'.tag = none ∧ o'.tag ≠ o.tag := by
        intro o' ho'
        have := h2 o' ho'
        simp only [lookup_append, Option.or_eq_none_iff] at this
        refine ⟨this.1, ?_⟩
        intro e
        simp [List.lookup_cons, e] at this
      refine ⟨⟨?_, h1⟩, hl, fun o' ho' => (key o' ho').1⟩
      intro hm
      obtain ⟨o', ho', e⟩ := List.mem_map.1 hm
      exact (key o' ho').2 e

/-! ### Client state -/

theorem set_at_done {α : Type} (l : List α) (a d : α) (m : Nat) :
    (l ++ List.replicate (m + 1) d).set l.length a = l ++ [a] ++ List.replicate m d := by
  rw [List.set_append_right _ _ (le_refl _), Nat.sub_self, List.replicate_succ, List.set_cons_zero]
  simp

theorem addAll_ok (s : ClientState) (done cs : List ClientSecret)
    (h32 : done.length + cs.length < 2 ^ 32)
    (hw : s.writeIdx = done.length)
    (ht : s.tags = done.map ClientSecret.tag ++ List.replicate cs.length 0)
    (hi : s.incrementals = done.map ClientSecret.incrementals ++ List.replicate cs.length [])
    (hp : s.preshares = done.map ClientSecret.preshare ++ List.replicate cs.length (fun _ => 0)) :
    addAll s cs = .ok { s with
      writeIdx := done.length + cs.length
      tags := (done ++ cs).map ClientSecret.tag
      incrementals := (done ++ cs).map ClientSecret.incrementals
      preshares := (done ++ cs).map ClientSecret.preshare } := by
  induction cs generalizing s done with
  | nil =>
    simp only [addAll]
    cases s
    simp_all
  | cons c cs ih =>
    simp only [List.length_cons] at h32 ht hi hp
    unfold addAll ClientState.addSecret
    rw [hw, ht, hi, hp, wr_ok (by simp), wr_ok (by simp), wr_ok (by simp)]
    simp only [bind_ok]
    have e1 := set_at_done (done.map ClientSecret.tag) c.tag 0 cs.length
    have e2 := set_at_done (done.map ClientSecret.incrementals) c.incrementals [] cs.length
    have e3 := set_at_done (done.map ClientSecret.preshare) c.preshare (fun _ => 0) cs.length
    rw [List.length_map] at e1 e2 e3
    rw [e1, e2, e3]
    have := ih
      { s with
        writeIdx := wrap32 (done.length + 1)
        tags := done.map ClientSecret.tag ++ [c.tag] ++ List.replicate cs.length 0
        incrementals := done.map ClientSecret.incrementals ++ [c.incrementals] ++ List.replicate cs.length []
        preshares := done.map ClientSecret.preshare ++ [c.preshare] ++ List.replicate cs.length (fun _ => 0) }
      (done ++ [c]) (by simp; omega)
      (by simp only [wrap32, List.length_append, List.length_singleton]; apply Nat.mod_eq_of_lt; omega)
      (by simp) (by simp) (by simp)
    rw [this]
    simp [Nat.add_assoc, Nat.add_comm 1 cs.length]

theorem addAllNoise_ok (s : ClientState) (done cs : List ClientSecret)
    (h32 : done.length + cs.length < 2 ^ 32)
    (hw : s.writeIdx = done.length)
    (ht : s.tags = done.map ClientSecret.tag ++ List.replicate cs.length 0)
    (hi : s.incrementals = done.map ClientSecret.incrementals ++ List.replicate cs.length []) :
    addAllNoise s cs = .ok { s with
      writeIdx := done.length + cs.length
      tags := (done ++ cs).map ClientSecret.tag
      incrementals := (done ++ cs).map ClientSecret.incrementals } := by
  induction cs generalizing s done with
  | nil =>
    simp only [addAllNoise]
    cases s
    simp_all
  | cons c cs ih =>
    simp only [List.length_cons] at h32 ht hi
    unfold addAllNoise ClientState.addNoiseSecret
    rw [hw, ht, hi, wr_ok (by simp), wr_ok (by simp)]
    simp only [bind_ok]
    have e1 := set_at_done (done.map ClientSecret.tag) c.tag 0 cs.length
    have e2 := set_at_done (done.map ClientSecret.incrementals) c.incrementals [] cs.length
    rw [List.length_map] at e1 e2
    rw [e1, e2]
    have := ih
      { s with
        writeIdx := wrap32 (done.length + 1)
        tags := done.map ClientSecret.tag ++ [c.tag] ++ List.replicate cs.length 0
        incrementals := done.map ClientSecret.incrementals ++ [c.incrementals] ++ List.replicate cs.length [] }
      (done ++ [c]) (by simp; omega)
      (by simp only [wrap32, List.length_append, List.length_singleton]; apply Nat.mod_eq_of_lt; omega)
      (by simp) (by simp)
    rw [this]
    simp [Nat.add_assoc, Nat.add_comm 1 cs.length]

theorem loads_eq (k : Nat) (s : ClientState) (h : s.readIdx + k < 2 ^ 32) :
    loads k s = { s with readIdx := s.readIdx + k } := by
  induction k generalizing s with
  | zero => rfl
  | succ k ih =>
    have hw : wrap32 (s.readIdx + 1) = s.readIdx + 1 := by unfold wrap32; apply Nat.mod_eq_of_lt; omega
    unfold loads ClientState.loadNext
    rw [hw, ih _ (by simp; omega)]
    simp [Nat.add_assoc, Nat.add_comm 1 k]

theorem cur_eq (s : ClientState) (k : Nat) (hs : s.simulated = false) (hr : s.readIdx = k + 1) (hk : k + 1 < 2 ^ 32) :
    s.cur = k := by
  unfold ClientState.cur
  rw [hs, hr]
  simp only [Bool.false_eq_true, if_false]
  unfold wrap32
  omega

/-! ### Response equality -/

theorem eqSigFrom_iff (a b : Response) (i : Nat) :
    a.eqSigFrom b i = true ↔ ∀ j : Fin sigSize, i ≤ j.val → a.sig j = b.sig j := by
  induction hm : sigSize - i generalizing i with
  | zero =>
    unfold Response.eqSigFrom
    rw [dif_neg (by omega)]
    simp only [true_iff]
    intro j hj
    have := j.isLt
    omega
  | succ m ih =>
    unfold Response.eqSigFrom
    rw [dif_pos (by omega)]
    by_cases h : a.sig ⟨i, by omega⟩ = b.sig ⟨i, by omega⟩
    · rw [if_neg (by simpa using h), ih (i + 1) (by omega)]
      constructor
      · intro hall j hj
        by_cases he : j.val = i
        · have : j = ⟨i, by omega⟩ := Fin.ext he
          rw [this]; exact h
        · exact hall j (by omega)
      · intro hall j hj
        exact hall j (by omega)
    · rw [if_pos (by simpa using h)]
      simp only [Bool.false_eq_true, false_iff]
      intro hall
      exact h (hall ⟨i, by omega⟩ (le_refl _))

/-! ### Database -/

theorem database_new (n : Nat) :
    Database.new n = .ok { size := n, rows := (List.range n).map Database.row } := by
  unfold Database.new
  obtain ⟨db, e1, e2⟩ := forRange_inv
    (fun i (db : List Response) => db = (List.range i).map Database.row ++ List.replicate (n - i) ⟨0, fun _ => 0⟩)
    (fun i db => wr db i (Database.row i)) 0 n (List.replicate n ⟨0, fun _ => 0⟩) (Nat.zero_le _) (by simp) (by
      rintro j db - hj rfl
      rw [wr_ok (by simp; omega)]
      refine ⟨_, rfl, ?_⟩
      have := set_at_done ((List.range j).map Database.row) (Database.row j) (⟨0, fun _ => 0⟩ : Response) (n - (j + 1))
      rw [show n - (j + 1) + 1 = n - j by omega, List.length_map, List.length_range] at this
      rw [this, List.range_succ]
      simp)
  rw [e1, e2]
  simp

end DPPIR
