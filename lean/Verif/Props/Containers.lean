import Verif.Proofs.Containers
import Verif.Spec.Containers

/-!
# C21, C26, C27: ServersMap, Poll, CipherBatch
-/

namespace DPPIR.Props
open DPPIR.Spec DPPIR.Sockets

/-! ## C21 -/

private theorem index_inj {self a b : Nat} (ha : a ≠ self) (hb : b ≠ self)
    (h : (if a > self then a - 1 else a) = (if b > self then b - 1 else b)) : a = b := by
  split at h <;> split at h <;> omega

private theorem get_eq {α : Type} (m : ServersMap α) (id : Nat) (h : id ≠ m.serverId) :
    m.get id = rd m.data (if id > m.serverId then id - 1 else id) := by
  simp [ServersMap.get, ServersMap.index, h]

private theorem writes_ok {α : Type} (ws : List (Nat × α)) (count : Nat) (m : ServersMap α) (f : Nat → α)
    (hlen : m.data.length = count - 1) (hself : m.serverId < count)
    (hws : ∀ w ∈ ws, w.1 < count ∧ w.1 ≠ m.serverId)
    (hf : ∀ id, id < count → id ≠ m.serverId → m.get id = .ok (f id)) :
    ∃ m', mapWrites m ws = .ok m' ∧ m'.serverId = m.serverId ∧ m'.data.length = count - 1 ∧
      ∀ id, id < count → id ≠ m.serverId → m'.get id = .ok (lastWritten (f id) ws id) := by
  induction ws generalizing m f with
  | nil => exact ⟨m, rfl, rfl, hlen, hf⟩
  | cons w t ih =>
    obtain ⟨hw1, hw2⟩ := hws w (by simp)
    have hi : (if w.1 > m.serverId then w.1 - 1 else w.1) < m.data.length := by rw [hlen]; split <;> omega
    have hset : m.set w.1 w.2 = .ok { m with data := m.data.set (if w.1 > m.serverId then w.1 - 1 else w.1) w.2 } := by
      simp only [ServersMap.set, ServersMap.index, hw2, if_false, bind_ok]
      rw [wr_ok hi]; rfl
    obtain ⟨m', h1, h2, h3, h4⟩ := ih { m with data := m.data.set (if w.1 > m.serverId then w.1 - 1 else w.1) w.2 }
      (fun id => if w.1 = id then w.2 else f id) (by simpa using hlen) hself
      (fun x hx => hws x (by simp [hx])) (by
        intro id hid hne
        have := hf id hid hne
        rw [get_eq m _ hne] at this
        rw [get_eq _ _ hne]
        simp only
        by_cases he : w.1 = id
        · subst he
          rw [rd_ok (by simpa using hi)]
          simp
        · have hne2 : (if w.1 > m.serverId then w.1 - 1 else w.1) ≠ (if id > m.serverId then id - 1 else id) :=
            fun h => he (index_inj hw2 hne h)
          rw [rd_eq_ok] at this ⊢
          rw [List.getElem?_set_ne hne2, this, if_neg he])
    refine ⟨m', ?_, h2, h3, ?_⟩
    · simp only [mapWrites, List.foldlM_cons, hset, bind_ok]
      exact h1
    · intro id hid hne
      rw [h4 id hid hne]
      rfl

/-- **C21**. After any sequence of writes under sibling ids, all in bounds, a read
under a sibling id returns the last value written under that id (the initial one if
none was). -/
theorem C21_map_semantics {α : Type} (self count : Nat) (hself : self < count) (dflt : α) (ws : List (Nat × α))
    (hws : ∀ w ∈ ws, w.1 < count ∧ w.1 ≠ self) :
    ∃ m0 m, ServersMap.new self count dflt = .ok m0 ∧ mapWrites m0 ws = .ok m ∧
      ∀ id, id < count → id ≠ self → m.get id = .ok (lastWritten dflt ws id) := by
  have hn : ServersMap.new self count dflt = .ok { serverId := self, data := List.replicate (count - 1) dflt } := by
    unfold ServersMap.new
    rw [if_neg (by omega)]
  obtain ⟨m, h1, -, -, h4⟩ := writes_ok ws count { serverId := self, data := List.replicate (count - 1) dflt }
    (fun _ => dflt) (by simp) hself hws (by
      intro id hid hne
      rw [get_eq _ _ hne]
      simp only
      simp only at hne
      rw [rd_ok (by simp only [List.length_replicate]; split <;> omega)]
      simp)
  exact ⟨_, m, hn, h1, h4⟩

/-- **C21**. The filling constructor stores the fill value under every sibling id. -/
theorem C21_fill {α : Type} (self count : Nat) (hself : self < count) (dflt fill : α) :
    ∃ m, ServersMap.newFill self count dflt fill = .ok m ∧
      ∀ id, id < count → id ≠ self → m.get id = .ok fill := by
  have hn : ServersMap.new self count dflt = .ok { serverId := self, data := List.replicate (count - 1) dflt } := by
    unfold ServersMap.new
    rw [if_neg (by omega)]
  obtain ⟨d1, e1, l1, i1⟩ := forRange_inv (fun j (d : List α) => d.length = count - 1 ∧ ∀ i < j, d[i]? = some fill)
    (fun i d => wr d i fill) 0 self (List.replicate (count - 1) dflt) (by omega) ⟨by simp, by simp⟩ (by
      rintro j d - hj ⟨hl, hi⟩
      refine ⟨_, wr_ok (by omega), by simpa using hl, ?_⟩
      intro i hij
      by_cases h : i = j
      · subst h; rw [List.getElem?_set_self (by omega)]
      · rw [List.getElem?_set_ne (Ne.symm h)]
        exact hi i (by omega))
  obtain ⟨d2, e2, l2, i2⟩ := forRange_inv (fun j (d : List α) => d.length = count - 1 ∧ ∀ i < j - 1, d[i]? = some fill)
    (fun i d => wr d (i - 1) fill) (self + 1) count d1 (by omega) ⟨l1, fun i hi => i1 i (by omega)⟩ (by
      rintro j d hj1 hj ⟨hl, hi⟩
      refine ⟨_, wr_ok (by omega), by simpa using hl, ?_⟩
      intro i hij
      by_cases h : i = j - 1
      · subst h; rw [List.getElem?_set_self (by omega)]
      · rw [List.getElem?_set_ne (Ne.symm h)]
        exact hi i (by omega))
  refine ⟨{ serverId := self, data := d2 }, ?_, ?_⟩
  · unfold ServersMap.newFill
    rw [hn, bind_ok]
    simp only
    rw [e1, bind_ok, e2, bind_ok]
  · intro id hid hne
    rw [get_eq _ _ hne]
    simp only
    rw [rd_eq_ok]
    apply i2
    split <;> omega

/-- **C21**. Access under the own id stops the program; an id outside the range is
never silently answered; a map for zero servers cannot be built. -/
theorem C21_misuse {α : Type} (self count : Nat) (dflt : α) (m : ServersMap α)
    (h : ServersMap.new self count dflt = .ok m) :
    m.get self = .error .assertFail ∧ (∀ v, m.set self v = .error .assertFail) ∧
      (∀ id, count ≤ id → self < count → m.get id = .error .ub) := by
  unfold ServersMap.new at h
  split at h
  · cases h
  · have := Except.ok.inj h
    subst this
    refine ⟨?_, ?_, ?_⟩
    · simp [ServersMap.get, ServersMap.index]
    · intro v; simp [ServersMap.set, ServersMap.index]
    · intro id h1 h2
      rw [get_eq _ _ (by simp only; omega)]
      simp only
      rw [if_pos (by omega), rd_ub (by simp; omega)]

/-- **C21**. -/
theorem C21_zero {α : Type} (self : Nat) (dflt : α) : ServersMap.new self 0 dflt = .error .exception := by
  simp [ServersMap.new]

example : (do
    let m ← ServersMap.newFill 1 4 0 7
    let m ← mapWrites m [(0, 5), (3, 6), (0, 8)]
    let a ← m.get 0
    let b ← m.get 2
    let c ← m.get 3
    .ok (a, b, c) : Res (Nat × Nat × Nat)) = .ok (8, 7, 6) := by decide +kernel

/-! ## C26 -/

private theorem pollLoop_ok (pre fds : List Revents) (hpin : ∀ r ∈ fds, r.other = true → r.pollin = true)
    (fuel : Nat) (hf : fds.length < fuel) (done todo : List Bool) (hd : done.length = pre.length)
    (ht : todo.length = fds.length) :
    pollLoop (pre ++ fds) fuel pre.length (fds.countP Revents.signalled) (done ++ todo) =
      .ok (done ++ List.zipWith (fun o r => o || r.pollin) todo fds) := by
  induction fds generalizing pre fuel done todo with
  | nil =>
    have : todo = [] := List.length_eq_zero_iff.mp (by simpa using ht)
    subst this
    simp only [List.countP_nil, List.zipWith_nil_right, List.append_nil]
    cases fuel <;> rfl
  | cons r t ih =>
    cases todo with
    | nil => simp at ht
    | cons o ot =>
      cases fuel with
      | zero => simp at hf
      | succ fuel =>
        have hsig : r.signalled = r.pollin := by
          have := hpin r (by simp)
          unfold Revents.signalled
          cases hp : r.pollin <;> cases ho : r.other <;> simp_all
        have key : ∀ (b : Bool), pollLoop (pre ++ r :: t) fuel (pre.length + 1) (t.countP Revents.signalled)
            (done ++ b :: ot) = .ok (done ++ b :: List.zipWith (fun o r => o || r.pollin) ot t) := by
          intro b
          have := ih (pre ++ [r]) (fun x hx => hpin x (by simp [hx])) fuel (by simp at hf; omega) (done ++ [b]) ot
            (by simp [hd]) (by simpa using ht)
          simpa using this
        cases hp : r.pollin with
        | true =>
          rw [List.countP_cons_of_pos (by rw [hsig, hp])]
          unfold pollLoop
          rw [rd_ok (by simp)]
          simp only [bind_ok, List.getElem_append_right (Nat.le_refl _), Nat.sub_self, List.getElem_cons_zero, hp, if_true]
          rw [wr_ok (by simp; omega), bind_ok, ← hd, List.set_append_right _ _ (Nat.le_refl _), hd]
          simp only [hd, Nat.sub_self, List.set_cons_zero]
          rw [key true]
          simp [hp]
        | false =>
          rw [List.countP_cons_of_neg (by rw [hsig, hp]; simp)]
          have hzip : List.zipWith (fun o r => o || r.pollin) (o :: ot) (r :: t) =
              o :: List.zipWith (fun o r => o || r.pollin) ot t := by simp [hp]
          rw [hzip, ← key o]
          cases hc : t.countP Revents.signalled with
          | zero =>
            cases fuel <;> rfl
          | succ c =>
            conv_lhs => unfold pollLoop
            rw [rd_ok (by simp)]
            simp only [bind_ok, List.getElem_append_right (Nat.le_refl _), Nat.sub_self, List.getElem_cons_zero, hp,
              Bool.false_eq_true, if_false]

/-- **C26**. If every signalled entry has `POLLIN` set, `Poll` marks exactly the
entries with input pending, leaves all other marks as they were, and returns the
number of entries with input pending. -/
theorem C26_poll (fds : List Revents) (result : List Bool) (hlen : result.length = fds.length)
    (hpin : ∀ r ∈ fds, r.other = true → r.pollin = true) :
    poll fds result = .ok ((fds.filter (fun r => r.pollin)).length,
      List.zipWith (fun old r => old || r.pollin) result fds) := by
  have := pollLoop_ok [] fds hpin (fds.length + 1) (by omega) [] result rfl hlen
  unfold poll
  simp only [List.nil_append, List.length_nil] at this
  simp only
  rw [this, bind_ok, ← List.countP_eq_length_filter]
  congr 2
  apply List.countP_congr
  intro r hr
  have := hpin r hr
  unfold Revents.signalled
  cases hp : r.pollin <;> cases ho : r.other <;> simp_all

private theorem pollLoop_overrun (fds : List Revents) (fuel id nfds : Nat) (result : List Bool)
    (hfuel : fds.length < id + fuel) (h : ((fds.drop id).countP (fun r => r.pollin)) < nfds) :
    pollLoop fds fuel id nfds result = .error .ub := by
  induction fuel generalizing id nfds result with
  | zero => cases nfds with
    | zero => omega
    | succ n => rfl
  | succ fuel ih =>
    cases nfds with
    | zero => omega
    | succ n =>
      unfold pollLoop
      by_cases hid : id < fds.length
      · rw [rd_ok hid, bind_ok]
        rw [List.drop_eq_getElem_cons hid] at h
        cases hp : fds[id].pollin with
        | true =>
          rw [List.countP_cons_of_pos (by simpa using hp)] at h
          simp only [if_true]
          unfold wr
          split
          · exact ih (id + 1) n _ (by omega) (by omega)
          · rfl
        | false =>
          rw [List.countP_cons_of_neg (by simp [hp])] at h
          simp only [Bool.false_eq_true, if_false]
          exact ih (id + 1) (n + 1) _ (by omega) h
      · rw [rd_ub (by omega)]
        rfl

/-- **C26**. One entry signalled only with an error or hang-up is enough to make
`Poll` run past the end of its arrays. -/
theorem C26_poll_overrun (fds : List Revents) (result : List Bool)
    (h : ∃ r ∈ fds, r.other = true ∧ r.pollin = false) : poll fds result = .error .ub := by
  unfold poll
  simp only
  rw [pollLoop_overrun fds (fds.length + 1) 0 _ result (by omega)]
  · rfl
  · rw [List.drop_zero]
    obtain ⟨r, hr, ho, hp⟩ := h
    obtain ⟨a, b, rfl⟩ := List.append_of_mem hr
    have mono : ∀ l : List Revents, l.countP (fun r => r.pollin) ≤ l.countP Revents.signalled :=
      fun l => List.countP_mono_left (fun x _ hx => by simp [Revents.signalled, hx])
    rw [List.countP_append, List.countP_append, List.countP_cons_of_neg (by simp [hp]),
      List.countP_cons_of_pos (by simp [Revents.signalled, ho])]
    have := mono a
    have := mono b
    omega

example : poll [⟨true, false⟩, ⟨false, false⟩, ⟨true, true⟩] [false, true, false] = .ok (2, [true, true, true]) := by
  decide +kernel

/-! ## C27 -/

private theorem blit_spec {mem v : List Byte} {off : Nat} (h : off + v.length ≤ mem.length) :
    ∃ mem', blit mem off v = .ok mem' ∧ mem'.length = mem.length ∧ mem'.take (off + v.length) = mem.take off ++ v ∧
      ∀ k, off + v.length ≤ k → mem'.drop k = mem.drop k := by
  refine ⟨_, blit_ok h, by simp; omega, take_blit h, ?_⟩
  intro k hk
  rw [List.drop_append, List.drop_of_length_le (l := mem.take off ++ v) (by simp; omega), List.nil_append]
  rw [List.length_append, List.length_take, Nat.min_eq_left (by omega), List.drop_drop]
  congr 1
  omega

private theorem pushShorts_ok (shorts : List (List Byte)) (b : CipherBatch) (out : List Byte)
    (hs : ∀ v ∈ shorts, v.length = b.shortSize)
    (hlast : b.lastShort = out.length) (hout : b.mem.take out.length = out)
    (hcap : out.length + shorts.length * b.shortSize ≤ b.mem.length) :
    ∃ mem', shorts.foldlM (fun b v => b.pushShort v) b =
        .ok { b with mem := mem', lastShort := out.length + shorts.length * b.shortSize } ∧
      mem'.length = b.mem.length ∧
      mem'.take (out.length + shorts.length * b.shortSize) = out ++ shorts.flatten := by
  induction shorts generalizing b out with
  | nil => exact ⟨b.mem, by simp [← hlast]; rfl, rfl, by simpa using hout⟩
  | cons v t ih =>
    have hv := hs v (by simp)
    have hmul : (t.length + 1) * b.shortSize = t.length * b.shortSize + b.shortSize := by ring
    simp only [List.length_cons] at hcap
    obtain ⟨m1, e1, l1, t1, -⟩ := blit_spec (mem := b.mem) (v := v) (off := b.lastShort) (by omega)
    have hpush : b.pushShort v = .ok { b with mem := m1, lastShort := b.lastShort + b.shortSize } := by
      unfold CipherBatch.pushShort
      rw [slice_ok (by omega), List.drop_zero, List.take_of_length_le (by omega), bind_ok, e1, bind_ok]
    obtain ⟨m2, e2, l2, t2⟩ := ih { b with mem := m1, lastShort := b.lastShort + b.shortSize } (out ++ v)
      (fun x hx => hs x (by simp [hx])) (by simp only [List.length_append]; omega)
      (by simp only [List.length_append]; rw [← hlast, t1, hlast, hout])
      (by simp only [List.length_append]; omega)
    refine ⟨m2, ?_, by simp only at l2; omega, ?_⟩
    · rw [List.foldlM_cons, hpush, bind_ok, e2]
      simp only [List.length_append, List.length_cons]
      congr 2
      omega
    · simp only [List.length_append] at t2
      rw [List.length_cons, hmul]
      rw [show out.length + (t.length * b.shortSize + b.shortSize) = out.length + v.length + t.length * b.shortSize by omega, t2]
      simp

private theorem pushLongs_ok (longs : List (List Byte)) (b : CipherBatch) (out : List Byte)
    (hs : ∀ v ∈ longs, v.length = b.longSize)
    (hlast : b.lastLong = out.length) (hout : b.mem.take out.length = out)
    (hcap : out.length + longs.length * b.longSize ≤ b.mem.length) :
    ∃ mem', longs.foldlM (fun b v => b.pushLong v) b =
        .ok { b with mem := mem', lastLong := out.length + longs.length * b.longSize } ∧
      mem'.length = b.mem.length ∧
      mem'.take (out.length + longs.length * b.longSize) = out ++ longs.flatten := by
  induction longs generalizing b out with
  | nil => exact ⟨b.mem, by simp [← hlast]; rfl, rfl, by simpa using hout⟩
  | cons v t ih =>
    have hv := hs v (by simp)
    have hmul : (t.length + 1) * b.longSize = t.length * b.longSize + b.longSize := by ring
    simp only [List.length_cons] at hcap
    obtain ⟨m1, e1, l1, t1, -⟩ := blit_spec (mem := b.mem) (v := v) (off := b.lastLong) (by omega)
    have hpush : b.pushLong v = .ok { b with mem := m1, lastLong := b.lastLong + b.longSize } := by
      unfold CipherBatch.pushLong
      rw [slice_ok (by omega), List.drop_zero, List.take_of_length_le (by omega), bind_ok, e1, bind_ok]
    obtain ⟨m2, e2, l2, t2⟩ := ih { b with mem := m1, lastLong := b.lastLong + b.longSize } (out ++ v)
      (fun x hx => hs x (by simp [hx])) (by simp only [List.length_append]; omega)
      (by simp only [List.length_append]; rw [← hlast, t1, hlast, hout])
      (by simp only [List.length_append]; omega)
    refine ⟨m2, ?_, by simp only at l2; omega, ?_⟩
    · rw [List.foldlM_cons, hpush, bind_ok, e2]
      simp only [List.length_append, List.length_cons]
      congr 2
      omega
    · simp only [List.length_append] at t2
      rw [List.length_cons, hmul]
      rw [show out.length + (t.length * b.longSize + b.longSize) = out.length + v.length + t.length * b.longSize by omega, t2]
      simp

/-- The pop/push loop: `out` is what the short area holds, `longs` are still to be
popped. -/
private theorem popPush_ok (f : List Byte → List Byte) (longs : List (List Byte)) (b : CipherBatch) (out : List Byte)
    (seen : List (List Byte)) (fuel : Nat) (hfuel : longs.length ≤ fuel) (hss : b.shortSize ≤ b.longSize)
    (hs0 : 0 < b.longSize)
    (hl : ∀ v ∈ longs, v.length = b.longSize) (hf : ∀ v ∈ longs, (f v).length = b.shortSize)
    (hlast : b.lastShort = out.length) (hout : b.mem.take out.length = out)
    (hgap : out.length ≤ b.firstLong) (hend : b.lastLong = b.firstLong + longs.length * b.longSize)
    (hmem : ∃ tail, b.mem.drop b.firstLong = longs.flatten ++ tail) :
    ∃ mem', popPush f fuel b seen =
        .ok ({ b with mem := mem', lastShort := out.length + longs.length * b.shortSize, firstLong := b.lastLong },
          seen ++ longs) ∧
      mem'.length = b.mem.length ∧
      mem'.take (out.length + longs.length * b.shortSize) = out ++ (longs.map f).flatten := by
  induction longs generalizing b out seen fuel with
  | nil =>
    refine ⟨b.mem, ?_, rfl, by simpa using hout⟩
    have hh : b.hasLong = false := by simp [CipherBatch.hasLong]; simp at hend; omega
    simp at hend
    cases fuel <;> (simp [popPush, hh, ← hlast]; cases b; simp_all)
  | cons v t ih =>
    have hv := hl v (by simp)
    have hfv := hf v (by simp)
    have hmulL : (t.length + 1) * b.longSize = t.length * b.longSize + b.longSize := by ring
    have hmulS : (t.length + 1) * b.shortSize = t.length * b.shortSize + b.shortSize := by ring
    simp only [List.length_cons] at hend hfuel
    obtain ⟨tail, htail⟩ := hmem
    have hdl : b.mem.length - b.firstLong = b.longSize + (t.flatten ++ tail).length := by
      have := congrArg List.length htail
      rw [List.length_drop] at this
      simp only [List.flatten_cons, List.length_append] at this ⊢
      omega
    have hpos : b.firstLong + b.longSize ≤ b.mem.length := by omega
    cases fuel with
    | zero => omega
    | succ fuel =>
      have hh : b.hasLong = true := by simp [CipherBatch.hasLong]; omega
      have hslice : slice (b.mem.drop b.firstLong) 0 b.longSize = .ok v := by
        rw [htail, List.flatten_cons, List.append_assoc]
        exact slice_zero hv
      obtain ⟨m1, e1, l1, t1, d1⟩ := blit_spec (mem := b.mem) (v := f v) (off := b.lastShort) (by omega)
      have hpush : b.popLong.2.pushShort (f v) = .ok { b with mem := m1, lastShort := b.lastShort + b.shortSize, firstLong := b.firstLong + b.longSize } := by
        unfold CipherBatch.pushShort CipherBatch.popLong
        simp only
        rw [slice_ok (by omega), List.drop_zero, List.take_of_length_le (by omega), bind_ok, e1, bind_ok]
      obtain ⟨m2, e2, l2, t2⟩ := ih { b with mem := m1, lastShort := b.lastShort + b.shortSize, firstLong := b.firstLong + b.longSize }
        (out ++ f v) (seen ++ [v]) fuel (by omega) hss hs0
        (fun x hx => hl x (by simp [hx])) (fun x hx => hf x (by simp [hx]))
        (by simp only [List.length_append]; omega)
        (by simp only [List.length_append]; rw [← hlast, t1, hlast, hout])
        (by simp only [List.length_append]; omega) (by simp only; omega)
        ⟨tail, by
          simp only
          rw [d1 _ (by omega), ← List.drop_drop, htail, List.flatten_cons, List.append_assoc, List.drop_left' hv]⟩
      refine ⟨m2, ?_, by simp only at l2; omega, ?_⟩
      · unfold popPush
        simp only [hh, if_true]
        rw [show b.popLong.1 = b.mem.drop b.firstLong from rfl, hslice, bind_ok, hpush, bind_ok, e2]
        simp only [List.length_append, List.length_cons, List.append_assoc, List.singleton_append]
        congr 3
        omega
      · simp only [List.length_append] at t2
        rw [List.length_cons, hmulS]
        rw [show out.length + (t.length * b.shortSize + b.shortSize) = out.length + (f v).length + t.length * b.shortSize by omega, t2]
        simp

/-- **C27**. A batch initialised for `shorts.length` short and `longs.length` long
ciphers, filled with them, and then drained by popping each long cipher and pushing
the short cipher made from it: every access is in bounds, the long ciphers come out
exactly as pushed and in order, and in the end the short ciphers (first the pushed
ones, then the made ones) are readable in order by `GetShort` and by iteration. -/
theorem C27_batch (shortSize longSize : Nat) (h0 : 0 < shortSize) (hss : shortSize ≤ longSize)
    (shorts longs : List (List Byte)) (hs : ∀ v ∈ shorts, v.length = shortSize)
    (hl : ∀ v ∈ longs, v.length = longSize) (f : List Byte → List Byte)
    (hf : ∀ v ∈ longs, (f v).length = shortSize) :
    ∃ b b', pushAll ((CipherBatch.new shortSize longSize).initialize shorts.length longs.length) shorts longs = .ok b ∧
      b.fullLong = true ∧
      popPush f longs.length b [] = .ok (b', longs) ∧ b'.hasLong = false ∧
      (∀ i v, (shorts ++ longs.map f)[i]? = some v → slice (b'.getShort i) 0 shortSize = .ok v) ∧
      (shorts ++ longs ≠ [] → b'.elements = .ok (shorts ++ longs.map f)) := by
  obtain ⟨m1, e1, l1, t1⟩ := pushShorts_ok shorts ((CipherBatch.new shortSize longSize).initialize shorts.length longs.length)
    [] hs rfl rfl (by simp [CipherBatch.initialize, CipherBatch.new])
  simp only [CipherBatch.initialize, CipherBatch.new, List.length_nil, Nat.zero_add, List.length_replicate,
    List.nil_append] at e1 l1 t1
  have hsf := flatten_length shortSize shorts hs
  obtain ⟨m2, e2, l2, t2⟩ := pushLongs_ok longs _ shorts.flatten hl
    (show (CipherBatch.mk shortSize longSize m1 (shorts.length * shortSize) (shorts.length * shortSize)
      (shorts.length * shortSize) (shorts.length * shortSize + longs.length * longSize)).lastLong = _ from hsf.symm)
    (by simp only; rw [hsf, t1]) (by simp only; rw [hsf, l1])
  simp only at e2 l2 t2
  have hlf := flatten_length longSize longs hl
  have hm2 : m2 = shorts.flatten ++ longs.flatten := by
    rw [← t2, List.take_of_length_le]
    omega
  obtain ⟨m3, e3, l3, t3⟩ := popPush_ok f longs
    (CipherBatch.mk shortSize longSize m2 (shorts.length * shortSize) (shorts.length * shortSize)
      (shorts.flatten.length + longs.length * longSize) (shorts.length * shortSize + longs.length * longSize))
    shorts.flatten [] longs.length (le_refl _) hss (show 0 < longSize by omega) hl hf hsf.symm
    (by simp only; rw [hm2]; simp) (by simp only; rw [hsf]) (by simp only; rw [hsf])
    ⟨[], by simp only; rw [hm2, ← hsf]; simp⟩
  have hmf : (longs.map f).flatten.length = longs.length * shortSize := by
    rw [flatten_length shortSize (longs.map f) (by simpa using hf), List.length_map]
  have hall : ∀ v ∈ shorts ++ longs.map f, v.length = shortSize := by
    intro v hv
    rcases List.mem_append.mp hv with h | h
    · exact hs v h
    · obtain ⟨x, hx, rfl⟩ := List.mem_map.mp h
      exact hf x hx
  simp only at t3 l3
  have hcount : shorts.flatten.length + longs.length * shortSize = (shorts ++ longs.map f).length * shortSize := by
    rw [hsf, List.length_append, List.length_map]; ring
  have hm3 : chunks shortSize (shorts ++ longs.map f).length m3 = shorts ++ longs.map f := by
    rw [← chunks_take _ _ _ m3 (le_of_eq hcount.symm), t3]
    have := chunks_flatten shortSize (shorts ++ longs.map f) [] hall
    simpa using this
  have hm3len : (shorts ++ longs.map f).length * shortSize ≤ m3.length := by
    rw [l3, hm2, ← hcount, List.length_append, hlf]
    have : longs.length * shortSize ≤ longs.length * longSize := Nat.mul_le_mul_left _ hss
    omega
  refine ⟨_, _, ?_, ?_, e3, ?_, ?_, ?_⟩
  · unfold pushAll CipherBatch.initialize CipherBatch.new
    simp only
    rw [e1, bind_ok, e2]
  · simp [CipherBatch.fullLong, hsf]
  · simp [CipherBatch.hasLong]
  · intro i v hv
    have hi : i < (shorts ++ longs.map f).length := (List.getElem?_eq_some_iff.mp hv).1
    have hv' : v = (m3.drop (i * shortSize)).take shortSize := by
      rw [← hm3] at hv
      rw [← hm3, chunks_length] at hi
      simp only [chunks, List.getElem?_map, List.getElem?_range hi, Option.map_some, Option.some.injEq] at hv
      exact hv.symm
    have : (i + 1) * shortSize ≤ (shorts ++ longs.map f).length * shortSize := Nat.mul_le_mul_right _ hi
    have h2 : (i + 1) * shortSize = i * shortSize + shortSize := by ring
    simp only [CipherBatch.getShort]
    rw [slice_ok (by rw [List.length_drop]; omega), List.drop_zero, hv']
  · intro hne
    have hlen : 0 < (shorts ++ longs.map f).length := by
      rw [List.length_append, List.length_map, ← List.length_append]
      exact List.length_pos_iff.mpr hne
    have hpos : 0 < (shorts ++ longs.map f).length * shortSize := Nat.mul_pos hlen h0
    unfold CipherBatch.elements
    simp only
    rw [hcount, if_neg (show ¬ _ = 0 by omega), if_pos ⟨by omega, Nat.mul_mod_left _ _⟩,
      Nat.mul_div_cancel _ h0, readUnits_ok hm3len, hm3]

example : ∃ (shorts longs : List (List Byte)) (f : List Byte → List Byte), (∀ v ∈ shorts, v.length = 2) ∧
    (∀ v ∈ longs, v.length = 3) ∧ (∀ v ∈ longs, (f v).length = 2) ∧ shorts ≠ [] ∧ longs.length = 2 :=
  ⟨[[1, 2]], [[3, 4, 5], [6, 7, 8]], List.tail, by simp, by simp, by simp, by simp, rfl⟩

end DPPIR.Props
