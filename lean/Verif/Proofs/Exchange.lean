import Verif.Model.Exchange
import Verif.Proofs.Polling
import Verif.Proofs.Protocol
import Mathlib.Algebra.BigOperators.Group.Finset.Basic
import Mathlib.Algebra.Order.BigOperators.Group.Finset

/-!
# `SendAndPoll` performs an exchange
-/

namespace DPPIR.Protocol
open DPPIR Proc

variable {ι σ τ : Type} [DecidableEq ι]

/-! ## Messages in a byte stream -/

theorem chunks_take (unit : Nat) (M : List (List Byte)) (hM : ∀ m ∈ M, m.length = unit) (n k : Nat) (hn : n ≤ M.length)
    (hk : n * unit ≤ k) : chunks unit n (M.flatten.take k) = M.take n := by
  induction n generalizing M k with
  | zero => simp [chunks]
  | succ n ih =>
    cases M with
    | nil => simp at hn
    | cons m M =>
      have hm : m.length = unit := hM m (by simp)
      have hu : unit ≤ k := le_trans (Nat.le_mul_of_pos_left _ (by omega)) hk
      rw [List.flatten_cons, List.take_append, chunks, List.take_of_length_le (l := m) (by omega)]
      have e1 : (m ++ List.take (k - m.length) M.flatten).take unit = m := by
        rw [List.take_append_of_le_length (by omega), List.take_of_length_le (by omega)]
      have e2 : (m ++ List.take (k - m.length) M.flatten).drop unit = M.flatten.take (k - unit) := by
        rw [← hm, List.drop_left]
      rw [e1, e2, List.take_succ_cons, ih M (fun x hx => hM x (by simp [hx])) _ (by simpa using hn)
        (by rw [Nat.succ_mul] at hk; omega)]

theorem flatten_drop (unit : Nat) (M : List (List Byte)) (hM : ∀ m ∈ M, m.length = unit) (r : Nat) :
    M.flatten.drop (r * unit) = (M.drop r).flatten := by
  induction r generalizing M with
  | zero => simp
  | succ r ih =>
    cases M with
    | nil => simp
    | cons m M =>
      have hm : m.length = unit := hM m (by simp)
      rw [List.flatten_cons, List.drop_succ_cons, ← ih M (fun x hx => hM x (by simp [hx])), List.drop_append,
        List.drop_eq_nil_of_le (by rw [hm, Nat.succ_mul]; omega), List.nil_append, hm, Nat.succ_mul]
      congr 1; omega

theorem flatten_length (unit : Nat) (M : List (List Byte)) (hM : ∀ m ∈ M, m.length = unit) :
    M.flatten.length = M.length * unit := by
  induction M with
  | nil => simp
  | cons m M ih =>
    rw [List.flatten_cons, List.length_append, ih (fun x hx => hM x (by simp [hx])), hM m (by simp), List.length_cons,
      Nat.succ_mul, Nat.add_comm]

/-! ## Write buffers -/

/-- The bytes written when `bytes` is added to a buffer for `B` messages. -/
def emit1 (B : Nat) (w : WBuf) (bytes : List Byte) : List Byte := if w.held + 1 = B then w.pending ++ bytes else []
/-- The buffer afterwards. -/
def push1 (B : Nat) (w : WBuf) (bytes : List Byte) : WBuf :=
  if w.held + 1 = B then {} else ⟨w.held + 1, w.pending ++ bytes⟩

/-- The buffers after adding some messages to the buffers of their targets. -/
def pushes (B : Nat) : (Nat → WBuf) → List (Nat × List Byte) → Nat → WBuf
  | w, [] => w
  | w, (t, b) :: l => pushes B (Function.update w t (push1 B (w t) b)) l

/-- What is written meanwhile. -/
def emits (B : Nat) : (Nat → WBuf) → List (Nat × List Byte) → List (Nat × Byte)
  | _, [] => []
  | w, (t, b) :: l => (emit1 B (w t) b).map (fun x => (t, x)) ++ emits B (Function.update w t (push1 B (w t) b)) l

theorem pushes_append (B : Nat) (w : Nat → WBuf) (l m : List (Nat × List Byte)) :
    pushes B w (l ++ m) = pushes B (pushes B w l) m := by
  induction l generalizing w with
  | nil => rfl
  | cons a l ih => exact ih _

theorem emits_append (B : Nat) (w : Nat → WBuf) (l m : List (Nat × List Byte)) :
    emits B w (l ++ m) = emits B w l ++ emits B (pushes B w l) m := by
  induction l generalizing w with
  | nil => rfl
  | cons a l ih => simp only [List.cons_append, emits, pushes, ih, List.append_assoc]

/-- What the final flush writes. -/
def flushes (S me : Nat) (w : Nat → WBuf) : List (Nat × Byte) :=
  (List.range S).flatMap (fun id => if id ≠ me then (w id).pending.map (fun x => (id, x)) else [])

/-- Everything that is written. -/
def outgoing (B S me : Nat) (w : Nat → WBuf) (l : List (Nat × List Byte)) : List (Nat × Byte) :=
  emits B w l ++ flushes S me (pushes B w l)

theorem outgoing_append (B S me : Nat) (w : Nat → WBuf) (l m : List (Nat × List Byte)) :
    outgoing B S me w (l ++ m) = emits B w l ++ outgoing B S me (pushes B w l) m := by
  unfold outgoing
  rw [emits_append, pushes_append, List.append_assoc]

theorem room_push1 (unit : Nat) (h0 : 0 < unit) (h : unit ≤ Sockets.bufferSize) (w : WBuf) (hw : w.Room unit)
    (b : List Byte) : (push1 (Sockets.bufferSize / unit) w b).Room unit := by
  unfold push1
  split
  · exact WBuf.room_empty h0 h
  · unfold WBuf.Room at *; simp only; omega

theorem room_pushes (unit : Nat) (h0 : 0 < unit) (h : unit ≤ Sockets.bufferSize) (w : Nat → WBuf)
    (hw : ∀ t, (w t).Room unit) (l : List (Nat × List Byte)) :
    ∀ t, (pushes (Sockets.bufferSize / unit) w l t).Room unit := by
  induction l generalizing w with
  | nil => exact hw
  | cons a l ih =>
    obtain ⟨d, b⟩ := a
    apply ih
    intro t
    by_cases ht : t = d
    · subst ht; rw [Function.update_self]; exact room_push1 unit h0 h _ (hw t) b
    · rw [Function.update_of_ne ht]; exact hw t

/-- The bytes for one target, in order. -/
def toOne (d : Nat) (l : List (Nat × Byte)) : List Byte := l.filterMap (fun o => if o.1 = d then some o.2 else none)

theorem toOne_append (d : Nat) (l m : List (Nat × Byte)) : toOne d (l ++ m) = toOne d l ++ toOne d m := by
  simp [toOne]

theorem toOne_map (d t : Nat) (l : List Byte) : toOne d (l.map (fun x => (t, x))) = if t = d then l else [] := by
  unfold toOne
  rw [List.filterMap_map]
  split
  · rename_i h; simp [Function.comp_def, h]
  · rename_i h; simp [Function.comp_def, h]

theorem emit_push (B : Nat) (w : WBuf) (b : List Byte) : emit1 B w b ++ (push1 B w b).pending = w.pending ++ b := by
  unfold emit1 push1
  split <;> simp

theorem toOne_emits (B : Nat) (w : Nat → WBuf) (l : List (Nat × List Byte)) (d : Nat) :
    toOne d (emits B w l) ++ (pushes B w l d).pending = (w d).pending ++ l.flatMap (fun o => if o.1 = d then o.2 else []) := by
  induction l generalizing w with
  | nil => simp [emits, pushes, toOne]
  | cons a l ih =>
    obtain ⟨t, b⟩ := a
    rw [emits, toOne_append, toOne_map, pushes, List.append_assoc, ih]
    by_cases h : t = d
    · subst h
      rw [if_pos rfl, Function.update_self, ← List.append_assoc, emit_push]
      simp
    · rw [if_neg h, Function.update_of_ne (Ne.symm h)]
      simp [h]

theorem toOne_flushes (S me : Nat) (w : Nat → WBuf) (d : Nat) :
    toOne d (flushes S me w) = if d < S ∧ d ≠ me then (w d).pending else [] := by
  unfold flushes
  induction S with
  | zero => simp [toOne]
  | succ S ih =>
    rw [List.range_succ, List.flatMap_append, toOne_append, ih]
    simp only [List.flatMap_cons, List.flatMap_nil, List.append_nil]
    by_cases hS : S = d
    · subst hS
      rw [if_neg (by omega)]
      by_cases hm : S = me
      · simp [hm, toOne]
      · rw [if_pos hm, if_pos ⟨by omega, hm⟩, toOne_map, if_pos rfl, List.nil_append]
    · have : toOne d (if S ≠ me then List.map (fun x => (S, x)) (w S).pending else []) = [] := by
        split
        · rw [toOne_map, if_neg hS]
        · rfl
      rw [this, List.append_nil]
      congr 1
      simp only [eq_iff_iff]
      omega

/-- Every sibling is sent its messages, in order. -/
theorem toOne_outgoing (B S me : Nat) (l : List (Nat × List Byte)) (d : Nat) (hd : d < S) (hm : d ≠ me) :
    toOne d (outgoing B S me (fun _ => {}) l) = l.flatMap (fun o => if o.1 = d then o.2 else []) := by
  unfold outgoing
  rw [toOne_append, toOne_flushes, if_pos ⟨hd, hm⟩, toOne_emits]
  rfl

theorem emits_mem (B : Nat) (w : Nat → WBuf) (l : List (Nat × List Byte)) (o : Nat × Byte) (h : o ∈ emits B w l) :
    ∃ m ∈ l, m.1 = o.1 := by
  induction l generalizing w with
  | nil => cases h
  | cons a l ih =>
    obtain ⟨t, b⟩ := a
    rw [emits] at h
    rcases List.mem_append.1 h with h | h
    · obtain ⟨x, -, rfl⟩ := List.mem_map.1 h
      exact ⟨(t, b), by simp, rfl⟩
    · obtain ⟨m, hm, e⟩ := ih _ h
      exact ⟨m, by simp [hm], e⟩

/-- Nothing is sent to anybody else. -/
theorem outgoing_mem (B S me : Nat) (w : Nat → WBuf) (l : List (Nat × List Byte)) (hl : ∀ m ∈ l, m.1 < S ∧ m.1 ≠ me)
    (o : Nat × Byte) (h : o ∈ outgoing B S me w l) : o.1 < S ∧ o.1 ≠ me := by
  rcases List.mem_append.1 h with h | h
  · obtain ⟨m, hm, e⟩ := emits_mem _ _ _ _ h
    exact e ▸ hl m hm
  · obtain ⟨id, h1, h2⟩ := List.mem_flatMap.1 h
    split at h2
    · rename_i hne
      obtain ⟨x, -, rfl⟩ := List.mem_map.1 h2
      exact ⟨by simpa using h1, hne⟩
    · cases h2

/-- Adding a message to a buffer. -/
theorem runs_push (d : ι) (unit : Nat) (w : WBuf) (hw : w.Room unit) (b : List Byte) :
    Runs (pushBuffered d unit w b) ((emit1 (Sockets.bufferSize / unit) w b).map (Act.send d) : List (PAct ι))
      (push1 (Sockets.bufferSize / unit) w b) := by
  unfold pushBuffered emit1 push1
  unfold WBuf.Room at hw
  rw [if_pos hw]
  split
  · exact Runs.bind' (Runs.sendBytes _ _) (Runs.done _) (List.append_nil _).symm
  · exact Runs.done _

theorem runs_sendTo (X : Exchange ι) (x : XState σ) (t : Nat) (b : List Byte) (hw : (x.wbuf t).Room X.unit) :
    Runs (x.sendTo X t b)
      ((emits (Sockets.bufferSize / X.unit) x.wbuf [(t, b)]).map (fun o => (Act.send (X.sib o.1) o.2 : PAct ι)))
      { x with wbuf := pushes (Sockets.bufferSize / X.unit) x.wbuf [(t, b)] } := by
  refine Runs.bind' (runs_push (X.sib t) X.unit _ hw b) (Runs.done _) ?_
  simp [emits, Function.comp_def]

/-! ## Steps inside an exchange -/

/-- Writing inside an exchange. -/
theorem does_sends {α β : Type} {R : β → Prop} {p : Prog ι α} {k : α → PProg ι β} {os : List (ι × Byte)} {a : α}
    (h : Runs p (os.map (fun o => (Act.send o.1 o.2 : PAct ι))) a) {os' is av L}
    (hk : PProc.Does R (k a) (.xchg os' is av :: L)) :
    PProc.Does R ((PProc.ofProc p).bind k) (.xchg (os ++ os') is av :: L) := by
  induction os generalizing p with
  | nil =>
    cases h
    exact hk
  | cons o os ih =>
    cases h with
    | send h => exact .xsend (ih h)

/-! ## What an exchange is about -/

/-- The other servers. -/
def Exchange.Sib (X : Exchange ι) (s : Nat) : Prop := s < X.servers ∧ s ≠ X.me

/-- The other servers, as a finite set. -/
def Exchange.sibs (X : Exchange ι) : Finset Nat := (Finset.range X.servers).erase X.me

theorem Exchange.mem_sibs (X : Exchange ι) (s : Nat) : s ∈ X.sibs ↔ X.Sib s := by
  unfold Exchange.sibs Exchange.Sib
  rw [Finset.mem_erase, Finset.mem_range, and_comm]

/-- A description of an exchange: the messages `M s` each sibling sends, the messages
`outs a` the handler of item `a` sends, and an invariant of the caller's state after `a`
items were handled and `r s` messages from each sibling `s`. -/
structure XSpec (X : Exchange ι) (h : Handlers ι σ τ) (items : List τ) where
  M : Nat → List (List Byte)
  outs : Nat → List (Nat × List Byte)
  I : Nat → (Nat → Nat) → σ → List Nat → Prop
  inj : Function.Injective X.sib
  unit0 : 0 < X.unit
  unitB : X.unit ≤ Sockets.bufferSize
  servers : X.servers < 255
  hM : ∀ s, X.Sib s → (∀ m ∈ M s, m.length = X.unit) ∧ (M s).length = X.counts s
  total : ∑ s ∈ X.sibs, X.counts s < 2 ^ 32
  houts : ∀ a, ∀ o ∈ outs a, X.Sib o.1
  got : ∀ a r s rc, I a r s rc → ∀ i, X.Sib i → rc[i]? = some (r i)
  send : ∀ a r s rc, (ha : a < items.length) → (∀ i, X.Sib i → r i ≤ X.counts i) → I a r s rc →
    ∃ s' rc', I (a + 1) r s' rc' ∧ ∀ x : XState σ, x.st = s → x.received = rc → (∀ t, (x.wbuf t).Room X.unit) →
      Runs (h.send items[a] x)
        ((emits (Sockets.bufferSize / X.unit) x.wbuf (outs a)).map (fun o => (Act.send (X.sib o.1) o.2 : PAct ι)))
        { x with st := s', received := rc', wbuf := pushes (Sockets.bufferSize / X.unit) x.wbuf (outs a) }
  recv : ∀ a r s rc i m, X.Sib i → (∀ i, X.Sib i → r i ≤ X.counts i) → (M i)[r i]? = some m → I a r s rc →
    ∃ s' rc', h.recv i m (s, rc) = .ok (s', rc') ∧ I a (Function.update r i (r i + 1)) s' rc'

namespace XSpec
variable {X : Exchange ι} {h : Handlers ι σ τ} {items : List τ} (P : XSpec X h items)

/-- Everything sibling `s` sends. -/
def E (s : Nat) : List Byte := (P.M s).flatten

theorem E_length {s : Nat} (hs : X.Sib s) : (P.E s).length = X.counts s * X.unit := by
  unfold E
  rw [flatten_length X.unit _ (P.hM s hs).1, (P.hM s hs).2]

/-- Invariant: `a` items were handled and `c s` bytes from each sibling were read. -/
structure Inv (a : Nat) (c : Nat → Nat) (x : XState σ) : Prop where
  inv : P.I a (fun s => c s / X.unit) x.st x.received
  room : ∀ t, (x.wbuf t).Room X.unit
  le : ∀ s, X.Sib s → c s ≤ X.counts s * X.unit
  left : ∀ s, X.Sib s → x.left s = ((P.E s).take (c s)).drop (c s / X.unit * X.unit)
  ign : ∀ s, X.Sib s → (x.ignored s = true ↔ c s = X.counts s * X.unit)
  cnt : x.readCount = ∑ s ∈ X.sibs, (X.counts s - c s / X.unit)

/-- The unread bytes of all siblings. -/
def Unread (c : Nat → Nat) (is : ι → List Byte) : Prop :=
  (∀ s, X.Sib s → is (X.sib s) = (P.E s).drop (c s)) ∧ ∀ j, (∀ s, X.Sib s → j ≠ X.sib s) → is j = []

/-- Number of unread bytes. -/
def bytesLeft (X : Exchange ι) (c : Nat → Nat) : Nat := ∑ s ∈ X.sibs, (X.counts s * X.unit - c s)

/-- Number of unread messages. -/
def msgsLeft (X : Exchange ι) (c : Nat → Nat) : Nat := ∑ s ∈ X.sibs, (X.counts s - c s / X.unit)

theorem bytes_le (c : Nat → Nat) : bytesLeft X c ≤ msgsLeft X c * X.unit := by
  unfold bytesLeft msgsLeft
  rw [Finset.sum_mul]
  apply Finset.sum_le_sum
  intro s _
  have := Nat.div_mul_le_self (c s) X.unit
  rw [Nat.sub_mul]
  omega

include P in
theorem msgs_pos {c : Nat → Nat} (hl : ∀ s, X.Sib s → c s ≤ X.counts s * X.unit) (hm : 0 < msgsLeft X c) :
    ∃ s, X.Sib s ∧ c s < X.counts s * X.unit := by
  by_contra hno
  push Not at hno
  have : msgsLeft X c = 0 := by
    apply Finset.sum_eq_zero
    intro s hs
    have hs := (X.mem_sibs s).1 hs
    have e : c s = X.counts s * X.unit := le_antisymm (hl s hs) (hno s hs)
    rw [e, Nat.mul_div_cancel _ P.unit0, Nat.sub_self]
  omega

theorem sum_lt_of_update {X : Exchange ι} (f : Nat → Nat → Nat) (c : Nat → Nat) (s v : Nat) (hs : X.Sib s)
    (hlt : f s v < f s (c s)) :
    ∑ t ∈ X.sibs, f t (Function.update c s v t) < ∑ t ∈ X.sibs, f t (c t) := by
  apply Finset.sum_lt_sum
  · intro t _
    by_cases ht : t = s
    · subst ht; rw [Function.update_self]; exact hlt.le
    · rw [Function.update_of_ne ht]
  · exact ⟨s, (X.mem_sibs s).2 hs, by rw [Function.update_self]; exact hlt⟩

theorem sum_sub_update {X : Exchange ι} (f : Nat → Nat → Nat) (c : Nat → Nat) (s v n : Nat) (hs : X.Sib s)
    (e : f s v + n = f s (c s)) :
    ∑ t ∈ X.sibs, f t (Function.update c s v t) + n = ∑ t ∈ X.sibs, f t (c t) := by
  have hm := (X.mem_sibs s).2 hs
  rw [← Finset.add_sum_erase _ _ hm, ← Finset.add_sum_erase _ (fun t => f t (c t)) hm, Function.update_self, ← e]
  have : ∑ t ∈ X.sibs.erase s, f t (Function.update c s v t) = ∑ t ∈ X.sibs.erase s, f t (c t) := by
    apply Finset.sum_congr rfl
    intro t ht
    rw [Function.update_of_ne (Finset.ne_of_mem_erase ht)]
  rw [this]; omega

/-- Handling several messages from one sibling. -/
theorem deliver_ok (a : Nat) (r : Nat → Nat) (s : σ) (rc : List Nat) (i n : Nat) (hi : X.Sib i)
    (hr : ∀ i, X.Sib i → r i ≤ X.counts i) (hn : r i + n ≤ X.counts i) (hI : P.I a r s rc) :
    ∃ s' rc', deliver h i (((P.M i).drop (r i)).take n) (s, rc) = .ok (s', rc') ∧
      P.I a (Function.update r i (r i + n)) s' rc' := by
  induction n generalizing r s rc with
  | zero => exact ⟨s, rc, by simp [deliver], by simpa using hI⟩
  | succ n ih =>
    have hlt : r i < (P.M i).length := by rw [(P.hM i hi).2]; omega
    obtain ⟨s1, rc1, h1, h2⟩ := P.recv a r s rc i _ hi hr (List.getElem?_eq_getElem hlt) hI
    obtain ⟨s2, rc2, h3, h4⟩ := ih (Function.update r i (r i + 1)) s1 rc1
      (by
        intro j hj
        by_cases hji : j = i
        · subst hji; rw [Function.update_self]; omega
        · rw [Function.update_of_ne hji]; exact hr j hj)
      (by rw [Function.update_self]; omega) h2
    rw [Function.update_self] at h3 h4
    refine ⟨s2, rc2, ?_, ?_⟩
    · rw [List.drop_eq_getElem_cons hlt, List.take_succ_cons, deliver, h1]
      exact h3
    · rw [Function.update_idem] at h4
      rw [show r i + (n + 1) = r i + 1 + n by omega]
      exact h4

/-- One `read` and the messages it completes. -/
theorem readFrom_ok {β : Type} {R : β → Prop} {k : Bool × XState σ → PProg ι β} {a : Nat} {c : Nat → Nat} {x : XState σ}
    (hx : P.Inv a c x) {s : Nat} (hs : X.Sib s) (hlt : c s < X.counts s * X.unit) {is av} (hu : P.Unread c is)
    (hav : av (X.sib s) = true) {os L} (found : Bool)
    (hk : ∀ c' x' is', P.Inv a c' x' → P.Unread c' is' → bytesLeft X c' < bytesLeft X c → (∀ t, t ≠ s → c' t = c t) →
      x'.wbuf = x.wbuf →
      PProc.Does R (k (true, x')) (.xchg os is' (Function.update av (X.sib s) false) :: L)) :
    PProc.Does R ((XState.readFrom X h s (found, x)).bind k) (.xchg os is av :: L) := by
  have hu0 := P.unit0
  have hrle : c s / X.unit < X.counts s := by
    rw [Nat.div_lt_iff_lt_mul hu0]; exact hlt
  have hcnt32 : X.counts s < 2 ^ 32 := by
    refine lt_of_le_of_lt ?_ P.total
    exact Finset.single_le_sum (f := X.counts) (fun _ _ => Nat.zero_le _) ((X.mem_sibs s).2 hs)
  have hgot : rd x.received s = .ok (c s / X.unit) := rd_eq_ok.2 (P.got _ _ _ _ hx.inv s hs)
  have hrem : wrap32 (X.counts s + 2 ^ 32 - c s / X.unit) = X.counts s - c s / X.unit := by
    rw [show X.counts s + 2 ^ 32 - c s / X.unit = (X.counts s - c s / X.unit) + 2 ^ 32 by omega]
    unfold wrap32
    rw [Nat.add_mod_right, Nat.mod_eq_of_lt (lt_of_le_of_lt (Nat.sub_le _ _) hcnt32)]
  have hmod := Nat.div_add_mod (c s) X.unit
  have hml := Nat.mod_lt (c s) hu0
  have hEl := P.E_length hs
  have hleft : (x.left s).length = c s % X.unit := by
    rw [hx.left s hs, List.length_drop, List.length_take, hEl, Nat.min_eq_left hlt.le]
    rw [Nat.mul_comm]; omega
  have hremu : (X.counts s - c s / X.unit) * X.unit = X.counts s * X.unit - c s / X.unit * X.unit := Nat.sub_mul _ _ _
  have hcm : X.unit * (c s / X.unit) = c s / X.unit * X.unit := Nat.mul_comm _ _
  have hbig : X.counts s * X.unit < 2 ^ 64 := by
    have h1 : X.counts s * X.unit ≤ 2 ^ 32 * 140000 := Nat.mul_le_mul hcnt32.le P.unitB
    omega
  have hcount : wrap64 ((X.counts s - c s / X.unit) * X.unit + 2 ^ 64 - (x.left s).length) = X.counts s * X.unit - c s := by
    rw [hleft, hremu]
    rw [show X.counts s * X.unit - c s / X.unit * X.unit + 2 ^ 64 - c s % X.unit = (X.counts s * X.unit - c s) + 2 ^ 64 by omega]
    unfold wrap64
    rw [Nat.add_mod_right, Nat.mod_eq_of_lt (by omega)]
  have hcap : 0 < Sockets.bufferSize / X.unit * X.unit - (x.left s).length := by
    have : X.unit ≤ Sockets.bufferSize / X.unit * X.unit := by
      have := Nat.div_pos P.unitB hu0
      exact Nat.le_mul_of_pos_left _ this
    omega
  unfold XState.readFrom
  simp only [PProc.bind_def, PProc.bind_assoc]
  refine PProc.Does.lifts hgot ?_
  simp only [hrem]
  rw [if_pos (by omega)]
  simp only [PProc.bind_assoc, hcount]
  generalize hcapd : Sockets.bufferSize / X.unit * X.unit - (x.left s).length = cap at hcap
  have hn : 0 < (if cap < X.counts s * X.unit - c s then cap else X.counts s * X.unit - c s) ∧
      (if cap < X.counts s * X.unit - c s then cap else X.counts s * X.unit - c s) ≤ X.counts s * X.unit - c s := by
    split <;> omega
  generalize (if cap < X.counts s * X.unit - c s then cap else X.counts s * X.unit - c s) = n at hn
  unfold PProc.readCall
  rw [if_neg (by omega)]
  have his : is (X.sib s) = (P.E s).drop (c s) := hu.1 s hs
  refine .xread hn.1 (by rw [his, List.length_drop, hEl]; exact hn.2) hav ?_
  intro b hb hbn hpre
  have hb0 : 0 < b.length := List.length_pos_of_ne_nil hb
  rw [his] at hpre
  simp only [PProc.done_bind]
  have hbe : b = ((P.E s).drop (c s)).take b.length := List.prefix_iff_eq_take.1 hpre
  -- the bytes in the buffer
  have hbytes : x.left s ++ b = ((P.M s).drop (c s / X.unit)).flatten.take (c s % X.unit + b.length) := by
    rw [← flatten_drop X.unit _ (P.hM s hs).1, hx.left s hs]
    conv_lhs => rw [hbe]
    show (List.take _ (P.E s)).drop _ ++ _ = List.take _ ((P.E s).drop _)
    rw [← List.drop_append_of_le_length (by rw [List.length_take, hEl]; omega), ← List.take_add, List.drop_take]
    congr 1
    omega
  have hblen : (x.left s ++ b).length = c s % X.unit + b.length := by rw [List.length_append, hleft]
  have hdiv : (c s + b.length) / X.unit = c s / X.unit + (c s % X.unit + b.length) / X.unit := by
    conv_lhs => rw [show c s + b.length = (c s % X.unit + b.length) + X.unit * (c s / X.unit) by omega]
    rw [Nat.add_mul_div_left _ _ hu0]; omega
  have hnew : c s / X.unit + (c s % X.unit + b.length) / X.unit ≤ X.counts s := by
    rw [← hdiv]
    exact (Nat.div_le_iff_le_mul_add_pred hu0).2 (by rw [Nat.mul_comm]; omega)
  have hchunks : chunks X.unit ((x.left s ++ b).length / X.unit) (x.left s ++ b) =
      ((P.M s).drop (c s / X.unit)).take ((c s % X.unit + b.length) / X.unit) := by
    rw [hblen, hbytes]
    apply chunks_take
    · intro m hm; exact (P.hM s hs).1 m (List.mem_of_mem_drop hm)
    · rw [List.length_drop, (P.hM s hs).2]; omega
    · exact Nat.div_mul_le_self _ _
  obtain ⟨s', rc', hd, hI⟩ := P.deliver_ok a (fun s => c s / X.unit) x.st x.received s _ hs
    (fun i hi => by
      show c i / X.unit ≤ X.counts i
      exact (Nat.div_le_iff_le_mul_add_pred hu0).2 (by rw [Nat.mul_comm]; have := hx.le i hi; omega)) hnew hx.inv
  rw [hchunks]
  refine PProc.Does.lifts hd ?_
  have hupd : (Function.update (fun s => c s / X.unit) s (c s / X.unit + (c s % X.unit + b.length) / X.unit)) =
      fun t => Function.update c s (c s + b.length) t / X.unit := by
    funext t
    by_cases ht : t = s
    · subst ht; simp only [Function.update_self, hdiv]
    · simp only [Function.update_of_ne ht]
  rw [hupd] at hI
  have hgot' : rd rc' s = .ok ((c s + b.length) / X.unit) := by
    have := P.got _ _ _ _ hI s hs
    rw [Function.update_self] at this
    exact rd_eq_ok.2 this
  refine PProc.Does.lifts hgot' ?_
  have hble : c s + b.length ≤ X.counts s * X.unit := by omega
  show PProc.Does R (k (true, _)) _
  refine hk (Function.update c s (c s + b.length)) _ _ ⟨hI, hx.room, ?_, ?_, ?_, ?_⟩ ⟨?_, ?_⟩ ?_ ?_ rfl
  · intro t ht
    by_cases hts : t = s
    · subst hts; rw [Function.update_self]; exact hble
    · rw [Function.update_of_ne hts]; exact hx.le t ht
  · intro t ht
    by_cases hts : t = s
    · subst hts
      simp only [Function.update_self]
      rw [hblen, hbytes, List.drop_take, ← flatten_drop X.unit _ (P.hM t ht).1, List.drop_drop, List.drop_take]
      show _ = List.take _ ((P.E t).drop _)
      rw [hdiv, Nat.add_mul]
      show List.take _ ((P.E t).drop _) = _
      congr 1
      omega
    · simp only [Function.update_of_ne hts]; exact hx.left t ht
  · intro t ht
    by_cases hts : t = s
    · subst hts
      simp only [Function.update_self]
      have hdm := Nat.div_add_mod (c t + b.length) X.unit
      have hmm := Nat.mod_lt (c t + b.length) hu0
      by_cases he : (c t + b.length) / X.unit = X.counts t
      · rw [if_pos he, Function.update_self]
        refine ⟨fun _ => ?_, fun _ => rfl⟩
        rw [he, Nat.mul_comm] at hdm
        omega
      · rw [if_neg he]
        constructor
        · intro hi
          have := (hx.ign t ht).1 hi
          omega
        · intro hc
          rw [hc, Nat.mul_div_cancel _ hu0] at he
          exact absurd rfl he
    · simp only [Function.update_of_ne hts]
      rw [← hx.ign t ht]
      split
      · rw [Function.update_of_ne hts]
      · rfl
  · have e := sum_sub_update (X := X) (fun t v => X.counts t - v / X.unit) c s (c s + b.length)
      ((x.left s ++ b).length / X.unit) hs (by
        show X.counts s - (c s + b.length) / X.unit + _ = X.counts s - c s / X.unit
        rw [hdiv, hblen]
        omega)
    have hle : ∑ t ∈ X.sibs, (X.counts t - c t / X.unit) < 2 ^ 32 :=
      lt_of_le_of_lt (Finset.sum_le_sum (fun t _ => Nat.sub_le _ _)) P.total
    simp only
    rw [hx.cnt, ← e]
    unfold wrap32
    rw [show ∀ A B : Nat, A + B + 2 ^ 32 - B = A + 2 ^ 32 by intros; omega, Nat.add_mod_right, Nat.mod_eq_of_lt]
    exact lt_of_le_of_lt (Nat.le_add_right _ _) (e ▸ hle)
  · intro t ht
    by_cases hts : t = s
    · subst hts
      rw [Function.update_self, Function.update_self, his, List.drop_drop]
    · rw [Function.update_of_ne (fun e => hts (P.inj e)), Function.update_of_ne hts]
      exact hu.1 t ht
  · intro j hj
    rw [Function.update_of_ne (hj s hs)]
    exact hu.2 j hj
  · exact sum_lt_of_update (fun t v => X.counts t * X.unit - v) c s _ hs (by show _ - (c s + b.length) < _ - c s; omega)
  · intro t ht; exact Function.update_of_ne ht _ _

/-- The loop over the sources reported by a poll. -/
theorem sources_ok {β : Type} {R : β → Prop} {k : Bool × XState σ → PProg ι β} {a : Nat} {os L} {ready : ι → Bool} (n i : Nat)
    (hn : i + n = X.servers) {c : Nat → Nat} {x : XState σ} (hx : P.Inv a c x) {is av} (hu : P.Unread c is)
    (hav : ∀ s, i ≤ s → X.Sib s → ready (X.sib s) = true → av (X.sib s) = true ∧ c s < X.counts s * X.unit) (found : Bool)
    (hk : ∀ f c' x' is' av', P.Inv a c' x' → P.Unread c' is' → bytesLeft X c' ≤ bytesLeft X c → x'.wbuf = x.wbuf →
      (f = true → found = true ∨ bytesLeft X c' < bytesLeft X c) →
      ((∃ s, i ≤ s ∧ X.Sib s ∧ ready (X.sib s) = true) → bytesLeft X c' < bytesLeft X c) →
      PProc.Does R (k (f, x')) (.xchg os is' av' :: L)) :
    PProc.Does R ((ploop n i (fun source st =>
      if source ≠ X.me ∧ ready (X.sib source) = true then XState.readFrom X h source st else .done st) (found, x)).bind k)
      (.xchg os is av :: L) := by
  induction n generalizing i c x is av found with
  | zero =>
    refine hk found c x is av hx hu le_rfl rfl (fun h => .inl h) ?_
    rintro ⟨s, h1, h2, -⟩
    have := h2.1
    omega
  | succ n ih =>
    rw [ploop, PProc.bind_assoc]
    by_cases hr : i ≠ X.me ∧ ready (X.sib i) = true
    · rw [if_pos hr]
      have hs : X.Sib i := ⟨by omega, hr.1⟩
      obtain ⟨ha, hc⟩ := hav i le_rfl hs hr.2
      refine P.readFrom_ok hx hs hc hu ha found ?_
      intro c1 x1 is1 hx1 hu1 hlt hsame hw1
      refine ih (i + 1) (by omega) hx1 hu1 ?_ true ?_
      · intro s hs1 hs2 hs3
        obtain ⟨g1, g2⟩ := hav s (by omega) hs2 hs3
        refine ⟨?_, by rw [hsame s (by omega)]; exact g2⟩
        rw [Function.update_of_ne (fun e => ?_)]
        · exact g1
        · have := P.inj e; omega
      · intro f c2 x2 is2 av2 hx2 hu2 hle hw2 _ _
        exact hk f c2 x2 is2 av2 hx2 hu2 (by omega) (hw2.trans hw1) (fun _ => .inr (by omega)) (fun _ => by omega)
    · rw [if_neg hr]
      refine ih (i + 1) (by omega) hx hu (fun s h1 => hav s (by omega)) found ?_
      intro f c2 x2 is2 av2 hx2 hu2 hle hw2 hf hr2
      refine hk f c2 x2 is2 av2 hx2 hu2 hle hw2 hf ?_
      rintro ⟨s, h1, h2, h3⟩
      refine hr2 ⟨s, ?_, h2, h3⟩
      by_contra hlt
      have : s = i := by omega
      subst this
      exact hr ⟨h2.2, h3⟩

/-- One `Poll` and what is read because of it. -/
theorem pollRound_ok {β : Type} {R : β → Prop} {k : Bool × XState σ → PProg ι β} {a : Nat} {os L} (block : Bool)
    {c : Nat → Nat} {x : XState σ} (hx : P.Inv a c x) {is av} (hu : P.Unread c is)
    (hb : block = true → os = [] ∧ 0 < x.readCount)
    (hk : ∀ f c' x' is' av', P.Inv a c' x' → P.Unread c' is' → bytesLeft X c' ≤ bytesLeft X c → x'.wbuf = x.wbuf →
      (f = true ∨ block = true → bytesLeft X c' < bytesLeft X c) →
      PProc.Does R (k (f, x')) (.xchg os is' av' :: L)) :
    PProc.Does R ((XState.pollRound X h block x).bind k) (.xchg os is av :: L) := by
  unfold XState.pollRound PProc.pollCall
  simp only [PProc.bind_def, PProc.bind_assoc, PProc.bind]
  have hmem : ∀ j, j ∈ (x.polled X).map X.sib → ∃ s, X.Sib s ∧ X.sib s = j ∧ c s < X.counts s * X.unit := by
    intro j hj
    obtain ⟨s, hs, rfl⟩ := List.mem_map.1 hj
    unfold XState.polled at hs
    rw [List.mem_filter] at hs
    have h2 : s ≠ X.me ∧ x.ignored s = false := by simpa using hs.2
    have hsib : X.Sib s := ⟨by simpa using hs.1, h2.1⟩
    refine ⟨s, hsib, rfl, lt_of_le_of_ne (hx.le s hsib) ?_⟩
    intro e
    have := (hx.ign s hsib).2 e
    rw [h2.2] at this
    cases this
  refine .xpoll ?_ ?_ ?_
  · intro j hj
    obtain ⟨s, hs, rfl, hc⟩ := hmem j hj
    rw [hu.1 s hs]
    apply List.ne_nil_of_length_pos
    rw [List.length_drop, P.E_length hs]
    omega
  · intro hblk
    obtain ⟨h1, h2⟩ := hb hblk
    refine ⟨h1, ?_⟩
    rw [hx.cnt] at h2
    obtain ⟨s, hs, hc⟩ := P.msgs_pos hx.le h2
    apply List.ne_nil_of_mem (a := X.sib s)
    refine List.mem_map.2 ⟨s, ?_, rfl⟩
    unfold XState.polled
    rw [List.mem_filter]
    refine ⟨by simpa using hs.1, ?_⟩
    have : x.ignored s = false := by
      by_contra hi
      have := (hx.ign s hs).1 (by simpa using hi)
      omega
    simpa using ⟨hs.2, this⟩
  · intro ready hr1 hr2
    have hav : ∀ s, 0 ≤ s → X.Sib s → ready (X.sib s) = true → ready (X.sib s) = true ∧ c s < X.counts s * X.unit := by
      intro s _ hs hr
      refine ⟨hr, ?_⟩
      obtain ⟨s', -, e, hc⟩ := hmem _ (hr1 _ hr)
      rwa [P.inj e] at hc
    refine P.sources_ok X.servers 0 (by omega) hx hu hav false ?_
    intro f c' x' is' av' h1 h2 h3 h4 h5 h6
    refine hk f c' x' is' av' h1 h2 h3 h4 ?_
    rintro (hf | hblk)
    · rcases h5 hf with h | h
      · cases h
      · exact h
    · obtain ⟨j, hj⟩ := hr2 hblk
      obtain ⟨s, hs, rfl, -⟩ := hmem j (hr1 j hj)
      exact h6 ⟨s, Nat.zero_le _, hs, hj⟩

/-- The `do … while` loop ends. -/
theorem drain_ok {β : Type} {R : β → Prop} {k : XState σ → PProg ι β} {a : Nat} {os L} (fuel : Nat)
    {c : Nat → Nat} (hfuel : bytesLeft X c < fuel) {x : XState σ} (hx : P.Inv a c x) {is av} (hu : P.Unread c is)
    (hk : ∀ c' x' is' av', P.Inv a c' x' → P.Unread c' is' → x'.wbuf = x.wbuf →
      PProc.Does R (k x') (.xchg os is' av' :: L)) :
    PProc.Does R ((XState.drain X h fuel x).bind k) (.xchg os is av :: L) := by
  induction fuel generalizing c x is av with
  | zero => omega
  | succ fuel ih =>
    rw [XState.drain]
    simp only [PProc.bind_def, PProc.bind_assoc]
    refine P.pollRound_ok false hx hu (by simp) ?_
    intro f c1 x1 is1 av1 hx1 hu1 hle hw hlt
    show PProc.Does R (PProc.bind (if (f && decide (x1.readCount > 0)) = true then _ else _) k) _
    split
    · rename_i hf
      have hf : f = true := by
        simp only [Bool.and_eq_true] at hf
        exact hf.1
      exact ih (by have := hlt (.inl hf); omega) hx1 hu1 (fun c' x' is' av' g1 g2 g3 => hk c' x' is' av' g1 g2 (g3.trans hw))
    · exact hk c1 x1 is1 av1 hx1 hu1 hw

/-- The final loop ends, with everything read. -/
theorem finish_ok {β : Type} {R : β → Prop} {k : XState σ → PProg ι β} {a : Nat} {L} (fuel : Nat)
    {c : Nat → Nat} (hfuel : bytesLeft X c < fuel) {x : XState σ} (hx : P.Inv a c x) {is av} (hu : P.Unread c is)
    (hk : ∀ c' x' is' av', P.Inv a c' x' → P.Unread c' is' → x'.readCount = 0 →
      PProc.Does R (k x') (.xchg [] is' av' :: L)) :
    PProc.Does R ((XState.finish X h fuel x).bind k) (.xchg [] is av :: L) := by
  induction fuel generalizing c x is av with
  | zero => omega
  | succ fuel ih =>
    rw [XState.finish]
    by_cases hr : x.readCount > 0
    · rw [if_pos hr]
      simp only [PProc.bind_def, PProc.bind_assoc]
      refine P.pollRound_ok true hx hu (fun _ => ⟨rfl, hr⟩) ?_
      intro f c1 x1 is1 av1 hx1 hu1 hle hw hlt
      exact ih (by have := hlt (.inr rfl); omega) hx1 hu1
    · rw [if_neg hr]
      exact hk c x is av hx hu (by omega)

/-- The messages sent for the items from `a` on. -/
def outsFrom (n a : Nat) : List (Nat × List Byte) := (List.range' a n).flatMap P.outs

theorem outsFrom_add (n m a : Nat) : P.outsFrom (n + m) a = P.outsFrom n a ++ P.outsFrom m (a + n) := by
  unfold outsFrom
  rw [← List.flatMap_append, ← List.range'_append_1]

/-- Sending a number of items. -/
theorem sendMany_ok {β : Type} {R : β → Prop} {k : XState σ → PProg ι β} {os L is av} {c : Nat → Nat} (l : List τ) (a : Nat)
    (hl : ∀ i, i < l.length → l[i]? = items[a + i]?) {x : XState σ} (hx : P.Inv a c x)
    (hk : ∀ x', P.Inv (a + l.length) c x' →
      x'.wbuf = pushes (Sockets.bufferSize / X.unit) x.wbuf (P.outsFrom l.length a) → x'.readCount = x.readCount →
      PProc.Does R (k x') (.xchg os is av :: L)) :
    PProc.Does R ((PProc.ofProc (XState.sendMany h l x)).bind k)
      (.xchg ((emits (Sockets.bufferSize / X.unit) x.wbuf (P.outsFrom l.length a)).map (fun o => (X.sib o.1, o.2)) ++ os) is av
        :: L) := by
  induction l generalizing a x with
  | nil => exact hk x hx rfl rfl
  | cons t l ih =>
    have h0 : some t = items[a]? := hl 0 (by simp)
    obtain ⟨ha, e⟩ := List.getElem?_eq_some_iff.1 h0.symm
    obtain ⟨s', rc', hI, hrun⟩ := P.send a _ _ _ ha (fun i hi => by
      show c i / X.unit ≤ X.counts i
      have := P.unit0
      exact (Nat.div_le_iff_le_mul_add_pred P.unit0).2 (by rw [Nat.mul_comm]; have := hx.le i hi; omega)) hx.inv
    have hrun := hrun x rfl rfl hx.room
    rw [e] at hrun
    rw [XState.sendMany]
    simp only [Proc.bind_def, PProc.ofProc_bind, PProc.bind_assoc]
    have he : P.outsFrom (t :: l).length a = P.outs a ++ P.outsFrom l.length (a + 1) := by
      unfold outsFrom
      rw [List.length_cons, List.range'_succ, List.flatMap_cons]
    rw [he, emits_append, List.map_append, List.append_assoc]
    refine does_sends (p := h.send t x) (by simpa [List.map_map, Function.comp_def] using hrun) ?_
    refine ih (a + 1) (fun i hi => ?_) (x := { x with st := s', received := rc', wbuf := _ })
      ⟨hI, room_pushes _ P.unit0 P.unitB _ hx.room _, hx.le, hx.left, hx.ign, hx.cnt⟩ ?_
    · have := hl (i + 1) (by simpa using hi)
      rw [List.getElem?_cons_succ] at this
      rw [this]; congr 1; omega
    · intro x' h1 h2 h3
      refine hk x' ?_ ?_ h3
      · rw [List.length_cons, show a + (l.length + 1) = a + 1 + l.length by omega]; exact h1
      · rw [he, pushes_append]; exact h2

/-- The outer loop ends, with everything sent. -/
theorem sendLoop_ok {β : Type} {R : β → Prop} {k : XState σ → PProg ι β} {os L} (fuel : Nat) (l : List τ) (a : Nat)
    (hfuel : l.length ≤ fuel) (hl : l = items.drop a) (ha : a ≤ items.length) {c : Nat → Nat} {x : XState σ} (hx : P.Inv a c x)
    {is av} (hu : P.Unread c is)
    (hk : ∀ c' x' is' av', P.Inv items.length c' x' → P.Unread c' is' →
      x'.wbuf = pushes (Sockets.bufferSize / X.unit) x.wbuf (P.outsFrom (items.length - a) a) →
      PProc.Does R (k x') (.xchg os is' av' :: L)) :
    PProc.Does R ((XState.sendLoop X h (Sockets.bufferSize / X.unit) fuel l x).bind k)
      (.xchg ((emits (Sockets.bufferSize / X.unit) x.wbuf (P.outsFrom (items.length - a) a)).map (fun o => (X.sib o.1, o.2)) ++ os)
        is av :: L) := by
  induction fuel generalizing l a c x is av with
  | zero =>
    have : l = [] := List.length_eq_zero_iff.1 (by omega)
    have hal : items.length - a = 0 := by
      rw [this] at hl
      have := congrArg List.length hl
      rw [List.length_drop] at this
      simpa using this.symm
    rw [hal] at hk ⊢
    subst this
    have hai : a = items.length := by omega
    exact hk c x is av (hai ▸ hx) hu rfl
  | succ fuel ih =>
    cases l with
    | nil =>
      have hal : items.length - a = 0 := by
        have := congrArg List.length hl
        rw [List.length_drop] at this
        simpa using this.symm
      rw [hal] at hk ⊢
      have hai : a = items.length := by omega
      exact hk c x is av (hai ▸ hx) hu rfl
    | cons t l =>
      have hlen : (t :: l).length = items.length - a := by rw [hl, List.length_drop]
      have hBpos : 0 < Sockets.bufferSize / X.unit := Nat.div_pos P.unitB P.unit0
      rw [XState.sendLoop.eq_3 _ _ _ _ _ _ (by simp)]
      simp only [PProc.bind_def, PProc.bind_assoc]
      have hn0 : 0 < (if x.readCount = 0 then (t :: l).length else Sockets.bufferSize / X.unit) := by
        split
        · simp
        · exact hBpos
      generalize (if x.readCount = 0 then (t :: l).length else Sockets.bufferSize / X.unit) = n at hn0
      have hsplit : items.length - a = ((t :: l).take n).length + (items.length - (a + ((t :: l).take n).length)) := by
        rw [List.length_take]; omega
      have hdrop : (t :: l).drop n = items.drop (a + ((t :: l).take n).length) := by
        rw [hl, List.drop_drop, List.length_take, List.length_drop]
        rcases Nat.le_total n (items.length - a) with hle | hle
        · rw [Nat.min_eq_left hle]
        · rw [Nat.min_eq_right hle, List.drop_eq_nil_of_le (by omega), List.drop_eq_nil_of_le (by omega)]
      have hdlen : ((t :: l).drop n).length ≤ fuel := by
        rw [List.length_drop]; omega
      have htake : ∀ i, i < ((t :: l).take n).length → ((t :: l).take n)[i]? = items[a + i]? := by
        intro i hi
        rw [List.length_take] at hi
        rw [List.getElem?_take, if_pos (by omega), hl, List.getElem?_drop]
      have hta : a + ((t :: l).take n).length ≤ items.length := by rw [List.length_take]; omega
      generalize hl1 : (t :: l).take n = l1 at *
      generalize hl2 : (t :: l).drop n = l2 at *
      rw [hsplit, outsFrom_add, emits_append, List.map_append, List.append_assoc]
      refine P.sendMany_ok l1 a htake hx ?_
      intro x1 hx1 hw1 hr1
      rw [← hw1]
      have hk' : ∀ c' x' is' av', P.Inv items.length c' x' → P.Unread c' is' →
          x'.wbuf = pushes (Sockets.bufferSize / X.unit) x1.wbuf (P.outsFrom (items.length - (a + l1.length)) (a + l1.length)) →
          PProc.Does R (k x') (.xchg os is' av' :: L) := by
        intro c' x' is' av' g1 g2 g3
        refine hk c' x' is' av' g1 g2 ?_
        rw [g3, hsplit, outsFrom_add, pushes_append, hw1]
      split
      · exact ih l2 (a + l1.length) hdlen hdrop hta hx1 hu hk'
      · rw [PProc.bind_assoc]
        refine P.drain_ok _ ?_ hx1 hu ?_
        · have := bytes_le (X := X) c
          have hc : x1.readCount = msgsLeft X c := hx1.cnt
          rw [hc]; omega
        · intro c2 x2 is2 av2 hx2 hu2 hw2
          rw [← hw2]
          exact ih l2 (a + l1.length) hdlen hdrop hta hx2 hu2 (by rw [hw2]; exact hk')

theorem runs_flushAll (x : XState σ) :
    Runs (x.flushAll X) ((flushes X.servers X.me x.wbuf).map (fun o => (Act.send (X.sib o.1) o.2 : PAct ι))) () := by
  unfold XState.flushAll flushes
  rw [List.range_eq_range']
  generalize X.servers = n
  generalize (0 : Nat) = i
  induction n generalizing i with
  | zero => exact Runs.done _
  | succ n ih =>
    rw [List.range'_succ, List.flatMap_cons, List.map_append]
    refine Runs.bind ?_ (ih (i + 1))
    show Runs (if i ≠ X.me then _ else _) _ _
    split
    · rw [List.map_map]
      exact Runs.sendBytes _ _
    · exact Runs.done _

/-- Everything this server sends. -/
def allOut : List (Nat × Byte) :=
  outgoing (Sockets.bufferSize / X.unit) X.servers X.me (fun _ => {}) (P.outsFrom items.length 0)

/-- `SendAndPoll` is one exchange; afterwards all items were handled and all messages of
the siblings were received. -/
theorem does (s : σ) (readCount : Nat) (hc : readCount = ∑ s ∈ X.sibs, X.counts s)
    (hI : P.I 0 (fun _ => 0) s (List.replicate X.servers 0)) {is : ι → List Byte} {av}
    (his : ∀ s, X.Sib s → is (X.sib s) = P.E s) (his' : ∀ j, (∀ s, X.Sib s → j ≠ X.sib s) → is j = []) :
    PProc.Does (fun s' => ∃ r rc, (∀ i, X.Sib i → r i = X.counts i) ∧ P.I items.length r s' rc)
      (sendAndPoll X h items readCount s) [.xchg (P.allOut.map (fun o => (X.sib o.1, o.2))) is av] := by
  have hu0 := P.unit0
  have hst : serverTable X.servers = .ok (List.replicate X.servers 0) := by
    unfold serverTable wrap8
    rw [if_neg]
    have := P.servers
    omega
  unfold sendAndPoll
  simp only [PProc.bind_def]
  refine PProc.Does.lifts hst ?_
  unfold allOut outgoing
  rw [List.map_append]
  have hx0 : P.Inv 0 (fun _ => 0)
      { st := s, received := List.replicate X.servers 0, readCount := readCount, ignored := fun id => decide (X.counts id = 0) } := by
    refine ⟨by simpa using hI, fun t => WBuf.room_empty P.unit0 P.unitB, fun _ _ => Nat.zero_le _, fun _ _ => ?_, ?_, ?_⟩
    · simp
    · intro i _
      have : X.unit ≠ 0 := by omega
      simp only [decide_eq_true_eq]
      constructor
      · intro h; rw [h, Nat.zero_mul]
      · intro h; exact (Nat.mul_eq_zero.1 h.symm).resolve_right this
    · simpa using hc
  refine P.sendLoop_ok items.length items 0 le_rfl (by simp) (Nat.zero_le _) hx0 ⟨by simpa using his, his'⟩ ?_
  intro c1 x1 is1 av1 hx1 hu1 hw1
  have hfl := runs_flushAll (X := X) x1
  rw [hw1, Nat.sub_zero] at hfl
  rw [← List.append_nil (List.map _ (flushes _ _ _))]
  refine does_sends (p := x1.flushAll X) (by rw [List.map_map]; exact hfl) ?_
  refine P.finish_ok _ ?_ hx1 hu1 ?_
  · have := bytes_le (X := X) c1
    have hc : x1.readCount = msgsLeft X c1 := hx1.cnt
    rw [hc]; omega
  · intro c2 x2 is2 av2 hx2 hu2 hr2
    have hall : ∀ i, X.Sib i → c2 i = X.counts i * X.unit := by
      intro i hi
      have hz := hx2.cnt
      rw [hr2] at hz
      have := (Finset.sum_eq_zero_iff.1 hz.symm) i ((X.mem_sibs i).2 hi)
      have hle := hx2.le i hi
      have hge : X.counts i ≤ c2 i / X.unit := by omega
      have := (Nat.le_div_iff_mul_le hu0).1 hge
      omega
    refine .xend ?_ (.done ⟨_, _, ?_, hx2.inv⟩)
    · intro j
      by_cases hj : ∀ s, X.Sib s → j ≠ X.sib s
      · exact hu2.2 j hj
      · push Not at hj
        obtain ⟨s, hs, rfl⟩ := hj
        rw [hu2.1 s hs, List.drop_eq_nil_of_le]
        rw [P.E_length hs, hall s hs]
    · intro i hi
      show c2 i / X.unit = X.counts i
      rw [hall i hi, Nat.mul_div_cancel _ hu0]

end XSpec

end DPPIR.Protocol
