import Verif.Proofs.Loops
import Verif.Model.Loops
import Verif.Proofs.ReadAheadRun

/-!
# The receive loops read what the byte-by-byte loops read
-/

namespace DPPIR.Protocol
open DPPIR Proc PNet RNet

variable {box : SealedBox} {ι σ α β : Type}

/-- A program that receives nothing; its results satisfy `Q`. -/
inductive Quiet {O : Type} (Q : α → Prop) : Proc ι O α → Prop where
  | done {a} (h : Q a) : Quiet Q (.done a)
  | fault (e) : Quiet Q (.fault e)
  | send {d b k} : Quiet Q k → Quiet Q (.send d b k)
  | obs {o k} : Quiet Q k → Quiet Q (.obs o k)

theorem Quiet.bind {O : Type} {Q : α → Prop} {R : β → Prop} {p : Proc ι O α} {f : α → Proc ι O β} (h : Quiet Q p) (hf : ∀ a, Q a → Quiet R (f a)) :
    Quiet R (p.bind f) := by
  induction h with
  | done h => exact hf _ h
  | fault e => exact .fault e
  | send _ ih => exact .send ih
  | obs _ ih => exact .obs ih

theorem Quiet.lift {O : Type} {Q : α → Prop} {x : Res α} (h : ∀ a, x = .ok a → Q a) : Quiet (ι := ι) (O := O) Q (Proc.lift x) := by
  cases x with
  | error e => exact .fault e
  | ok a => exact .done (h a rfl)

theorem Quiet.observe {O : Type} (o : O) : Quiet (ι := ι) (fun _ => True) (Proc.observe o) := .obs (.done trivial)

variable [DecidableEq ι] {links : ι → Prop}

theorem sim_quiet {O : Type} {Q : α → Prop} {p : Proc ι O α} (h : Quiet Q p) {A : ι → List Byte} {f f' : α → PProc ι O β}
    (hf : ∀ a, Q a → Sim links A (f a) (f' a)) : Sim links A ((PProc.ofProc p).bind f) ((PProc.ofProc p).bind f') := by
  induction h with
  | done h => exact hf _ h
  | fault e => exact .fault e
  | send _ ih => exact .send ih
  | obs _ ih => exact .obs ih

/-- What is in the read buffer of one connection, all others being empty. -/
def only (src : ι) (l : List Byte) : ι → List Byte := Function.update (fun _ => []) src l

theorem only_self (src : ι) (l : List Byte) : only src l src = l := Function.update_self ..

theorem only_nil (src : ι) : only src [] = fun _ => [] := Function.update_eq_self src (fun _ : ι => ([] : List Byte))

theorem only_update (src : ι) (l l' : List Byte) : Function.update (only src l) src l' = only src l' := Function.update_idem ..

/-- Bytes of the buffer are taken. -/
theorem sim_takes {O : Type} {src : ι} (hl : links src) {p : PProc ι O β} {g : List Byte → Proc ι O β} (k : Nat) (l2 r got : List Byte)
    (h : Sim links (only src r) p (PProc.ofProc ((recvBytesFrom src k (got ++ l2)).bind g))) :
    Sim links (only src (l2 ++ r)) p (PProc.ofProc ((recvBytesFrom src (k + l2.length) got).bind g)) := by
  induction l2 generalizing got with
  | nil => simpa using h
  | cons b l2 ih =>
    refine Sim.take (b := b) (rest := l2 ++ r) hl (only_self _ _) ?_
    rw [only_update]
    exact ih (got ++ [b]) (by simpa using h)

/-- The body of a byte-by-byte loop. -/
def recvBody (src : ι) (unit : Nat) (f : Nat → List Byte → σ → Prog ι σ) (i : Nat) (s : σ) : Prog ι σ :=
  (recvBytes src unit).bind (fun m => f i m s)

/-- A byte-by-byte loop in the middle of a message. -/
def restOf (src : ι) (unit : Nat) (f : Nat → List Byte → σ → Prog ι σ) (rem i : Nat) (got : List Byte) (s : σ) : Prog ι σ :=
  (recvBytesFrom src (unit - got.length) got).bind (fun m => (f i m s).bind (loop rem (i + 1) (recvBody src unit f)))

theorem loop_restOf (src : ι) (unit : Nat) (f : Nat → List Byte → σ → Prog ι σ) (rem i : Nat) (s : σ) :
    loop (rem + 1) i (recvBody src unit f) s = restOf src unit f rem i [] s := by
  simp only [loop, recvBody, restOf, recvBytes, Proc.bind_assoc, List.length_nil, Nat.sub_zero]

section
variable {src : ι} (hl : links src) {unit : Nat} (hu : 0 < unit) (hb : unit ≤ Sockets.bufferSize) {f : Nat → List Byte → σ → Prog ι σ}
  {Q : σ → Prop} (hf : ∀ i m s, Q s → m.length = unit → Quiet Q (f i m s))
include hl hu hb hf

/-- All messages in the buffer are handled. -/
theorem sim_messages {fuel : Nat}
    (ih : ∀ rem i l s, Q s → l.length < unit → rem * unit - l.length ≤ fuel → (rem = 0 → l = []) →
      Sim links (only src l) (receive src unit f fuel rem i l s) (PProc.ofProc (loop rem i (recvBody src unit f) s)))
    (n rem i : Nat) (bytes : List Byte) (s : σ) (hs : Q s) (h1 : n * unit ≤ bytes.length) (h2 : bytes.length < (n + 1) * unit)
    (h3 : bytes.length ≤ rem * unit) (hfu : rem * unit - bytes.length ≤ fuel) :
    Sim links (only src bytes) ((PProc.ofProc (handleAll f i (chunks unit n bytes) s)).bind
        (fun s => receive src unit f fuel (rem - n) (i + n) (bytes.drop (n * unit)) s))
      (PProc.ofProc (loop rem i (recvBody src unit f) s)) := by
  induction n generalizing rem i bytes s with
  | zero =>
    simp only [chunks, handleAll, PProc.ofProc, PProc.bind, Nat.sub_zero, Nat.add_zero, Nat.zero_mul, List.drop_zero]
    refine ih rem i bytes s hs (by simpa using h2) hfu (fun h => ?_)
    subst h
    simpa using h3
  | succ n IH =>
    have e1 : (n + 1) * unit = n * unit + unit := Nat.succ_mul ..
    have e2 : (n + 1 + 1) * unit = (n + 1) * unit + unit := Nat.succ_mul ..
    obtain ⟨rem, rfl⟩ : ∃ r, rem = r + 1 := ⟨rem - 1, by
      have : rem ≠ 0 := by rintro rfl; omega
      omega⟩
    have e3 : (rem + 1) * unit = rem * unit + unit := Nat.succ_mul ..
    rw [loop_restOf]
    have hlen : (bytes.take unit).length = unit := by rw [List.length_take]; omega
    have := sim_takes (p := (PProc.ofProc (handleAll f i (chunks unit (n + 1) bytes) s)).bind
        (fun s => receive src unit f fuel (rem + 1 - (n + 1)) (i + (n + 1)) (bytes.drop ((n + 1) * unit)) s))
      (g := fun m => (f i m s).bind (loop rem (i + 1) (recvBody src unit f))) hl 0 (bytes.take unit) (bytes.drop unit) [] ?_
    · rw [List.take_append_drop, hlen, Nat.zero_add] at this
      exact this
    · simp only [List.nil_append, recvBytesFrom, Proc.bind, chunks, handleAll, PProc.ofProc_bind, PProc.bind_assoc]
      refine sim_quiet (hf i _ s hs hlen) (fun s' hs' => ?_)
      have := IH rem (i + 1) (bytes.drop unit) s' hs' (by rw [List.length_drop]; omega) (by rw [List.length_drop]; omega)
        (by rw [List.length_drop]; omega) (by rw [List.length_drop]; omega)
      rw [List.drop_drop, show unit + n * unit = (n + 1) * unit by omega, show rem - n = rem + 1 - (n + 1) by omega,
        show i + 1 + n = i + (n + 1) by omega] at this
      exact this

theorem sim_receive (fuel rem i : Nat) (l1 l2 : List Byte) (s : σ) (hs : Q s) (hlt : (l1 ++ l2).length < unit)
    (hfu : (rem + 1) * unit - (l1 ++ l2).length ≤ fuel) :
    Sim links (only src l2) (receive src unit f fuel (rem + 1) i (l1 ++ l2) s) (PProc.ofProc (restOf src unit f rem i l1 s)) := by
  induction fuel generalizing rem i l1 l2 s with
  | zero =>
    have : (rem + 1) * unit = rem * unit + unit := Nat.succ_mul ..
    omega
  | succ fuel ih =>
    have ih' : ∀ rem i l s, Q s → l.length < unit → rem * unit - l.length ≤ fuel → (rem = 0 → l = []) →
        Sim links (only src l) (receive src unit f fuel rem i l s) (PProc.ofProc (loop rem i (recvBody src unit f) s)) := by
      intro rem i l s hs hlt hfu h0
      cases rem with
      | zero =>
        rw [h0 rfl, only_nil]
        cases fuel <;> exact Sim.done _ (fun _ => rfl)
      | succ rem =>
        rw [loop_restOf]
        exact ih rem i [] l s hs hlt hfu
    have e3 : (rem + 1) * unit = rem * unit + unit := Nat.succ_mul ..
    have hlen := List.length_append (as := l1) (bs := l2)
    have h := sim_takes (p := receive src unit f (fuel + 1) (rem + 1) i (l1 ++ l2) s)
      (g := fun m => (f i m s).bind (loop rem (i + 1) (recvBody src unit f))) hl (unit - (l1 ++ l2).length) l2 [] l1 ?_
    · rw [List.append_nil, show unit - (l1 ++ l2).length + l2.length = unit - l1.length by omega] at h
      exact h
    · generalize l1 ++ l2 = left at *
      obtain ⟨k, hk⟩ : ∃ k, unit - left.length = k + 1 := ⟨unit - left.length - 1, by omega⟩
      have hcap : unit ≤ Sockets.bufferSize / unit * unit := by
        have := Nat.div_pos hb hu
        exact Nat.le_mul_of_pos_left _ this
      generalize hm : (if Sockets.bufferSize / unit * unit - left.length < (rem + 1) * unit - left.length then
        Sockets.bufferSize / unit * unit - left.length else (rem + 1) * unit - left.length) = m
      have hm1 : 0 < m := by rw [← hm]; split <;> omega
      have hm2 : m ≤ (rem + 1) * unit - left.length := by rw [← hm]; split <;> omega
      have hrec : receive src unit f (fuel + 1) (rem + 1) i left s = .read src m (fun c =>
          (PProc.ofProc (handleAll f i (chunks unit ((left ++ c).length / unit) (left ++ c)) s)).bind
            (fun s => receive src unit f fuel (rem + 1 - (left ++ c).length / unit) (i + (left ++ c).length / unit)
              ((left ++ c).drop ((left ++ c).length / unit * unit)) s)) := by
        conv_lhs => unfold receive
        rw [if_pos (Nat.succ_pos rem)]
        dsimp only
        rw [hm]
        unfold PProc.readCall
        rw [if_neg (by omega)]
        rfl
      rw [hrec, hk, recvBytesFrom]
      refine Sim.fill hl (only_self _ _) hm1 (fun c hc hcm => ?_)
      have hc0 : 0 < c.length := List.length_pos_iff.2 hc
      rw [only_update]
      have habs : (PProc.recv src fun b => PProc.ofProc ((recvBytesFrom src k (left ++ [b])).bind
            fun m => (f i m s).bind (loop rem (i + 1) (recvBody src unit f)))) =
          PProc.ofProc ((recvBytesFrom src (unit - left.length) left).bind
            fun m => (f i m s).bind (loop rem (i + 1) (recvBody src unit f))) := by
        rw [hk]; rfl
      show Sim links (only src c) _ (PProc.recv src fun b => PProc.ofProc ((recvBytesFrom src k (left ++ [b])).bind
            fun m => (f i m s).bind (loop rem (i + 1) (recvBody src unit f))))
      rw [habs]
      have hlen' := List.length_append (as := left) (bs := c)
      by_cases hsmall : (left ++ c).length < unit
      · rw [Nat.div_eq_of_lt hsmall]
        simp only [chunks, handleAll, PProc.ofProc, PProc.bind, Nat.sub_zero, Nat.add_zero, Nat.zero_mul, List.drop_zero]
        exact ih rem i left c s hs hsmall (by omega)
      · obtain ⟨n, hn⟩ : ∃ n, (left ++ c).length / unit = n + 1 := ⟨(left ++ c).length / unit - 1, by
          have := Nat.div_pos (Nat.not_lt.1 hsmall) hu
          omega⟩
        have hd1 : (n + 1) * unit ≤ (left ++ c).length := by rw [← hn]; exact Nat.div_mul_le_self ..
        have hd2 : (left ++ c).length < (n + 1 + 1) * unit := by
          rw [← hn]
          exact (Nat.div_lt_iff_lt_mul hu).1 (Nat.lt_succ_self _)
        have e1 : (n + 1) * unit = n * unit + unit := Nat.succ_mul ..
        have e2 : (n + 1 + 1) * unit = (n + 1) * unit + unit := Nat.succ_mul ..
        rw [hn]
        have htake : (left ++ c).take unit = left ++ c.take (unit - left.length) := by
          rw [List.take_append, List.take_of_length_le (by omega)]
        have hdrop : (left ++ c).drop unit = c.drop (unit - left.length) := by
          rw [List.drop_append, List.drop_of_length_le (by omega), List.nil_append]
        have hcl : (c.take (unit - left.length)).length = unit - left.length := by rw [List.length_take]; omega
        have h := sim_takes (p := (PProc.ofProc (handleAll f i (chunks unit (n + 1) (left ++ c)) s)).bind
            (fun s => receive src unit f fuel (rem + 1 - (n + 1)) (i + (n + 1)) ((left ++ c).drop ((n + 1) * unit)) s))
          (g := fun m => (f i m s).bind (loop rem (i + 1) (recvBody src unit f))) hl 0 (c.take (unit - left.length))
          (c.drop (unit - left.length)) left ?_
        · rw [List.take_append_drop, hcl, Nat.zero_add] at h
          exact h
        · simp only [← htake, ← hdrop, recvBytesFrom, Proc.bind, chunks, handleAll, PProc.ofProc_bind, PProc.bind_assoc]
          refine sim_quiet (hf i _ s hs (by rw [List.length_take]; omega)) (fun s' hs' => ?_)
          have := sim_messages hl hu hb hf ih' n rem (i + 1) ((left ++ c).drop unit) s' hs' (by rw [List.length_drop]; omega)
            (by rw [List.length_drop]; omega) (by rw [List.length_drop]; omega) (by rw [List.length_drop]; omega)
          rw [List.drop_drop, show unit + n * unit = (n + 1) * unit by omega, show rem - n = rem + 1 - (n + 1) by omega,
            show i + 1 + n = i + (n + 1) by omega] at this
          exact this

/-- A receive loop does what the loop that reads byte by byte does. -/
theorem sim_receiveAll (n i : Nat) (s : σ) (hs : Q s) :
    Sim links (fun _ => []) (receiveAll src unit n i f s) (PProc.ofProc (loop n i (recvBody src unit f) s)) := by
  unfold receiveAll
  cases n with
  | zero =>
    rw [Nat.zero_mul]
    exact Sim.done _ (fun _ => rfl)
  | succ n =>
    rw [loop_restOf, ← only_nil src]
    exact sim_receive hl hu hb hf ((n + 1) * unit) n i [] [] s hs hu (by simp)

end

end DPPIR.Protocol
