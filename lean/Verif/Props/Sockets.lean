import Verif.Proofs.Sockets
import Verif.Proofs.Types
import Verif.Spec.Sockets

/-!
# C22–C26: sockets
-/

namespace DPPIR.Props
open DPPIR.Spec DPPIR.Sockets

/-- Bounds on a fresh buffer of unit size `U`. -/
private theorem fresh {U : Nat} (hU : 0 < U) (hU2 : U ≤ bufferSize) :
    0 < bufferSize / U ∧ bufferSize / U * U < 2 ^ 32 ∧ bufferSize / U * U ≤ bufferSize := by
  refine ⟨Nat.div_pos hU2 hU, ?_, Nat.div_mul_le_self _ _⟩
  have := Nat.div_mul_le_self bufferSize U
  simp only [bufferSize] at *
  omega

private theorem c22 {β : Type} [Buffer β] [LawfulBuffer β] (buf : β) (U : Nat) (hU : 0 < U) (hU2 : U ≤ bufferSize)
    (hV : LawfulBuffer.V buf U (bufferSize / U) 0 0)
    (msgs : List (List Byte)) (hm : ∀ m ∈ msgs, m.length = U) (hN : msgs.length < 2 ^ 32) (rest : List Byte)
    (mem : List Byte) (hmem : mem.length = bufferSize) (sched : List Nat) :
    (∃ r, Receiver.rounds sched
        ({ remaining := msgs.length, buf := buf, mem := mem, stream := msgs.flatten ++ rest } : Receiver β) = .ok r ∧
      r.delivered <+: msgs ∧ rest <:+ r.stream ∧ r.remaining = msgs.length - r.delivered.length) ∧
    (msgs.flatten.length ≤ sched.length → ∃ buf' mem', Receiver.rounds sched
        ({ remaining := msgs.length, buf := buf, mem := mem, stream := msgs.flatten ++ rest } : Receiver β) =
        .ok { remaining := 0, delivered := msgs, buf := buf', mem := mem', stream := rest } ∧
      Buffer.leftover buf' = 0 ∧ Buffer.bufferSize buf' = 0) := by
  obtain ⟨hC, hCU, hCS⟩ := fresh hU hU2
  have hfl := flatten_length U msgs hm
  constructor
  · have hNU : msgs.length * U < 2 ^ 64 := by
      have h1 : msgs.length * U ≤ 2 ^ 32 * U := Nat.mul_le_mul_right _ (by omega)
      simp only [bufferSize] at *
      omega
    obtain ⟨r', d', l', h1, h2, h3, -⟩ := rounds_ok (S := msgs.flatten ++ rest) (N := msgs.length) hC hCU hNU hN sched
      ({ remaining := msgs.length, buf := buf, mem := mem, stream := msgs.flatten ++ rest } : Receiver β) 0 0
      ⟨hV, hU, by omega, fun _ => rfl, by simp, by simp, by simp [chunks], by simp only; omega, by simp, by simp⟩
    have hle : d' * U + l' ≤ msgs.length * U := by
      by_cases hd : d' = msgs.length
      · rw [h2.end0 hd, hd]; omega
      · have := h2.dN
        have h6 : (d' + 1) * U ≤ msgs.length * U := Nat.mul_le_mul_right _ (by omega)
        have h7 : (d' + 1) * U = d' * U + U := by ring
        have h8 := h2.lU
        omega
    refine ⟨r', h1, ?_, ?_, ?_⟩
    · have h4 := chunks_flatten U msgs rest hm
      have h5 : msgs.length = d' + (msgs.length - d') := by have := h2.dN; omega
      rw [h5, chunks_add] at h4
      rw [h2.del]
      exact ⟨_, h4⟩
    · rw [h2.stream, List.drop_append_of_le_length (by omega)]
      exact List.suffix_append _ _
    · rw [h2.rem, h2.del, chunks_length]
  · intro hs
    obtain ⟨b, m, h1, h2, -⟩ := recv_ok hV hU hC hCU msgs hm hN rest mem (by omega) sched (by omega)
    exact ⟨b, m, h1, LawfulBuffer.leftover h2, by rw [LawfulBuffer.bufferSize h2]; simp⟩

/-- **C22** for ciphers (run-time message size).  Whatever the sizes of the reads,
what has been delivered is a prefix of the messages, no byte after them is
consumed, and once there were as many reads as bytes (every read returns at least
one) exactly the messages were delivered and the buffer is empty. -/
theorem C22_cipher_reads (U : Nat) (hU : 0 < U) (hU2 : U ≤ bufferSize)
    (msgs : List (List Byte)) (hm : ∀ m ∈ msgs, m.length = U) (hN : msgs.length < 2 ^ 32) (rest : List Byte)
    (mem : List Byte) (hmem : mem.length = bufferSize) (sched : List Nat) :
    let r0 : Receiver CipherLogicalBuffer := { remaining := msgs.length, buf := CipherLogicalBuffer.new bufferSize U
                                               mem := mem, stream := msgs.flatten ++ rest }
    (∃ r, r0.rounds sched = .ok r ∧ r.delivered <+: msgs ∧ rest <:+ r.stream ∧
      r.remaining = msgs.length - r.delivered.length) ∧
    (msgs.flatten.length ≤ sched.length → ∃ buf' mem', r0.rounds sched =
        .ok { remaining := 0, delivered := msgs, buf := buf', mem := mem', stream := rest } ∧
      Buffer.leftover buf' = 0 ∧ Buffer.bufferSize buf' = 0) :=
  c22 _ U hU hU2 (cipherLogicalBuffer_new _ _) msgs hm hN rest mem hmem sched

/-- **C22** for queries, responses and secrets (static message size). -/
theorem C22_typed_reads (U : Nat) (hU : 0 < U) (hU2 : U ≤ bufferSize)
    (msgs : List (List Byte)) (hm : ∀ m ∈ msgs, m.length = U) (hN : msgs.length < 2 ^ 32) (rest : List Byte)
    (mem : List Byte) (hmem : mem.length = bufferSize) (sched : List Nat) :
    let r0 : Receiver LogicalBuffer := { remaining := msgs.length, buf := LogicalBuffer.new bufferSize U
                                         mem := mem, stream := msgs.flatten ++ rest }
    (∃ r, r0.rounds sched = .ok r ∧ r.delivered <+: msgs ∧ rest <:+ r.stream ∧
      r.remaining = msgs.length - r.delivered.length) ∧
    (msgs.flatten.length ≤ sched.length → ∃ buf' mem', r0.rounds sched =
        .ok { remaining := 0, delivered := msgs, buf := buf', mem := mem', stream := rest } ∧
      Buffer.leftover buf' = 0 ∧ Buffer.bufferSize buf' = 0) :=
  c22 _ U hU hU2 (logicalBuffer_new _ _) msgs hm hN rest mem hmem sched

/-- Every read size the kernel may choose is covered by some schedule entry. -/
theorem C22_schedules_cover (n avail k : Nat) (h1 : 0 < k) (h2 : k ≤ min n avail) :
    ∃ choice, kernelCount choice n avail = k := by
  refine ⟨k - 1, ?_⟩
  unfold kernelCount
  rw [if_neg (by omega), Nat.mod_eq_of_lt (by omega)]
  omega

private theorem c25 {β : Type} [Buffer β] [LawfulBuffer β] (buf : β) (U : Nat) (hU : 0 < U) (hU2 : U ≤ bufferSize)
    (hV : LawfulBuffer.V buf U (bufferSize / U) 0 0)
    (msgs : List (List Byte)) (hm : ∀ m ∈ msgs, m.length = U) (hN : msgs.length < 2 ^ 32) (S : List Byte)
    (hpre : S <+: msgs.flatten) (hlt : S.length < msgs.flatten.length)
    (mem : List Byte) (hmem : mem.length = bufferSize) (sched : List Nat) :
    ∃ r, Receiver.rounds sched
        ({ remaining := msgs.length, buf := buf, mem := mem, stream := S } : Receiver β) = .ok r ∧
      0 < r.remaining ∧ r.delivered <+: msgs.take (S.length / U) ∧
      (S.length ≤ sched.length → r.delivered = msgs.take (S.length / U)) := by
  obtain ⟨hC, hCU, hCS⟩ := fresh hU hU2
  have hfl := flatten_length U msgs hm
  have hNU : msgs.length * U < 2 ^ 64 := by
    have h1 : msgs.length * U ≤ 2 ^ 32 * U := Nat.mul_le_mul_right _ (by omega)
    simp only [bufferSize] at *
    omega
  obtain ⟨r', d', l', h1, h2, h3, h4⟩ := rounds_ok (S := S) (N := msgs.length) hC hCU hNU hN sched
    ({ remaining := msgs.length, buf := buf, mem := mem, stream := S } : Receiver β) 0 0
    ⟨hV, hU, by omega, fun _ => rfl, by simp, by simp, by simp [chunks], by simp only; omega, by simp, by simp⟩
  have hdS : d' * U + l' ≤ S.length := h2.avail
  have hdN : d' < msgs.length := by
    by_contra hge
    have : msgs.length * U ≤ d' * U := Nat.mul_le_mul_right _ (by omega)
    omega
  have hdq : d' ≤ S.length / U := by
    rw [Nat.le_div_iff_mul_le hU]; omega
  have hchunk : chunks U d' S = msgs.take d' := by
    have e1 : S = msgs.flatten.take S.length := List.prefix_iff_eq_take.mp hpre
    rw [e1, chunks_take _ _ _ _ (by omega)]
    have e2 := chunks_flatten U msgs [] hm
    rw [List.append_nil] at e2
    have h5 : msgs.length = d' + (msgs.length - d') := by omega
    rw [h5, chunks_add] at e2
    conv_rhs => rw [← e2]
    rw [List.take_left' (chunks_length _ _ _)]
  refine ⟨r', h1, by rw [h2.rem]; omega, ?_, ?_⟩
  · rw [h2.del, hchunk]
    exact List.take_prefix_take_left hdq
  · intro hs
    rw [h2.del, hchunk]
    have hle : S.length ≤ d' * U + l' := by
      rcases h4 with h4 | h4 | h4 <;> omega
    have : S.length / U = d' := by
      have e1 : S.length = l' + U * d' := by rw [Nat.mul_comm]; omega
      rw [e1, Nat.add_mul_div_left _ _ hU, Nat.div_eq_of_lt h2.lU, Nat.zero_add]
    rw [this]

/-- **C25** for ciphers.  If the peer closes after a proper byte prefix `S` of its
messages, then after any number of reads of any sizes the receive loop has not
been left, only whole messages of the prefix were delivered, and after as many
reads as bytes all of them were. -/
theorem C25_crash_ciphers (U : Nat) (hU : 0 < U) (hU2 : U ≤ bufferSize)
    (msgs : List (List Byte)) (hm : ∀ m ∈ msgs, m.length = U) (hN : msgs.length < 2 ^ 32) (S : List Byte)
    (hpre : S <+: msgs.flatten) (hlt : S.length < msgs.flatten.length)
    (mem : List Byte) (hmem : mem.length = bufferSize) (sched : List Nat) :
    ∃ r, Receiver.rounds sched ({ remaining := msgs.length, buf := CipherLogicalBuffer.new bufferSize U
                                  mem := mem, stream := S } : Receiver CipherLogicalBuffer) = .ok r ∧
      0 < r.remaining ∧ r.delivered <+: msgs.take (S.length / U) ∧
      (S.length ≤ sched.length → r.delivered = msgs.take (S.length / U)) :=
  c25 _ U hU hU2 (cipherLogicalBuffer_new _ _) msgs hm hN S hpre hlt mem hmem sched

/-- **C25** for queries, responses and secrets. -/
theorem C25_crash_typed (U : Nat) (hU : 0 < U) (hU2 : U ≤ bufferSize)
    (msgs : List (List Byte)) (hm : ∀ m ∈ msgs, m.length = U) (hN : msgs.length < 2 ^ 32) (S : List Byte)
    (hpre : S <+: msgs.flatten) (hlt : S.length < msgs.flatten.length)
    (mem : List Byte) (hmem : mem.length = bufferSize) (sched : List Nat) :
    ∃ r, Receiver.rounds sched ({ remaining := msgs.length, buf := LogicalBuffer.new bufferSize U
                                  mem := mem, stream := S } : Receiver LogicalBuffer) = .ok r ∧
      0 < r.remaining ∧ r.delivered <+: msgs.take (S.length / U) ∧
      (S.length ≤ sched.length → r.delivered = msgs.take (S.length / U)) :=
  c25 _ U hU hU2 (logicalBuffer_new _ _) msgs hm hN S hpre hlt mem hmem sched

/-- **C25** for counts and ready signals: an exact read of `n` bytes from a peer that
sends fewer never returns, whatever the read sizes. -/
theorem C25_crash_exact (choice : Nat → Nat) (fuel : Nat) (S : List Byte) (n : Nat) (got : List Byte)
    (h : S.length < n) : readExact choice fuel S n got = .error .hang := by
  induction fuel generalizing S n got with
  | zero => cases n with
    | zero => simp at h
    | succ n => rfl
  | succ fuel ih =>
    cases n with
    | zero => simp at h
    | succ n =>
      unfold readExact
      simp only
      apply ih
      have := kernelCount_le (choice fuel) (n + 1) S.length
      rw [List.length_drop]
      omega

/-- Exact reads (`ReadCount`, `WaitForReady`): with all bytes sent, `n` read calls
return exactly the next `n` bytes and leave the rest. -/
theorem C22_exact_reads (choice : Nat → Nat) (fuel : Nat) (S rest got : List Byte) (h : S.length ≤ fuel) :
    readExact choice fuel (S ++ rest) S.length got = .ok (got ++ S, rest) := by
  induction fuel generalizing S got with
  | zero =>
    have : S = [] := List.length_eq_zero_iff.mp (by omega)
    subst this
    simp [readExact]
  | succ fuel ih =>
    cases hS : S.length with
    | zero =>
      have : S = [] := List.length_eq_zero_iff.mp hS
      subst this
      simp [readExact]
    | succ n =>
      unfold readExact
      simp only
      obtain ⟨k, hk⟩ : ∃ k, k = kernelCount (choice fuel) (n + 1) (S ++ rest).length := ⟨_, rfl⟩
      rw [← hk]
      have h1 : k ≤ min (n + 1) (S ++ rest).length := hk ▸ kernelCount_le _ _ _
      have h2 : 0 < k := hk ▸ kernelCount_pos (by omega) (by simp; omega)
      have hd : (S ++ rest).drop k = S.drop k ++ rest := List.drop_append_of_le_length (by omega)
      have ht : (S ++ rest).take k = S.take k := List.take_append_of_le_length (by omega)
      rw [hd, ht]
      have h3 : n + 1 - k = (S.drop k).length := by simp; omega
      rw [h3, ih (S.drop k) (got ++ S.take k) (by simp; omega), List.append_assoc, List.take_append_drop]

private theorem c23 {β : Type} [Buffer β] [LawfulBuffer β] (U : Nat) (hU : 0 < U) (hU2 : U ≤ bufferSize)
    (ops : List (WriteOp × (Nat → Nat))) (hops : ∀ v, (∃ c, (WriteOp.send v, c) ∈ ops) → v.length = U)
    (buf : β) (mem wire sent : List Byte) (e : Nat) (hmem : mem.length = bufferSize)
    (h : WInv U (bufferSize / U) sent buf mem wire e) :
    ∃ buf' mem' wire' e', writeAll (buf, mem, wire) ops = .ok (buf', mem', wire') ∧ mem'.length = bufferSize ∧
      WInv U (bufferSize / U) (sent ++ (ops.map (fun o => o.1.msgs)).flatten) buf' mem' wire' e' := by
  obtain ⟨hC, hCU, hCS⟩ := fresh hU hU2
  induction ops generalizing buf mem wire sent e with
  | nil => exact ⟨buf, mem, wire, e, rfl, hmem, by simpa using h⟩
  | cons op t ih =>
    have ht : ∀ v, (∃ c, (WriteOp.send v, c) ∈ t) → v.length = U := by
      rintro v ⟨c, hc⟩
      exact hops v ⟨c, by simp [hc]⟩
    obtain ⟨o, choice⟩ := op
    cases o with
    | flush =>
      obtain ⟨b1, m1, e1, i1, l1⟩ := flush_ok hU h choice
      obtain ⟨b2, m2, w2, e2, q1, q2, q3⟩ := ih ht b1 m1 sent sent 0 (by omega) i1
      refine ⟨b2, m2, w2, e2, ?_, q2, ?_⟩
      · rw [← q1]
        show (do let s ← writeStep (buf, mem, wire) (WriteOp.flush, choice); t.foldlM writeStep s) = _
        simp only [writeStep, e1, bind_ok]
        rfl
      · simpa [WriteOp.msgs] using q3
    | send v =>
      have hv := hops v ⟨choice, by simp⟩
      obtain ⟨b1, m1, w1, k1, e1, i1, l1, -⟩ := sendOne_ok hU hCU h choice v hv
      obtain ⟨b2, m2, w2, e2, q1, q2, q3⟩ := ih ht b1 m1 w1 (sent ++ v) k1 (by omega) i1
      refine ⟨b2, m2, w2, e2, ?_, q2, ?_⟩
      · rw [← q1]
        show (do let s ← writeStep (buf, mem, wire) (WriteOp.send v, choice); t.foldlM writeStep s) = _
        simp only [writeStep, e1, bind_ok]
        rfl
      · simpa [WriteOp.msgs] using q3

private theorem c23' {β : Type} [Buffer β] [LawfulBuffer β] (U : Nat) (hU : 0 < U) (hU2 : U ≤ bufferSize)
    (buf : β) (hV : LawfulBuffer.V buf U (bufferSize / U) 0 0)
    (ops : List (WriteOp × (Nat → Nat))) (hops : ∀ v, (∃ c, (WriteOp.send v, c) ∈ ops) → v.length = U)
    (mem wire : List Byte) (hmem : mem.length = bufferSize) (last : Nat → Nat) :
    ∃ st, writeAll (buf, mem, wire) ops = .ok st ∧ st.2.2 <+: wire ++ (ops.map (fun o => o.1.msgs)).flatten ∧
      ∃ st', writeStep st (.flush, last) = .ok st' ∧ st'.2.2 = wire ++ (ops.map (fun o => o.1.msgs)).flatten := by
  obtain ⟨hC, hCU, hCS⟩ := fresh hU hU2
  obtain ⟨b, m, w, e, h1, h2, h3⟩ := c23 (β := β) U hU hU2 ops hops buf mem wire wire 0 hmem
    ⟨hV, hC, by omega, by simp⟩
  refine ⟨(b, m, w), h1, ⟨_, h3.sent⟩, ?_⟩
  obtain ⟨b1, m1, e1, i1, l1⟩ := flush_ok hU h3 last
  exact ⟨_, e1, rfl⟩

/-- **C23** for ciphers of any size that fits the buffer. Any sequence of sends and
flushes, with any partial sends by the kernel, stays in bounds; what is on the wire
is always a prefix of the concatenated messages, and all of it after a flush. -/
theorem C23_cipher_writes (U : Nat) (hU : 0 < U) (hU2 : U ≤ bufferSize)
    (ops : List (WriteOp × (Nat → Nat))) (hops : ∀ v, (∃ c, (WriteOp.send v, c) ∈ ops) → v.length = U)
    (mem wire : List Byte) (hmem : mem.length = bufferSize) (last : Nat → Nat) :
    ∃ st, writeAll (CipherLogicalBuffer.new bufferSize U, mem, wire) ops = .ok st ∧
      st.2.2 <+: wire ++ (ops.map (fun o => o.1.msgs)).flatten ∧
      ∃ st', writeStep st (.flush, last) = .ok st' ∧ st'.2.2 = wire ++ (ops.map (fun o => o.1.msgs)).flatten :=
  c23' U hU hU2 _ (cipherLogicalBuffer_new _ _) ops hops mem wire hmem last

/-- **C23** for queries, responses and secrets. -/
theorem C23_typed_writes (U : Nat) (hU : 0 < U) (hU2 : U ≤ bufferSize)
    (ops : List (WriteOp × (Nat → Nat))) (hops : ∀ v, (∃ c, (WriteOp.send v, c) ∈ ops) → v.length = U)
    (mem wire : List Byte) (hmem : mem.length = bufferSize) (last : Nat → Nat) :
    ∃ st, writeAll (LogicalBuffer.new bufferSize U, mem, wire) ops = .ok st ∧
      st.2.2 <+: wire ++ (ops.map (fun o => o.1.msgs)).flatten ∧
      ∃ st', writeStep st (.flush, last) = .ok st' ∧ st'.2.2 = wire ++ (ops.map (fun o => o.1.msgs)).flatten :=
  c23' U hU hU2 _ (logicalBuffer_new _ _) ops hops mem wire hmem last

private theorem sendPhase_ok {β : Type} [Buffer β] [LawfulBuffer β] {U : Nat} (hU : 0 < U) (hU2 : U ≤ bufferSize)
    (choice : Nat → Nat → Nat) (buf : β) (mem wire : List Byte) (hmem : mem.length = bufferSize)
    (hV : LawfulBuffer.V buf U (bufferSize / U) 0 0) (vs : List (List Byte)) (hvs : ∀ v ∈ vs, v.length = U) :
    ∃ buf' mem', sendPhase choice buf mem wire vs = .ok (buf', mem', wire ++ vs.flatten) ∧
      LawfulBuffer.V buf' U (bufferSize / U) 0 0 ∧ mem'.length = bufferSize := by
  obtain ⟨hC, hCU, hCS⟩ := fresh hU hU2
  have key : ∀ (l : List (List Byte × Nat)) (buf : β) (mem wire sent : List Byte) (e : Nat),
      (∀ v ∈ l, v.1.length = U) → mem.length = bufferSize → WInv U (bufferSize / U) sent buf mem wire e →
      ∃ buf' mem' wire' e', l.foldlM (fun (st : β × List Byte × List Byte) v =>
          sendOne (choice v.2) st.1 st.2.1 st.2.2 v.1) (buf, mem, wire) = .ok (buf', mem', wire') ∧
        mem'.length = bufferSize ∧
        WInv U (bufferSize / U) (sent ++ (l.map Prod.fst).flatten) buf' mem' wire' e' := by
    intro l
    induction l with
    | nil =>
      intro buf mem wire sent e _ hm hi
      exact ⟨buf, mem, wire, e, rfl, hm, by simpa using hi⟩
    | cons v t ih =>
      intro buf mem wire sent e hl hm hi
      obtain ⟨b1, m1, w1, k1, e1, i1, l1, -⟩ := sendOne_ok hU hCU hi (choice v.2) v.1 (hl v (by simp))
      obtain ⟨b2, m2, w2, e2, q1, q2, q3⟩ := ih b1 m1 w1 (sent ++ v.1) k1 (fun x hx => hl x (by simp [hx]))
        (by omega) i1
      refine ⟨b2, m2, w2, e2, ?_, q2, by simpa using q3⟩
      rw [List.foldlM_cons, e1, bind_ok, q1]
  obtain ⟨b, m, w, e, h1, h2, h3⟩ := key vs.zipIdx buf mem wire wire 0
    (fun v hv => hvs v.1 (by have := List.mem_zipIdx hv; simp at this; rw [this.2]; exact List.getElem_mem _))
    hmem ⟨hV, hC, by omega, by simp⟩
  obtain ⟨b1, m1, e1, i1, l1⟩ := flush_ok hU h3 (choice vs.length)
  refine ⟨b1, m1, ?_, i1.buf, by omega⟩
  unfold sendPhase
  rw [h1, bind_ok]
  simp only [e1]
  simp

/-- All buffers of a link are empty. -/
private structure Idle (cs : Nat) (k : PeerLink) : Prop where
  rmem : k.rmem.length = bufferSize
  wmem : k.wmem.length = bufferSize
  cr : LawfulBuffer.V k.cipherR cs (bufferSize / cs) 0 0
  cw : LawfulBuffer.V k.cipherW cs (bufferSize / cs) 0 0
  sr : LawfulBuffer.V k.secretR secretSize (bufferSize / secretSize) 0 0
  sw : LawfulBuffer.V k.secretW secretSize (bufferSize / secretSize) 0 0
  qr : LawfulBuffer.V k.queryR querySize (bufferSize / querySize) 0 0
  qw : LawfulBuffer.V k.queryW querySize (bufferSize / querySize) 0 0
  rr : LawfulBuffer.V k.responseR responseSize (bufferSize / responseSize) 0 0
  rw : LawfulBuffer.V k.responseW responseSize (bufferSize / responseSize) 0 0

private theorem idle_new (cs : Nat) (rmem wmem : List Byte) (h1 : rmem.length = bufferSize)
    (h2 : wmem.length = bufferSize) : Idle cs (PeerLink.new cs rmem wmem) :=
  ⟨h1, h2, cipherLogicalBuffer_new _ _, cipherLogicalBuffer_new _ _, logicalBuffer_new _ _, logicalBuffer_new _ _,
    logicalBuffer_new _ _, logicalBuffer_new _ _, logicalBuffer_new _ _, logicalBuffer_new _ _⟩

private def wireImage : Payload → List (List Byte)
  | .ciphers l => l
  | .secrets l => l.map OfflineSecret.encode
  | .queries l => l.map Query.encode
  | .responses l => l.map Response.encode

private theorem sendPayload_ok {cs : Nat} (hcs : 0 < cs) (hcs2 : cs ≤ bufferSize) (k : PeerLink) (hk : Idle cs k)
    (choice : Nat → Nat → Nat) (wire : List Byte) (p : Payload) (hp : p.Valid cs) :
    ∃ k', sendPayload k choice wire p = .ok (k', wire ++ (wireImage p).flatten) ∧ Idle cs k' := by
  cases p with
  | ciphers l =>
    obtain ⟨b, m, h1, h2, h3⟩ := sendPhase_ok hcs hcs2 choice k.cipherW k.wmem wire hk.wmem hk.cw l (hp.2 l rfl)
    refine ⟨{ k with cipherW := b, wmem := m }, by simp only [sendPayload, h1, bind_ok, wireImage], ?_⟩
    exact { hk with wmem := h3, cw := h2 }
  | secrets l =>
    obtain ⟨b, m, h1, h2, h3⟩ := sendPhase_ok (U := secretSize) (by decide) (by decide) choice k.secretW k.wmem wire
      hk.wmem hk.sw (l.map OfflineSecret.encode) (by simp)
    refine ⟨{ k with secretW := b, wmem := m }, by simp only [sendPayload, h1, bind_ok, wireImage], ?_⟩
    exact { hk with wmem := h3, sw := h2 }
  | queries l =>
    obtain ⟨b, m, h1, h2, h3⟩ := sendPhase_ok (U := querySize) (by decide) (by decide) choice k.queryW k.wmem wire
      hk.wmem hk.qw (l.map Query.encode) (by simp)
    refine ⟨{ k with queryW := b, wmem := m }, by simp only [sendPayload, h1, bind_ok, wireImage], ?_⟩
    exact { hk with wmem := h3, qw := h2 }
  | responses l =>
    obtain ⟨b, m, h1, h2, h3⟩ := sendPhase_ok (U := responseSize) (by decide) (by decide) choice k.responseW k.wmem wire
      hk.wmem hk.rw (l.map Response.encode) (by simp)
    refine ⟨{ k with responseW := b, wmem := m }, by simp only [sendPayload, h1, bind_ok, wireImage], ?_⟩
    exact { hk with wmem := h3, rw := h2 }

private theorem recv_phase {β : Type} [Buffer β] [LawfulBuffer β] {buf : β} {U : Nat} (hU : 0 < U)
    (hU2 : U ≤ bufferSize) (hV : LawfulBuffer.V buf U (bufferSize / U) 0 0)
    (msgs : List (List Byte)) (hm : ∀ m ∈ msgs, m.length = U) (n : Nat) (hn : n = msgs.length)
    (hN : msgs.length < 2 ^ 32) (rest mem : List Byte) (hmem : mem.length = bufferSize) (sched : List Nat)
    (hs : msgs.length * U ≤ sched.length) :
    ∃ buf' mem', Receiver.rounds sched
        ({ remaining := n, buf := buf, mem := mem, stream := msgs.flatten ++ rest } : Receiver β) =
        .ok { remaining := 0, delivered := msgs, buf := buf', mem := mem', stream := rest } ∧
      LawfulBuffer.V buf' U (bufferSize / U) 0 0 ∧ mem'.length = bufferSize := by
  obtain ⟨hC, hCU, hCS⟩ := fresh hU hU2
  subst hn
  obtain ⟨b, m, h1, h2, h3⟩ := recv_ok hV hU hC hCU msgs hm hN rest mem (by omega) sched hs
  exact ⟨b, m, h1, h2, by omega⟩

private theorem recvPayload_ok {cs : Nat} (hcs : 0 < cs) (hcs2 : cs ≤ bufferSize) (k : PeerLink) (hk : Idle cs k)
    (sched : List Nat) (rest : List Byte) (p : Payload) (hp : p.Valid cs)
    (hs : p.count * p.unit cs ≤ sched.length) :
    ∃ k', recvPayload k sched ((wireImage p).flatten ++ rest) p = .ok (k', p, rest) ∧ Idle cs k' := by
  cases p with
  | ciphers l =>
    obtain ⟨b, m, h1, h2, h3⟩ := recv_phase hcs hcs2 hk.cr l (hp.2 l rfl) _ rfl hp.1 rest k.rmem hk.rmem sched hs
    refine ⟨{ k with cipherR := b, rmem := m }, ?_, { hk with rmem := h3, cr := h2 }⟩
    simp only [recvPayload, wireImage, Payload.count, h1, bind_ok, if_true]
  | secrets l =>
    obtain ⟨b, m, h1, h2, h3⟩ := recv_phase (U := secretSize) (by decide) (by decide) hk.sr
      (l.map OfflineSecret.encode) (by simp) l.length (by simp) (by simpa [Payload.count] using hp.1) rest k.rmem hk.rmem sched
      (by simpa [Payload.count, Payload.unit] using hs)
    refine ⟨{ k with secretR := b, rmem := m }, ?_, { hk with rmem := h3, sr := h2 }⟩
    simp only [recvPayload, wireImage, Payload.count, h1, bind_ok, if_true, List.map_map]
    congr 3
    simp [Function.comp_def, OfflineSecret.decode_encode]
  | queries l =>
    obtain ⟨b, m, h1, h2, h3⟩ := recv_phase (U := querySize) (by decide) (by decide) hk.qr
      (l.map Query.encode) (by simp) l.length (by simp) (by simpa [Payload.count] using hp.1) rest k.rmem hk.rmem sched
      (by simpa [Payload.count, Payload.unit] using hs)
    refine ⟨{ k with queryR := b, rmem := m }, ?_, { hk with rmem := h3, qr := h2 }⟩
    simp only [recvPayload, wireImage, Payload.count, h1, bind_ok, if_true, List.map_map]
    congr 3
    simp [Function.comp_def, Query.decode_encode]
  | responses l =>
    obtain ⟨b, m, h1, h2, h3⟩ := recv_phase (U := responseSize) (by decide) (by decide) hk.rr
      (l.map Response.encode) (by simp) l.length (by simp) (by simpa [Payload.count] using hp.1) rest k.rmem hk.rmem sched
      (by simpa [Payload.count, Payload.unit] using hs)
    refine ⟨{ k with responseR := b, rmem := m }, ?_, { hk with rmem := h3, rr := h2 }⟩
    simp only [recvPayload, wireImage, Payload.count, h1, bind_ok, if_true, List.map_map]
    congr 3
    simp [Function.comp_def, Response.decode_encode]

/-- **C24** (sibling links). Any sequence of phases of ciphers, secrets, queries and
responses, in any order, written through one end of a link and read through the
other arrives as the same values, nothing is left over on the wire, whatever the
initial contents of the shared physical buffers and whatever the sizes of partial
sends and reads. -/
theorem C24_sibling_link (cs : Nat) (hcs : 0 < cs) (hcs2 : cs ≤ bufferSize)
    (rmem wmem rmem' wmem' : List Byte) (h1 : rmem.length = bufferSize) (h2 : wmem.length = bufferSize)
    (h3 : rmem'.length = bufferSize) (h4 : wmem'.length = bufferSize) (phases : List Phase)
    (hv : ∀ p ∈ phases, p.payload.Valid cs ∧ p.payload.count * p.payload.unit cs ≤ p.reads.length) :
    ∃ a b wire, sendPhases (PeerLink.new cs rmem wmem) [] phases = .ok (a, wire) ∧
      recvPhases (PeerLink.new cs rmem' wmem') wire phases = .ok (b, phases.map Phase.payload, []) := by
  have hsend : ∀ (ps : List Phase) (k : PeerLink) (wire : List Byte), Idle cs k →
      (∀ p ∈ ps, p.payload.Valid cs) →
      ∃ k', sendPhases k wire ps = .ok (k', wire ++ (ps.map (fun p => (wireImage p.payload).flatten)).flatten) := by
    intro ps
    induction ps with
    | nil => intro k wire _ _; exact ⟨k, by simp [sendPhases]⟩
    | cons p t ih =>
      intro k wire hk hp
      obtain ⟨k1, e1, i1⟩ := sendPayload_ok hcs hcs2 k hk p.sends wire p.payload (hp p (by simp))
      obtain ⟨k2, e2⟩ := ih k1 _ i1 (fun q hq => hp q (by simp [hq]))
      refine ⟨k2, ?_⟩
      simp only [sendPhases, e1, bind_ok, List.map_cons, List.flatten_cons, ← List.append_assoc]
      exact e2
  have hrecv : ∀ (ps : List Phase) (k : PeerLink), Idle cs k →
      (∀ p ∈ ps, p.payload.Valid cs ∧ p.payload.count * p.payload.unit cs ≤ p.reads.length) →
      ∃ k', recvPhases k (ps.map (fun p => (wireImage p.payload).flatten)).flatten ps =
        .ok (k', ps.map Phase.payload, []) := by
    intro ps
    induction ps with
    | nil => intro k _ _; exact ⟨k, by simp [recvPhases]⟩
    | cons p t ih =>
      intro k hk hp
      obtain ⟨k1, e1, i1⟩ := recvPayload_ok hcs hcs2 k hk p.reads
        (t.map (fun p => (wireImage p.payload).flatten)).flatten p.payload (hp p (by simp)).1 (hp p (by simp)).2
      obtain ⟨k2, e2⟩ := ih k1 i1 (fun q hq => hp q (by simp [hq]))
      exact ⟨k2, by simp only [recvPhases, List.map_cons, List.flatten_cons, e1, bind_ok, e2]⟩
  obtain ⟨a, ha⟩ := hsend phases (PeerLink.new cs rmem wmem) [] (idle_new cs _ _ h1 h2) (fun p hp => (hv p hp).1)
  obtain ⟨b, hb⟩ := hrecv phases (PeerLink.new cs rmem' wmem') (idle_new cs _ _ h3 h4) hv
  exact ⟨a, b, _, ha, by simpa using hb⟩

/-- **C24** (party chain). The phases of a client/party connection: ciphers, then
queries, and responses back, all arrive as the values that were sent. -/
theorem C24_chain_link (cs : Nat) (hcs : 0 < cs) (hcs2 : cs ≤ bufferSize)
    (rm wm rm' wm' : List Byte) (h1 : rm.length = bufferSize) (h2 : wm.length = bufferSize)
    (h3 : rm'.length = bufferSize) (h4 : wm'.length = bufferSize)
    (ciphers : List (List Byte)) (hc : ∀ c ∈ ciphers, c.length = cs) (queries : List Query)
    (responses : List Response) (hn1 : ciphers.length < 2 ^ 32) (hn2 : queries.length < 2 ^ 32)
    (hn3 : responses.length < 2 ^ 32) (ch1 ch2 ch3 : Nat → Nat → Nat) (f1 f2 f3 : Nat → Nat)
    (sched1 sched2 sched3 : List Nat) (hs1 : ciphers.length * cs ≤ sched1.length)
    (hs2 : queries.length * 12 ≤ sched2.length) (hs3 : responses.length * 52 ≤ sched3.length) :
    (do
      let (c, w) ← sendCiphers (ClientSocket.new cs rm wm) ch1 [] ciphers
      let (c, w) ← c.flushCiphers f1 w
      let (c, w) ← sendQueries c ch2 w queries
      let (c, w) ← c.flushQueries f2 w
      let (s, gotC, n1, w) ← (ServerSocket.new cs rm' wm').recvCiphers sched1 ciphers.length w
      let (s, gotQ, n2, w) ← s.recvQueries sched2 queries.length w
      let (s, v) ← sendResponses s ch3 [] responses
      let (_, v) ← s.flushResponses f3 v
      let (_, gotR, n3, v) ← c.recvResponses sched3 responses.length v
      .ok ((gotC, n1), (gotQ, n2, w), (gotR, n3, v)) : Res _) =
    .ok ((ciphers, 0), (queries, 0, []), (responses, 0, [])) := by
  obtain ⟨hC, hCU, hCS⟩ := fresh hcs hcs2
  -- ciphers out
  have k1 : ∀ (l : List (List Byte × Nat)) (c : ClientSocket) (wire sent : List Byte) (e : Nat),
      (∀ v ∈ l, v.1.length = cs) → c.wmem.length = bufferSize →
      WInv cs (bufferSize / cs) sent c.cipherW c.wmem wire e →
      ∃ b m w e', l.foldlM (fun st c => st.1.sendCipher (ch1 c.2) st.2 c.1) (c, wire) =
          .ok ({ c with cipherW := b, wmem := m }, w) ∧ m.length = bufferSize ∧
        WInv cs (bufferSize / cs) (sent ++ (l.map Prod.fst).flatten) b m w e' := by
    intro l
    induction l with
    | nil => intro c wire sent e _ hm hi; exact ⟨c.cipherW, c.wmem, wire, e, rfl, hm, by simpa using hi⟩
    | cons v t ih =>
      intro c wire sent e hl hm hi
      obtain ⟨b1, m1, w1, e1, q1, i1, l1, -⟩ := sendOne_ok hcs hCU hi (ch1 v.2) v.1 (hl v (by simp))
      obtain ⟨b2, m2, w2, e2, q2, l2, i2⟩ := ih { c with cipherW := b1, wmem := m1 } w1 (sent ++ v.1) e1
        (fun x hx => hl x (by simp [hx])) (by simp only; omega) i1
      refine ⟨b2, m2, w2, e2, ?_, l2, by simpa using i2⟩
      rw [List.foldlM_cons]
      simp only [ClientSocket.sendCipher, q1, bind_ok]
      exact q2
  have fst_zipIdx : ∀ {α : Type} (l : List α) (v : α × Nat), v ∈ l.zipIdx → v.1 ∈ l := by
    intro α l v hv
    have := List.mem_zipIdx hv
    simp at this
    rw [this.2]; exact List.getElem_mem _
  obtain ⟨b1, m1, w1, e1, q1, l1, i1⟩ := k1 ciphers.zipIdx (ClientSocket.new cs rm wm) [] [] 0
    (fun v hv => hc v.1 (fst_zipIdx _ _ hv)) h2 ⟨cipherLogicalBuffer_new _ _, hC, by
      show _ ≤ wm.length
      omega, by simp⟩
  obtain ⟨b2, m2, q2, i2, l2⟩ := flush_ok hcs i1 f1
  have hz1 : ciphers.zipIdx.map Prod.fst = ciphers := by simp
  rw [hz1, List.nil_append] at q2
  -- queries out
  have hqf : 0 < bufferSize / querySize ∧ bufferSize / querySize * querySize < 2 ^ 32 ∧
      bufferSize / querySize * querySize ≤ bufferSize := by decide
  have k3 : ∀ (l : List (Query × Nat)) (c : ClientSocket) (wire sent : List Byte) (e : Nat),
      c.wmem.length = bufferSize →
      WInv querySize (bufferSize / querySize) sent c.queryW c.wmem wire e →
      ∃ b m w e', l.foldlM (fun st c => st.1.sendQuery (ch2 c.2) st.2 c.1) (c, wire) =
          .ok ({ c with queryW := b, wmem := m }, w) ∧ m.length = bufferSize ∧
        WInv querySize (bufferSize / querySize) (sent ++ (l.map (fun v => v.1.encode)).flatten) b m w e' := by
    intro l
    induction l with
    | nil => intro c wire sent e hm hi; exact ⟨c.queryW, c.wmem, wire, e, rfl, hm, by simpa using hi⟩
    | cons v t ih =>
      intro c wire sent e hm hi
      obtain ⟨b1, m1, w1, e1, q1, i1, l1, -⟩ := sendOne_ok (by decide) hqf.2.1 hi (ch2 v.2) v.1.encode (by simp)
      obtain ⟨b2, m2, w2, e2, q2, l2, i2⟩ := ih { c with queryW := b1, wmem := m1 } w1 (sent ++ v.1.encode) e1
        (by simp only; omega) i1
      refine ⟨b2, m2, w2, e2, ?_, l2, by simpa using i2⟩
      rw [List.foldlM_cons]
      simp only [ClientSocket.sendQuery, q1, bind_ok]
      exact q2
  obtain ⟨b3, m3, w3, e3, q3, l3, i3⟩ := k3 queries.zipIdx
    { rmem := rm, wmem := m2, cipherW := b2, queryW := LogicalBuffer.new bufferSize querySize,
      responseR := LogicalBuffer.new bufferSize responseSize } ciphers.flatten ciphers.flatten 0
    (by simp only; omega) ⟨logicalBuffer_new _ _, hqf.1, by simp only; omega, by simp⟩
  obtain ⟨b4, m4, q4, i4, l4⟩ := flush_ok (by decide) i3 f2
  -- responses out
  have hrf : 0 < bufferSize / responseSize ∧ bufferSize / responseSize * responseSize < 2 ^ 32 ∧
      bufferSize / responseSize * responseSize ≤ bufferSize := by decide
  have k5 : ∀ (l : List (Response × Nat)) (c : ServerSocket) (wire sent : List Byte) (e : Nat),
      c.wmem.length = bufferSize →
      WInv responseSize (bufferSize / responseSize) sent c.responseW c.wmem wire e →
      ∃ b m w e', l.foldlM (fun st c => st.1.sendResponse (ch3 c.2) st.2 c.1) (c, wire) =
          .ok ({ c with responseW := b, wmem := m }, w) ∧ m.length = bufferSize ∧
        WInv responseSize (bufferSize / responseSize) (sent ++ (l.map (fun v => v.1.encode)).flatten) b m w e' := by
    intro l
    induction l with
    | nil => intro c wire sent e hm hi; exact ⟨c.responseW, c.wmem, wire, e, rfl, hm, by simpa using hi⟩
    | cons v t ih =>
      intro c wire sent e hm hi
      obtain ⟨b1, m1, w1, e1, q1, i1, l1, -⟩ := sendOne_ok (by decide) hrf.2.1 hi (ch3 v.2) v.1.encode (by simp)
      obtain ⟨b2, m2, w2, e2, q2, l2, i2⟩ := ih { c with responseW := b1, wmem := m1 } w1 (sent ++ v.1.encode) e1
        (by simp only; omega) i1
      refine ⟨b2, m2, w2, e2, ?_, l2, by simpa using i2⟩
      rw [List.foldlM_cons]
      simp only [ServerSocket.sendResponse, q1, bind_ok]
      exact q2
  -- ciphers and queries in
  have hz2 : (queries.zipIdx.map (fun v => v.1.encode)) = queries.map Query.encode := by
    rw [show (fun v : Query × Nat => v.1.encode) = Query.encode ∘ Prod.fst from rfl, ← List.map_map]; simp
  have hz3 : (responses.zipIdx.map (fun v => v.1.encode)) = responses.map Response.encode := by
    rw [show (fun v : Response × Nat => v.1.encode) = Response.encode ∘ Prod.fst from rfl, ← List.map_map]; simp
  obtain ⟨b6, m6, q6, v6, l6⟩ := recv_phase hcs hcs2 (cipherLogicalBuffer_new _ _) ciphers hc _ rfl hn1
    (queries.map Query.encode).flatten rm' h3 sched1 hs1
  obtain ⟨b7, m7, q7, v7, l7⟩ := recv_phase (U := querySize) (by decide) (by decide) (logicalBuffer_new _ _)
    (queries.map Query.encode) (by simp) queries.length (by simp) (by simpa using hn2) [] m6 l6 sched2 (by simpa using hs2)
  obtain ⟨b8, m8, w8, e8, q8, l8, i8⟩ := k5 responses.zipIdx
    { rmem := m7, wmem := wm', cipherR := b6, queryR := b7, responseW := LogicalBuffer.new bufferSize responseSize }
    [] [] 0 h4 ⟨logicalBuffer_new _ _, hrf.1, by simp only; omega, by simp⟩
  obtain ⟨b9, m9, q9, i9, l9⟩ := flush_ok (by decide) i8 f3
  obtain ⟨b10, m10, q10, v10, l10⟩ := recv_phase (U := responseSize) (by decide) (by decide) (logicalBuffer_new _ _)
    (responses.map Response.encode) (by simp) responses.length (by simp) (by simpa using hn3) [] rm h1 sched3
    (by simpa using hs3)
  rw [hz2] at q4
  rw [List.append_nil] at q7 q10
  rw [hz3, List.nil_append] at q9
  simp only [sendCiphers, q1, bind_ok, ClientSocket.flushCiphers, q2]
  simp only [sendQueries, ClientSocket.new, q3, bind_ok, ClientSocket.flushQueries, q4]
  simp only [ServerSocket.recvCiphers, ServerSocket.new, q6, bind_ok, ServerSocket.recvQueries, q7]
  simp only [sendResponses, q8, bind_ok, ServerSocket.flushResponses, q9]
  simp only [ClientSocket.recvResponses, q10, bind_ok, List.map_map]
  simp [Function.comp_def, Response.decode_encode, Query.decode_encode]

/-! ### Non-vacuity

A stream of two 3-byte messages followed by a foreign byte, read in pieces of 1
and more bytes; a crash after 4 of its 6 bytes; five sends with a flush between. -/

example : ∃ (msgs : List (List Byte)) (S : List Byte), (∀ m ∈ msgs, m.length = 3) ∧ msgs.length < 2 ^ 32 ∧
    S <+: msgs.flatten ∧ S.length < msgs.flatten.length ∧ S.length / 3 = 1 :=
  ⟨[[1, 2, 3], [4, 5, 6]], [1, 2, 3, 4], by simp, by simp, ⟨[5, 6], rfl⟩, by simp, rfl⟩

/-- A small buffer (10 bytes, messages of 3): 1-byte reads, then larger ones. -/
example : (Receiver.rounds [0, 0, 7, 1, 2, 3]
    ({ remaining := 2, buf := LogicalBuffer.new 10 3, mem := List.replicate 10 9,
       stream := [1, 2, 3, 4, 5, 6, 7] } : Receiver LogicalBuffer)).map (fun r => (r.remaining, r.delivered, r.stream)) =
    .ok (0, [[1, 2, 3], [4, 5, 6]], [7]) := by decide +kernel

/-- The same peer crashing after 4 bytes: the loop is still waiting. -/
example : (Receiver.rounds [0, 0, 7, 1, 2, 3, 4, 5]
    ({ remaining := 2, buf := LogicalBuffer.new 10 3, mem := List.replicate 10 9,
       stream := [1, 2, 3, 4] } : Receiver LogicalBuffer)).map (fun r => (r.remaining, r.delivered, r.stream)) =
    .ok (1, [[1, 2, 3]], []) := by decide +kernel

/-- Sends that fill the buffer (3 messages fit) and explicit flushes. -/
example : (writeAll (LogicalBuffer.new 10 3, List.replicate 10 9, [])
    [(.send [1, 2, 3], id), (.flush, id), (.send [4, 5, 6], id), (.send [7, 8, 9], id), (.send [1, 1, 1], id),
     (.send [2, 2, 2], id), (.flush, fun _ => 0)]).map (fun st => st.2.2) =
    .ok [1, 2, 3, 4, 5, 6, 7, 8, 9, 1, 1, 1, 2, 2, 2] := by decide +kernel

example : ∃ phases : List Phase, phases.length = 3 ∧
    ∀ p ∈ phases, p.payload.Valid 5 ∧ p.payload.count * p.payload.unit 5 ≤ p.reads.length :=
  ⟨[⟨.ciphers [[1, 2, 3, 4, 5]], fun _ _ => 0, List.replicate 5 0⟩,
    ⟨.queries [⟨1, 2⟩, ⟨3, 4⟩], fun _ _ => 1, List.replicate 24 3⟩,
    ⟨.responses [⟨7, fun _ => 1⟩], fun _ _ => 2, List.replicate 60 9⟩], rfl, by
      intro p hp
      simp only [List.mem_cons, List.not_mem_nil, or_false] at hp
      rcases hp with rfl | rfl | rfl
      · refine ⟨⟨by decide, ?_⟩, by decide⟩
        intro l hl c hc
        cases hl
        simp at hc
        simp [hc]
      · exact ⟨⟨by decide, by intro l hl; cases hl⟩, by decide⟩
      · exact ⟨⟨by decide, by intro l hl; cases hl⟩, by decide⟩⟩

end DPPIR.Props
