import Verif.Proofs.Containers

/-!
# Lemmas on sockets
-/

namespace DPPIR.Sockets
open DPPIR

theorem kernelCount_le (choice n avail : Nat) : kernelCount choice n avail ≤ min n avail := by
  unfold kernelCount
  split
  · omega
  · have := Nat.mod_lt choice (show min n avail > 0 by omega)
    omega

theorem kernelCount_pos {choice n avail : Nat} (hn : 0 < n) (ha : 0 < avail) : 0 < kernelCount choice n avail := by
  unfold kernelCount
  split <;> omega

/-! ## Reading -/

variable {β : Type} [Buffer β] [LawfulBuffer β]

/-- State of a receive loop that expects `N` messages of `U` bytes from a peer that
will ever send `S`: `d` messages delivered, `l` bytes of the next one read. -/
structure RInv (S : List Byte) (U C N : Nat) (r : Receiver β) (d l : Nat) : Prop where
  buf : LawfulBuffer.V r.buf U C 0 l
  lU : l < U
  dN : d ≤ N
  end0 : d = N → l = 0
  avail : d * U + l ≤ S.length
  rem : r.remaining = N - d
  del : r.delivered = chunks U d S
  memLen : C * U ≤ r.mem.length
  mem : r.mem.take l = (S.drop (d * U)).take l
  stream : r.stream = S.drop (d * U + l)

theorem round_ok {S : List Byte} {U C N : Nat} {r : Receiver β} {d l : Nat} (hC : 0 < C)
    (hCU : C * U < 2 ^ 32) (hNU : N * U < 2 ^ 64) (hN : N < 2 ^ 32) (choice : Nat) (h : RInv S U C N r d l) :
    ∃ r' d' l', r.round choice = .ok r' ∧ RInv S U C N r' d' l' ∧ r'.mem.length = r.mem.length ∧
      d * U + l ≤ d' * U + l' ∧ (d < N → d * U + l < S.length → d * U + l < d' * U + l') := by
  obtain ⟨hV, hl, hd, hend, hav, hrem, hdel, hml, hmem, hst⟩ := h
  unfold Receiver.round
  by_cases hdn : d = N
  · have hr0 : r.remaining = 0 := by omega
    exact ⟨r, d, l, by rw [if_pos hr0], ⟨hV, hl, hd, hend, hav, hrem, hdel, hml, hmem, hst⟩, rfl, by omega,
      fun h => by omega⟩
  have hr0 : ¬ r.remaining = 0 := by omega
  rw [if_neg hr0]
  have hU : 0 < U := by omega
  -- the read
  have hC1 : 1 * U ≤ C * U := Nat.mul_le_mul_right _ hC
  have hcap : Buffer.bufferCapacity r.buf = C * U - l := LawfulBuffer.bufferCapacity hV (by omega) (by omega)
  have hrU : (N - d) * U ≤ N * U := Nat.mul_le_mul_right _ (by omega)
  have hrU1 : 1 * U ≤ (N - d) * U := Nat.mul_le_mul_right _ (by omega)
  have hcount : wrap64 (r.remaining * Buffer.unitSize r.buf + 2 ^ 64 - Buffer.leftover r.buf) = (N - d) * U - l := by
    rw [LawfulBuffer.unitSize hV, LawfulBuffer.leftover hV, hrem]
    exact wrap64_sub (by omega) (by omega)
  obtain ⟨want, hwant⟩ : ∃ w, w = if C * U - l < (N - d) * U - l then C * U - l else (N - d) * U - l := ⟨_, rfl⟩
  have hw0 : 0 < want := by rw [hwant]; split <;> omega
  have hw1 : l + want ≤ C * U := by rw [hwant]; split <;> omega
  have hw2 : l + want ≤ (N - d) * U := by rw [hwant]; split <;> omega
  obtain ⟨k, hk⟩ : ∃ k, k = kernelCount choice want r.stream.length := ⟨_, rfl⟩
  have hkle : k ≤ min want r.stream.length := hk ▸ kernelCount_le _ _ _
  have hslen : r.stream.length = S.length - (d * U + l) := by rw [hst, List.length_drop]
  have htl : (r.stream.take k).length = k := by simp; omega
  have hle : l + (r.stream.take k).length ≤ r.mem.length := by omega
  have hread : Sockets.read choice r.remaining r.stream r.mem r.buf =
      .ok (Buffer.update r.buf k, r.mem.take l ++ r.stream.take k ++ r.mem.drop (l + (r.stream.take k).length),
        r.stream.drop k) := by
    unfold Sockets.read readSome
    simp only [hcap, hcount, LawfulBuffer.toBuffer hV]
    rw [← hwant, if_pos (by omega), ← hk, blit_ok hle]
    rfl
  rw [hread, bind_ok]
  -- the new memory
  obtain ⟨mem1, hm1⟩ : ∃ m, m = r.mem.take l ++ r.stream.take k ++ r.mem.drop (l + (r.stream.take k).length) := ⟨_, rfl⟩
  simp only [← hm1]
  have hm1len : mem1.length = r.mem.length := by rw [hm1]; simp; omega
  have hm1take : mem1.take (l + k) = (S.drop (d * U)).take (l + k) := by
    have := take_blit hle
    rw [← hm1, htl] at this
    rw [this, hmem, hst, List.take_add, List.drop_drop]
  have hdiv := Nat.div_add_mod (k + l) U
  rw [Nat.mul_comm] at hdiv
  have hmod := Nat.mod_lt (k + l) hU
  obtain ⟨e, he⟩ : ∃ e, e = (k + l) / U := ⟨_, rfl⟩
  obtain ⟨l', hl'⟩ : ∃ e, e = (k + l) % U := ⟨_, rfl⟩
  rw [← he, ← hl'] at hdiv
  rw [← hl'] at hmod
  have heC : e ≤ C := by
    rw [he]
    calc (k + l) / U ≤ (C * U) / U := Nat.div_le_div_right (by omega)
      _ = C := Nat.mul_div_cancel _ hU
  have heN : e ≤ N - d := by
    rw [he]
    calc (k + l) / U ≤ ((N - d) * U) / U := Nat.div_le_div_right (by omega)
      _ = N - d := Nat.mul_div_cancel _ hU
  have hCle : C ≤ C * U := Nat.le_mul_of_pos_right _ hU
  have hV1 := LawfulBuffer.update (n := k) hV hU (by rw [← he]; omega)
  rw [← he, ← hl'] at hV1
  rw [LawfulBuffer.elements hV1 hU (by omega), bind_ok]
  obtain ⟨buf2, mem2, hclr, hV2, hm2len, hm2take⟩ := LawfulBuffer.clear (mem := mem1) hV1 hU hmod (by omega)
  rw [hclr, bind_ok]
  have hdeU : (d + e) * U = d * U + e * U := by ring
  refine ⟨_, d + e, l', rfl, ⟨hV2, hmod, by omega, ?_, by omega, ?_, ?_, ?_, ?_, ?_⟩, ?_, by omega, ?_⟩
  · intro hde
    have : e * U = (N - d) * U := by rw [show e = N - d by omega]
    omega
  · simp only [chunks_length, wrap32]
    rw [hrem]
    rw [show N - d + 2 ^ 32 - e = (N - (d + e)) + 2 ^ 32 by omega, Nat.add_mod_right]
    exact Nat.mod_eq_of_lt (by omega)
  · simp only
    rw [chunks_add, hdel]
    congr 1
    rw [← chunks_take U e (l + k) mem1 (by omega), hm1take, chunks_take _ _ _ _ (by omega)]
  · simp only
    omega
  · simp only
    rw [hm2take]
    have hdt : ∀ (x : List Byte), (x.drop (e * U)).take l' = ((x.take (l + k)).drop (e * U)) := by
      intro x
      rw [List.drop_take]
      congr 1
      omega
    rw [hdt mem1, hm1take, ← hdt, List.drop_drop, hdeU]
  · simp only
    rw [hst, List.drop_drop]
    congr 1
    omega
  · simp only
    omega
  · intro _ hS
    have : 0 < k := hk ▸ kernelCount_pos hw0 (by omega)
    omega

/-- Any number of rounds preserves the invariant; each makes progress while
messages are missing and bytes are to come. -/
theorem rounds_ok {S : List Byte} {U C N : Nat} (hC : 0 < C) (hCU : C * U < 2 ^ 32) (hNU : N * U < 2 ^ 64)
    (hN : N < 2 ^ 32) (sched : List Nat) (r : Receiver β) (d l : Nat) (h : RInv S U C N r d l) :
    ∃ r' d' l', Receiver.rounds sched r = .ok r' ∧ RInv S U C N r' d' l' ∧ r'.mem.length = r.mem.length ∧
      (N ≤ d' ∨ S.length ≤ d' * U + l' ∨ d * U + l + sched.length ≤ d' * U + l') := by
  induction sched generalizing r d l with
  | nil => exact ⟨r, d, l, rfl, h, rfl, by simp⟩
  | cons c t ih =>
    obtain ⟨r1, d1, l1, e1, i1, m1, p1, q1⟩ := round_ok hC hCU hNU hN c h
    obtain ⟨r2, d2, l2, e2, i2, m2, p2⟩ := ih r1 d1 l1 i1
    refine ⟨r2, d2, l2, by simp only [Receiver.rounds, e1, bind_ok, e2], i2, by omega, ?_⟩
    by_cases hdN : d < N
    · by_cases hS : d * U + l < S.length
      · have := q1 hdN hS
        simp only [List.length_cons]
        omega
      · right; left
        rcases p2 with p2 | p2 | p2
        · have : N * U ≤ d2 * U := Nat.mul_le_mul_right _ p2
          have h3 := i2.avail
          have : (d + 1) * U ≤ N * U := Nat.mul_le_mul_right _ hdN
          have : (d + 1) * U = d * U + U := by ring
          have := h.avail
          have := h.lU
          omega
        · exact p2
        · omega
    · have : N ≤ d1 := by
        by_contra hlt
        have : (d1 + 1) * U ≤ N * U := Nat.mul_le_mul_right _ (by omega)
        have : (d1 + 1) * U = d1 * U + U := by ring
        have : N * U ≤ d * U := Nat.mul_le_mul_right _ (by omega)
        have := i1.lU
        omega
      left
      have h3 := i1.dN
      have h4 := i2.dN
      have hd1 : d1 = N := by omega
      by_contra hlt
      have h5 : (d2 + 1) * U ≤ N * U := Nat.mul_le_mul_right _ (by omega)
      have : (d2 + 1) * U = d2 * U + U := by ring
      have := i2.lU
      have := i1.avail
      have := i2.avail
      subst hd1
      rcases p2 with p2 | p2 | p2 <;> omega

/-- A completed receive: every schedule long enough delivers exactly the messages,
leaves the rest of the stream, and leaves the buffer empty. -/
theorem recv_ok {buf : β} {U C : Nat} (hV : LawfulBuffer.V buf U C 0 0) (hU : 0 < U) (hC : 0 < C)
    (hCU : C * U < 2 ^ 32) (msgs : List (List Byte)) (hm : ∀ m ∈ msgs, m.length = U)
    (hN : msgs.length < 2 ^ 32) (rest mem : List Byte) (hmem : C * U ≤ mem.length) (sched : List Nat)
    (hs : msgs.length * U ≤ sched.length) :
    ∃ buf' mem', Receiver.rounds sched
        ({ remaining := msgs.length, buf := buf, mem := mem, stream := msgs.flatten ++ rest } : Receiver β) =
        .ok { remaining := 0, delivered := msgs, buf := buf', mem := mem', stream := rest } ∧
      LawfulBuffer.V buf' U C 0 0 ∧ mem'.length = mem.length := by
  have hfl := flatten_length U msgs hm
  have hUle : U ≤ C * U := Nat.le_mul_of_pos_left _ hC
  have hNU : msgs.length * U < 2 ^ 64 := by
    have h1 : msgs.length * U ≤ 2 ^ 32 * U := Nat.mul_le_mul_right _ (by omega)
    have h2 : 2 ^ 32 * U < 2 ^ 32 * 2 ^ 32 := Nat.mul_lt_mul_of_pos_left (by omega) (by norm_num)
    have h3 : (2 : Nat) ^ 32 * 2 ^ 32 = 2 ^ 64 := by norm_num
    omega
  obtain ⟨r', d', l', h1, h2, h3, h4⟩ := rounds_ok (S := msgs.flatten ++ rest) (N := msgs.length) hC hCU hNU hN sched
    ({ remaining := msgs.length, buf := buf, mem := mem, stream := msgs.flatten ++ rest } : Receiver β) 0 0
    ⟨hV, hU, by omega, fun _ => rfl, by simp, by simp, by simp [chunks], hmem, by simp, by simp⟩
  have hd : d' = msgs.length := by
    by_contra hne
    have h5 := h2.dN
    have h6 : (d' + 1) * U ≤ msgs.length * U := Nat.mul_le_mul_right _ (by omega)
    have h7 : (d' + 1) * U = d' * U + U := by ring
    have h8 := h2.lU
    have : (msgs.flatten ++ rest).length = msgs.length * U + rest.length := by rw [List.length_append, hfl]
    rcases h4 with h4 | h4 | h4 <;> omega
  have hl0 := h2.end0 hd
  subst hl0
  subst hd
  refine ⟨r'.buf, r'.mem, ?_, h2.buf, h3⟩
  rw [h1]
  congr 1
  cases r' with
  | mk rem del b m st =>
    have e1 := h2.rem
    have e2 := h2.del
    have e3 := h2.stream
    simp only at e1 e2 e3 ⊢
    rw [chunks_flatten U msgs rest hm] at e2
    rw [Nat.add_zero, ← hfl, List.drop_left] at e3
    rw [e1, e2, e3, Nat.sub_self]

/-! ## Writing -/

theorem sendLoop_ok (choice : Nat → Nat) (fuel : Nat) (todo wire : List Byte) (h : todo.length ≤ fuel) :
    sendLoop choice fuel todo wire = wire ++ todo := by
  induction fuel generalizing todo wire with
  | zero =>
    have : todo = [] := List.length_eq_zero_iff.mp (by omega)
    simp [sendLoop, this]
  | succ n ih =>
    cases todo with
    | nil => simp [sendLoop]
    | cons a t =>
      unfold sendLoop
      simp only
      have hp := kernelCount_pos (choice := choice n) (n := (a :: t).length) (avail := (a :: t).length) (by simp) (by simp)
      rw [ih _ _ (by rw [List.length_drop]; simp only [List.length_cons] at *; omega)]
      rw [List.append_assoc, List.take_append_drop]

theorem sendAll_ok (choice : Nat → Nat) (bytes wire : List Byte) : sendAll choice bytes wire = wire ++ bytes :=
  sendLoop_ok _ _ _ _ le_rfl

/-- `e` units pending in the buffer, `sent` = everything handed over so far. -/
structure WInv (U C : Nat) (sent : List Byte) (buf : β) (mem wire : List Byte) (e : Nat) : Prop where
  buf : LawfulBuffer.V buf U C e 0
  eC : e < C
  memLen : C * U ≤ mem.length
  sent : wire ++ mem.take (e * U) = sent

theorem flush_ok' {U C : Nat} {sent : List Byte} {buf : β} {mem wire : List Byte} {e : Nat} (hU : 0 < U)
    (hV : LawfulBuffer.V buf U C e 0) (heC : e ≤ C) (hC : 0 < C) (hm : C * U ≤ mem.length)
    (hs : wire ++ mem.take (e * U) = sent) (choice : Nat → Nat) :
    ∃ buf' mem', flush choice buf mem wire = .ok (buf', mem', sent) ∧ WInv U C sent buf' mem' sent 0 ∧
      mem'.length = mem.length := by
  have heU : e * U ≤ C * U := Nat.mul_le_mul_right _ heC
  obtain ⟨buf2, mem2, hclr, hV2, hm2len, hm2take⟩ := LawfulBuffer.clear (mem := mem) hV hU hU (by omega)
  refine ⟨buf2, mem2, ?_, ⟨hV2, hC, by omega, by simp⟩, hm2len⟩
  unfold flush
  rw [LawfulBuffer.toBuffer hV, LawfulBuffer.bufferSize hV, slice_ok (by omega), bind_ok, hclr, bind_ok]
  rw [List.drop_zero, sendAll_ok, hs]

theorem flush_ok {U C : Nat} {sent : List Byte} {buf : β} {mem wire : List Byte} {e : Nat} (hU : 0 < U)
    (h : WInv U C sent buf mem wire e) (choice : Nat → Nat) :
    ∃ buf' mem', flush choice buf mem wire = .ok (buf', mem', sent) ∧ WInv U C sent buf' mem' sent 0 ∧
      mem'.length = mem.length :=
  flush_ok' hU h.buf (le_of_lt h.eC) (by have := h.eC; omega) h.memLen h.sent choice

theorem sendOne_ok {U C : Nat} {sent : List Byte} {buf : β} {mem wire : List Byte} {e : Nat} (hU : 0 < U)
    (hCU : C * U < 2 ^ 32) (h : WInv U C sent buf mem wire e) (choice : Nat → Nat) (v : List Byte) (hv : v.length = U) :
    ∃ buf' mem' wire' e', sendOne choice buf mem wire v = .ok (buf', mem', wire') ∧
      WInv U C (sent ++ v) buf' mem' wire' e' ∧ mem'.length = mem.length ∧ e' * U < C * U := by
  obtain ⟨hV, heC, hm, hs⟩ := h
  have hCle : C ≤ C * U := Nat.le_mul_of_pos_right _ hU
  have he1 : (e + 1) * U ≤ C * U := Nat.mul_le_mul_right _ heC
  obtain ⟨b1, m1, h1, hV1, hl1, ht1⟩ := LawfulBuffer.pushBack (mem := mem) hV hv (by omega) (by omega)
  have hs1 : wire ++ m1.take ((e + 1) * U) = sent ++ v := by rw [ht1, ← List.append_assoc, hs]
  unfold sendOne
  rw [h1, bind_ok]
  simp only [LawfulBuffer.full hV1 hU, decide_eq_true_eq]
  by_cases hf : e + 1 = C
  · rw [if_pos hf]
    obtain ⟨b2, m2, h2, i2, l2⟩ := flush_ok' hU hV1 (le_of_eq hf) (by omega) (by omega) hs1 choice
    refine ⟨b2, m2, _, 0, h2, i2, by omega, ?_⟩
    have : 0 < C * U := Nat.mul_pos (by omega) hU
    omega
  · rw [if_neg hf]
    refine ⟨b1, m1, wire, e + 1, rfl, ⟨hV1, by omega, by omega, hs1⟩, by omega, ?_⟩
    exact Nat.mul_lt_mul_of_pos_right (by omega) hU

end DPPIR.Sockets
