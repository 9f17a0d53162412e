import Verif.Proofs.Process
import Verif.Proofs.Types
import Verif.Proofs.Memory
import Verif.Proofs.Sharing
import Verif.Proofs.Additive
import Verif.Proofs.Onion
import Verif.Model.Protocol

/-!
# Actions of the socket calls, and the secrets of one query
-/

namespace DPPIR.Protocol
open DPPIR Proc Onion Incremental Additive Spec

variable {ι : Type}

/-! ### Actions of the socket calls -/

theorem wrap32_of_lt {n : Nat} (h : n < 2 ^ 32) : wrap32 n = n := Nat.mod_eq_of_lt h

abbrev PAct (ι : Type) := Proc.Act ι Obs

def aSendCount (d : ι) (n : Nat) : List (PAct ι) :=
  .obs (.sendCount (BitVec.ofNat 32 n)) :: (natLE 4 (BitVec.ofNat 32 n).toNat).map (Act.send d)
def aRecvCount (s : ι) (n : Nat) : List (PAct ι) :=
  (natLE 4 (BitVec.ofNat 32 n).toNat).map (Act.recv s) ++ [.obs (.recvCount (BitVec.ofNat 32 n))]
def aSendReady (d : ι) : List (PAct ι) := [.obs .sendReady, .send d 1]
def aRecvReady (s : ι) : List (PAct ι) := [.recv s 1, .obs .recvReady]
def aSendCipher (d : ι) (c : List Byte) : List (PAct ι) := .obs (.sendCipher c) :: c.map (Act.send d)
def aRecvCipher (s : ι) (c : List Byte) : List (PAct ι) := c.map (Act.recv s) ++ [.obs (.recvCipher c)]
def aSendQuery (d : ι) (q : Query) : List (PAct ι) := .obs (.sendQuery q) :: q.encode.map (Act.send d)
def aRecvQuery (s : ι) (q : Query) : List (PAct ι) := q.encode.map (Act.recv s) ++ [.obs (.recvQuery q)]
def aSendResponse (d : ι) (r : Response) : List (PAct ι) := .obs (.sendResponse r) :: r.encode.map (Act.send d)
def aRecvResponse (s : ι) (r : Response) : List (PAct ι) := r.encode.map (Act.recv s) ++ [.obs (.recvResponse r)]

theorem runs_sendCount (d : ι) (n : Nat) : Runs (sendCount d n) (aSendCount d n) () := .obs (Runs.sendBytes _ _)

theorem runs_readCount (s : ι) (n : Nat) (h : n < 2 ^ 32) : Runs (readCount s) (aRecvCount s n) n := by
  have hr : Runs (readCount s) _ _ := Runs.bind (Runs.recvBytes s (natLE 4 (BitVec.ofNat 32 n).toNat) (natLE_length _ _))
    (Runs.bind (Runs.observe _) (Runs.done _))
  rw [ofNat_natOfLE_natLE 32 4 _ rfl] at hr
  have e : (BitVec.ofNat 32 n).toNat = n := by simp; omega
  rw [List.append_nil] at hr
  conv at hr => rhs; rw [e]
  exact hr

theorem runs_sendReady (d : ι) : Runs (sendReady d) (aSendReady d) () := .obs (Runs.sendBytes _ _)

theorem runs_waitForReady (s : ι) : Runs (waitForReady s) (aRecvReady s) () :=
  Runs.bind' (Runs.recvBytes s [1] rfl) (Runs.bind' (Runs.lift rfl) (Runs.observe _) rfl) rfl

/-- Number of bytes that a call puts on the wire, now or later. -/
def Obs.size : Obs → Nat
  | .sendCipher c => c.length
  | .sendQuery _ => querySize
  | .sendResponse _ => responseSize
  | _ => 0

/-- Number of bytes that the calls among the actions put on the wire. -/
def weight (as : List (PAct ι)) : Nat := ((obsOf as).map Obs.size).sum

theorem weight_append (as bs : List (PAct ι)) : weight (as ++ bs) = weight as + weight bs := by
  simp [weight, obsOf_append]

theorem weight_obs (o : Obs) (as : List (PAct ι)) : weight (.obs o :: as) = o.size + weight as := by
  simp [weight]

theorem weight_sends (d : ι) (l : List Byte) : weight (l.map (Act.send d) : List (PAct ι)) = 0 := by
  simp [weight]

/-- At most `n` more bytes are sent than the calls so far have asked for. -/
def Ordered (n : Nat) (as : List (PAct ι)) : Prop := ∀ A B, as = A ++ B → (comm A).length ≤ n + weight A

theorem Ordered.append {n m : Nat} {as bs : List (PAct ι)} (h : Ordered n as) (h' : Ordered m bs)
    (hm : m + (comm as).length ≤ n + weight as) : Ordered n (as ++ bs) := by
  intro A B e
  rcases List.append_eq_append_iff.1 e with ⟨x, rfl, h2⟩ | ⟨x, h1, -⟩
  · have := h' x B h2
    rw [comm_append, weight_append, List.length_append]
    omega
  · exact h A x h1

theorem Ordered.sends (d : ι) (l : List Byte) : Ordered l.length (l.map (Act.send d) : List (PAct ι)) := by
  intro A B e
  have h := congrArg (fun x => (comm x).length) e
  simp only [comm_map_send, comm_append, List.length_append, List.length_map] at h
  omega

theorem Ordered.obs {n : Nat} (o : Obs) {as : List (PAct ι)} (h : Ordered (n + o.size) as) : Ordered n (.obs o :: as) := by
  intro A B e
  cases A with
  | nil => simp
  | cons x A =>
    obtain ⟨rfl, e'⟩ := List.cons.inj e
    have := h A B e'
    rw [comm_obs, weight_obs]
    omega

/-- The actions write to `d`, out of what was pending and `bytes`, all but what is
pending afterwards; every byte is written after the call it belongs to. -/
def Writes (d : ι) (as : List (PAct ι)) (w : WBuf) (bytes : List Byte) (w' : WBuf) : Prop :=
  ∃ sent, comm as = sent.map (Act.send d) ∧ w.pending ++ bytes = sent ++ w'.pending ∧ weight as = bytes.length ∧
    Ordered w.pending.length as

theorem Writes.trans {d : ι} {as bs : List (PAct ι)} {w w' w'' : WBuf} {x y : List Byte} (h : Writes d as w x w')
    (h' : Writes d bs w' y w'') : Writes d (as ++ bs) w (x ++ y) w'' := by
  obtain ⟨s, h1, h2, h5, h6⟩ := h
  obtain ⟨s', h3, h4, h7, h8⟩ := h'
  refine ⟨s ++ s', by rw [comm_append, h1, h3, List.map_append], ?_, by rw [weight_append, h5, h7, List.length_append], h6.append h8 ?_⟩
  · rw [← List.append_assoc, h2, List.append_assoc, h4, List.append_assoc]
  · have := congrArg List.length h2
    simp only [List.length_append] at this
    rw [h1, List.length_map]
    omega

theorem Writes.nil (d : ι) (w : WBuf) : Writes d [] w [] w :=
  ⟨[], rfl, by simp, rfl, fun A B e => by rw [(List.append_eq_nil_iff.1 e.symm).1]; simp⟩

/-- A call that writes nothing. -/
theorem Writes.silent {d : ι} {as : List (PAct ι)} {w w' : WBuf} {x : List Byte} (h : Writes d as w x w') {o : Obs} (ho : o.size = 0) :
    Writes d (.obs o :: as) w x w' := by
  obtain ⟨s, h1, h2, h5, h6⟩ := h
  exact ⟨s, by rw [comm_obs, h1], h2, by rw [weight_obs, ho, h5, Nat.zero_add], Ordered.obs o (by rw [ho]; exact h6)⟩

/-- A write buffer for messages of `unit` bytes that is not full. -/
def WBuf.Room (w : WBuf) (unit : Nat) : Prop := w.held < Sockets.bufferSize / unit

theorem WBuf.room_empty {unit : Nat} (h0 : 0 < unit) (h : unit ≤ Sockets.bufferSize) : WBuf.Room {} unit :=
  Nat.div_pos h h0

theorem push_ok (d : ι) (unit : Nat) (h0 : 0 < unit) (h : unit ≤ Sockets.bufferSize) (w : WBuf) (hw : w.Room unit)
    (c : List Byte) (o : Obs) (ho : o.size = c.length) :
    ∃ as w', Runs (pushBuffered d unit w c) as w' ∧ w'.Room unit ∧ Writes d (.obs o :: as) w c w' ∧ obsOf as = [] := by
  unfold pushBuffered
  unfold WBuf.Room at hw
  rw [if_pos hw]
  split
  · refine ⟨(w.pending ++ c).map (Act.send d), {}, Runs.bind' (Runs.sendBytes _ _) (Runs.done _) (List.append_nil _).symm,
      WBuf.room_empty h0 h, ⟨w.pending ++ c, by simp, by simp, by rw [weight_obs, weight_sends, ho, Nat.add_zero], Ordered.obs o ?_⟩, by simp⟩
    rw [ho, ← List.length_append]
    exact Ordered.sends _ _
  · refine ⟨[], ⟨w.held + 1, w.pending ++ c⟩, Runs.done _, ?_, ⟨[], rfl, rfl, by rw [weight_obs, ho]; rfl, Ordered.obs o ?_⟩, rfl⟩
    · show _ < _
      simp only
      omega
    · intro A B e
      rw [(List.append_eq_nil_iff.1 e.symm).1]
      simp

theorem sendCipher_ok (d : ι) (size : Nat) (mem c : List Byte) (h : slice mem 0 size = .ok c) (h0 : 0 < size)
    (hs : size ≤ Sockets.bufferSize) (w : WBuf) (hw : w.Room size) :
    ∃ as w', Runs (sendCipher d size mem w) as w' ∧ w'.Room size ∧ Writes d as w c w' ∧ obsOf as = [.sendCipher c] := by
  obtain ⟨as, w', h1, h2, h3, h4⟩ := push_ok d size h0 hs w hw c (.sendCipher c) rfl
  exact ⟨.obs (.sendCipher c) :: as, w', Runs.bind' (Runs.lift h) (Runs.bind' (Runs.observe _) h1 rfl) rfl, h2, h3,
    by rw [obsOf_obs, h4]⟩

theorem sendQuery_ok (d : ι) (q : Query) (w : WBuf) (hw : w.Room querySize) :
    ∃ as w', Runs (sendQuery d q w) as w' ∧ w'.Room querySize ∧ Writes d as w q.encode w' ∧ obsOf as = [.sendQuery q] := by
  obtain ⟨as, w', h1, h2, h3, h4⟩ := push_ok d querySize (by decide) (by decide) w hw q.encode (.sendQuery q) q.encode_length.symm
  exact ⟨.obs (.sendQuery q) :: as, w', .obs h1, h2, h3, by rw [obsOf_obs, h4]⟩

theorem sendResponse_ok (d : ι) (r : Response) (w : WBuf) (hw : w.Room responseSize) :
    ∃ as w', Runs (sendResponse d r w) as w' ∧ w'.Room responseSize ∧ Writes d as w r.encode w' ∧
      obsOf as = [.sendResponse r] := by
  obtain ⟨as, w', h1, h2, h3, h4⟩ := push_ok d responseSize (by decide) (by decide) w hw r.encode (.sendResponse r) r.encode_length.symm
  exact ⟨.obs (.sendResponse r) :: as, w', .obs h1, h2, h3, by rw [obsOf_obs, h4]⟩

/-- A sending loop. -/
theorem loop_buffered {σ γ : Type} (d : ι) (wb : σ → WBuf) (Inv : Nat → σ → Prop) (f : Nat → σ → Prog ι σ)
    (bytes : γ → List Byte) (os : γ → List Obs) (l : List γ) (i : Nat) (s : σ) (h0 : Inv 0 s)
    (h : ∀ j s (hj : j < l.length), Inv j s → ∃ as s', Runs (f (i + j) s) as s' ∧ Inv (j + 1) s' ∧
      Writes d as (wb s) (bytes l[j]) (wb s') ∧ obsOf as = os l[j]) :
    ∃ as s', Runs (Proc.loop l.length i f s) as s' ∧ Inv l.length s' ∧ Writes d as (wb s) (l.flatMap bytes) (wb s') ∧
      obsOf as = l.flatMap os := by
  induction l generalizing i s Inv with
  | nil => exact ⟨[], s, .done _, h0, Writes.nil _ _, rfl⟩
  | cons c l ih =>
    obtain ⟨as, s1, h1, h2, h3, h4⟩ := h 0 s (by simp) h0
    obtain ⟨bs, s2, h5, h6, h7, h8⟩ := ih (fun j => Inv (j + 1)) (i + 1) s1 h2 (by
      intro j s hj hi
      have := h (j + 1) s (by simpa using hj) hi
      rw [← Nat.add_assoc, Nat.add_right_comm] at this
      exact this)
    exact ⟨as ++ bs, s2, Runs.bind h1 h5, h6, h3.trans h7, by rw [obsOf_append, h4, h8]; rfl⟩

/-- A sending range-based `for`. -/
theorem each_buffered {σ γ δ : Type} (d : ι) (wb : σ → WBuf) (Inv : σ → Prop) (f : γ → σ → Prog ι σ) (g : δ → γ)
    (bytes : δ → List Byte) (os : δ → List Obs) (l : List δ) (s : σ) (h0 : Inv s)
    (h : ∀ c ∈ l, ∀ s, Inv s → ∃ as s', Runs (f (g c) s) as s' ∧ Inv s' ∧ Writes d as (wb s) (bytes c) (wb s') ∧
      obsOf as = os c) :
    ∃ as s', Runs (Proc.each f (l.map g) s) as s' ∧ Inv s' ∧ Writes d as (wb s) (l.flatMap bytes) (wb s') ∧
      obsOf as = l.flatMap os := by
  induction l generalizing s with
  | nil => exact ⟨[], s, .done _, h0, Writes.nil _ _, rfl⟩
  | cons c l ih =>
    obtain ⟨as, s1, h1, h2, h3, h4⟩ := h c List.mem_cons_self s h0
    obtain ⟨bs, s2, h5, h6, h7, h8⟩ := ih s1 h2 (fun c hc => h c (List.mem_cons_of_mem _ hc))
    exact ⟨as ++ bs, s2, Runs.bind h1 h5, h6, h3.trans h7, by rw [obsOf_append, h4, h8]; rfl⟩

/-- A sending range-based `for`, whose actions depend only on the buffer. -/
theorem each_buffered_all {χ σ γ δ : Type} (d : ι) (wb : σ → WBuf) (R : WBuf → Prop) (Inv : χ → σ → Prop) (f : γ → σ → Prog ι σ)
    (g : δ → γ) (bytes : δ → List Byte) (os : δ → List Obs) (l : List δ) (w : WBuf) (hw : R w)
    (h : ∀ c ∈ l, ∀ w, R w → ∃ as w', R w' ∧ Writes d as w (bytes c) w' ∧ obsOf as = os c ∧
      ∀ x s, Inv x s → wb s = w → ∃ s', Runs (f (g c) s) as s' ∧ Inv x s' ∧ wb s' = w') :
    ∃ as w', Writes d as w (l.flatMap bytes) w' ∧ obsOf as = l.flatMap os ∧
      ∀ x s, Inv x s → wb s = w → ∃ s', Runs (Proc.each f (l.map g) s) as s' ∧ Inv x s' ∧ wb s' = w' := by
  induction l generalizing w with
  | nil => exact ⟨[], w, Writes.nil _ _, rfl, fun x s h1 h2 => ⟨s, .done _, h1, h2⟩⟩
  | cons c l ih =>
    obtain ⟨as, w1, h1, h2, h3, h4⟩ := h c List.mem_cons_self w hw
    obtain ⟨bs, w2, h5, h6, h7⟩ := ih w1 h1 (fun c hc => h c (List.mem_cons_of_mem _ hc))
    refine ⟨as ++ bs, w2, h2.trans h5, by rw [obsOf_append, h3, h6]; rfl, fun x s a1 a2 => ?_⟩
    obtain ⟨s1, b1, b2, b3⟩ := h4 x s a1 a2
    obtain ⟨s2, c1, c2, c3⟩ := h7 x s1 b2 b3
    exact ⟨s2, Runs.bind b1 c1, c2, c3⟩

/-- The actions write exactly `bytes` to `d`, and make the calls `os`; every byte is
written after the call it belongs to. -/
structure Sends (d : ι) (as : List (PAct ι)) (bytes : List Byte) (os : List Obs) : Prop where
  comm : Proc.comm as = bytes.map (Act.send d)
  obs : Proc.obsOf as = os
  ordered : Ordered 0 as

theorem Sends.singles {γ : Type} {d : ι} {as : List (PAct ι)} {bytes : List Byte} {l : List γ} {o : γ → Obs}
    (h : Sends d as bytes (l.flatMap (fun x => [o x]))) : Sends d as bytes (l.map o) :=
  ⟨h.comm, by rw [h.obs, List.map_eq_flatMap], h.ordered⟩

/-- A sending loop and its flush. -/
theorem Writes.flush {d : ι} {as : List (PAct ι)} {bytes : List Byte} {w : WBuf} {os : List Obs}
    (h : Writes d as {} bytes w) (ho : obsOf as = os) :
    Runs (Protocol.flush d w) (w.pending.map (Act.send d)) () ∧ Sends d (as ++ w.pending.map (Act.send d)) bytes os := by
  obtain ⟨s, h1, h2, h3, h4⟩ := h
  refine ⟨Runs.sendBytes _ _, ?_, by simp [ho], h4.append (Ordered.sends _ _) ?_⟩
  · rw [comm_append, h1, comm_map_send, ← List.map_append, ← h2]
    rfl
  · have := congrArg List.length h2
    simp only [List.length_append, List.length_nil] at this ⊢
    rw [h1, h3, List.length_map]
    omega

theorem runs_recvCipher (s : ι) (size : Nat) (c : List Byte) (h : c.length = size) :
    Runs (recvCipher s size) (aRecvCipher s c) c :=
  Runs.bind' (Runs.recvBytes s _ h) (Runs.bind' (Runs.observe _) (Runs.done _) rfl) (by simp [aRecvCipher])

theorem runs_recvQuery (s : ι) (q : Query) : Runs (recvQuery s) (aRecvQuery s q) q := by
  have hr : Runs (recvQuery s) _ _ := Runs.bind (Runs.recvBytes s q.encode q.encode_length)
    (Runs.bind (Runs.observe _) (Runs.done _))
  rw [Query.decode_encode, List.append_nil] at hr
  exact hr

theorem runs_recvResponse (s : ι) (r : Response) : Runs (recvResponse s) (aRecvResponse s r) r := by
  have hr : Runs (recvResponse s) _ _ := Runs.bind (Runs.recvBytes s r.encode r.encode_length)
    (Runs.bind (Runs.observe _) (Runs.done _))
  rw [Response.decode_encode, List.append_nil] at hr
  exact hr

end DPPIR.Protocol
