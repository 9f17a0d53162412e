import Verif.Proofs.LoopsReceive

/-!
# The programs with receive loops do what the byte-by-byte programs do
-/

namespace DPPIR.Protocol
open DPPIR Proc PNet RNet Onion

variable {box : SealedBox} {ι σ α β : Type}

/-! ### What is known of results -/

/-- All results satisfy `Q`. -/
inductive Ends {O : Type} (Q : α → Prop) : PProc ι O α → Prop where
  | done {a} (h : Q a) : Ends Q (.done a)
  | fault (e) : Ends Q (.fault e)
  | send {d b k} : Ends Q k → Ends Q (.send d b k)
  | recv {s k} : (∀ b, Ends Q (k b)) → Ends Q (.recv s k)
  | obs {o k} : Ends Q k → Ends Q (.obs o k)
  | poll {ss bl k} : (∀ r, Ends Q (k r)) → Ends Q (.poll ss bl k)
  | read {s m k} : (∀ c, Ends Q (k c)) → Ends Q (.read s m k)

theorem Ends.bind {O : Type} {Q : α → Prop} {R : β → Prop} {p : PProc ι O α} {f : α → PProc ι O β} (h : Ends Q p) (hf : ∀ a, Q a → Ends R (f a)) :
    Ends R (p.bind f) := by
  induction h with
  | done h => exact hf _ h
  | fault e => exact .fault e
  | send _ ih => exact .send ih
  | recv _ ih => exact .recv ih
  | obs _ ih => exact .obs ih
  | poll _ ih => exact .poll ih
  | read _ ih => exact .read ih

theorem Ends.trivial {O : Type} (p : PProc ι O α) : Ends (fun _ => True) p := by
  induction p with
  | done a => exact .done True.intro
  | fault e => exact .fault e
  | send _ _ _ ih => exact .send ih
  | recv _ _ ih => exact .recv ih
  | obs _ _ ih => exact .obs ih
  | poll _ _ _ ih => exact .poll ih
  | read _ _ _ ih => exact .read ih

theorem Ends.lift {O : Type} {Q : α → Prop} {x : Res α} (h : ∀ a, x = .ok a → Q a) : Ends (ι := ι) (O := O) Q (PProc.lift x) := by
  cases x with
  | error e => exact .fault e
  | ok a => exact .done (h a rfl)

theorem forUp_ends {σ : Type} {Q : σ → Prop} {f : Nat → σ → Res σ} (h : ∀ i s s', Q s → f i s = .ok s' → Q s') (n i : Nat) (s s' : σ)
    (hs : Q s) (he : forUp n i f s = .ok s') : Q s' := by
  induction n generalizing i s with
  | zero => cases he; exact hs
  | succ n ih =>
    unfold forUp at he
    obtain ⟨s1, h1, h2⟩ := (bind_eq_ok.1 he)
    exact ih _ _ (h _ _ _ hs h1) h2

variable [DecidableEq ι] {links : ι × ι → Prop} {i : ι}

theorem sim_refl {O : Type} {p : PProc ι O α} (h : Direct links i p) : Sim (fun s => links (s, i)) (fun _ => []) p p := by
  induction h with
  | done a => exact .done a (fun _ => rfl)
  | fault e => exact .fault e
  | send _ ih => exact .send ih
  | recv _ ih => exact .recv rfl ih
  | obs _ ih => exact .obs ih
  | poll h _ ih => exact .poll h ih
  | read h _ ih => exact .read h ih

theorem sim_same {O : Type} {p : PProc ι O α} (h : Direct links i p) {Q : α → Prop} (he : Ends Q p) {f f' : α → PProc ι O β}
    (hf : ∀ a, Q a → Sim (fun s => links (s, i)) (fun _ => []) (f a) (f' a)) :
    Sim (fun s => links (s, i)) (fun _ => []) (p.bind f) (p.bind f') := by
  induction he with
  | done hq => exact hf _ hq
  | fault e => exact .fault e
  | send _ ih => cases h with | send h => exact .send (ih h)
  | recv _ ih => cases h with | recv h => exact .recv rfl (fun b => ih b (h b))
  | obs _ ih => cases h with | obs h => exact .obs (ih h)
  | poll _ ih => cases h with | poll h h' => exact .poll h (fun r => ih r (h' r))
  | read _ ih => cases h with | read h h' => exact .read h (fun c => ih c (h' c))

theorem sim_then {O : Type} {p : PProc ι O α} (h : Direct links i p) {f f' : α → PProc ι O β}
    (hf : ∀ a, Sim (fun s => links (s, i)) (fun _ => []) (f a) (f' a)) :
    Sim (fun s => links (s, i)) (fun _ => []) (p.bind f) (p.bind f') := sim_same h (Ends.trivial p) (fun a _ => hf a)

/-- A part without receive loop, of a program that is not polling. -/
theorem sim_proc {O : Type} {p : Proc ι O α} {f : α → PProc ι O β} {f' : α → Proc ι O β}
    (hf : ∀ a, Sim (fun s => links (s, i)) (fun _ => []) (f a) (PProc.ofProc (f' a))) :
    Sim (fun s => links (s, i)) (fun _ => []) ((PProc.ofProc p).bind f) (PProc.ofProc (p.bind f')) := by
  rw [PProc.ofProc_bind]
  exact sim_then (Direct.ofProc p) hf

theorem sim_proc_ends {O : Type} {p : Proc ι O α} {Q : α → Prop} (he : Ends Q (PProc.ofProc p)) {f : α → PProc ι O β} {f' : α → Proc ι O β}
    (hf : ∀ a, Q a → Sim (fun s => links (s, i)) (fun _ => []) (f a) (PProc.ofProc (f' a))) :
    Sim (fun s => links (s, i)) (fun _ => []) ((PProc.ofProc p).bind f) (PProc.ofProc (p.bind f')) := by
  rw [PProc.ofProc_bind]
  exact sim_same (Direct.ofProc p) he hf

/-- A part with a receive loop. -/
theorem sim_part {O : Type} {p : PProc ι O α} {p' : Proc ι O α} {f : α → PProc ι O β} {f' : α → Proc ι O β}
    (h : Sim (fun s => links (s, i)) (fun _ => []) p (PProc.ofProc p'))
    (hf : ∀ a, Sim (fun s => links (s, i)) (fun _ => []) (f a) (PProc.ofProc (f' a))) :
    Sim (fun s => links (s, i)) (fun _ => []) (p.bind f) (PProc.ofProc (p'.bind f')) := by
  rw [PProc.ofProc_bind]
  exact h.bind hf

/-! ### Handlers receive nothing -/

omit [DecidableEq ι] in
theorem quiet_lift {O : Type} (x : Res α) : Quiet (ι := ι) (O := O) (fun _ => True) (Proc.lift x) := Quiet.lift (fun _ _ => trivial)

omit [DecidableEq ι] in
theorem quiet_then {O : Type} {p : Proc ι O α} {f : α → Proc ι O β} {R : β → Prop} (h : Quiet (fun _ => True) p) (hf : ∀ a, Quiet R (f a)) :
    Quiet R (p.bind f) := h.bind (fun a _ => hf a)

omit [DecidableEq ι] in
theorem quiet_clientResponse (queries : List Nat) (read : Nat) (m : List Byte) (c : Client box) :
    Quiet (fun _ => True) (Client.onResponse (ι := ι) queries read m c) :=
  quiet_then (Quiet.observe _) (fun _ => quiet_then (quiet_lift _) (fun _ => quiet_then (Quiet.observe _) (fun _ =>
    quiet_then (quiet_lift _) (fun _ => quiet_then (quiet_lift _) (fun _ => quiet_then (quiet_lift _) (fun _ => .done trivial))))))

omit [DecidableEq ι] in
theorem quiet_partyQuery (read : Nat) (m : List Byte) (p : Party box) : Quiet (fun _ => True) (Party.onQuery (ι := ι) read m p) :=
  quiet_then (Quiet.observe _) (fun _ => quiet_then (quiet_lift _) (fun _ => quiet_then (quiet_lift _) (fun _ => quiet_lift _)))

omit [DecidableEq ι] in
theorem quiet_partyResponse (read : Nat) (m : List Byte) (p : Party box) : Quiet (fun _ => True) (Party.onResponse (ι := ι) read m p) := by
  refine quiet_then (Quiet.observe _) (fun _ => quiet_then (quiet_lift _) (fun _ => ?_))
  split
  · exact quiet_then (quiet_lift _) (fun _ => quiet_lift _)
  · exact .done trivial

omit [DecidableEq ι] in
theorem quiet_partyCipher {U : Nat} (j : Nat) (m : List Byte) (p : Party box) (hp : p.ciphers.longSize = U) :
    Quiet (fun p => p.ciphers.longSize = U) (Party.onCipher (ι := ι) j m p) := by
  refine quiet_then (Quiet.observe _) (fun _ => (Quiet.lift (Q := fun b => b.longSize = U) (fun b hb => ?_)).bind (fun b hb => .done hb))
  unfold CipherBatch.pushLong at hb
  obtain ⟨_, _, hb⟩ := (bind_eq_ok.1 hb)
  obtain ⟨_, _, hb⟩ := (bind_eq_ok.1 hb)
  cases hb
  exact hp

omit [DecidableEq ι] in
theorem quiet_backendCipher (j : Nat) (m : List Byte) (b : Backend box) : Quiet (fun _ => True) (Backend.onCipher (ι := ι) j m b) :=
  quiet_then (Quiet.observe _) (fun _ => quiet_then (quiet_lift _) (fun _ => quiet_then (quiet_lift _) (fun _ =>
    quiet_then (Quiet.observe _) (fun _ => quiet_then (quiet_lift _) (fun _ => .done trivial)))))

omit [DecidableEq ι] in
theorem quiet_backendQuery (j : Nat) (m : List Byte) (b : Backend box) : Quiet (fun _ => True) (Backend.onQuery (ι := ι) j m b) :=
  quiet_then (Quiet.observe _) (fun _ => quiet_then (quiet_lift _) (fun _ => .done trivial))

omit [DecidableEq ι] in
theorem quiet_parallelQuery (read : Nat) (m : List Byte) (p : Party box) :
    Quiet (fun _ => True) (ParallelParty.onQuery (ι := ι) read m p) :=
  quiet_then (Quiet.observe _) (fun _ => quiet_then (quiet_lift _) (fun _ => quiet_lift _))

omit [DecidableEq ι] in
theorem quiet_parallelResponse (read : Nat) (m : List Byte) (p : ParallelParty box) :
    Quiet (fun _ => True) (ParallelParty.onResponse (ι := ι) read m p) := by
  refine quiet_then (Quiet.observe _) (fun _ => quiet_then (quiet_lift _) (fun _ => quiet_then (quiet_lift _) (fun _ =>
    quiet_then (quiet_lift _) (fun _ => quiet_then (quiet_lift _) (fun _ => ?_)))))
  split
  · exact quiet_then (quiet_lift _) (fun _ => quiet_then (quiet_lift _) (fun _ => .done trivial))
  · exact .done trivial

/-! ### The loops -/

/-- A receive loop whose handlers need no invariant. -/
theorem sim_loop {src : ι} (hl : links (src, i)) {unit : Nat} (hu : 0 < unit) (hb : unit ≤ Sockets.bufferSize)
    {f : Nat → List Byte → σ → Prog ι σ} (hf : ∀ j m s, Quiet (fun _ => True) (f j m s)) {g : Nat → σ → Prog ι σ}
    (hg : ∀ j s, g j s = recvBody src unit f j s) (n j : Nat) (s : σ) :
    Sim (fun s => links (s, i)) (fun _ => []) (receiveAll src unit n j f s) (PProc.ofProc (loop n j g s)) := by
  obtain rfl : g = recvBody src unit f := funext (fun j => funext (fun s => hg j s))
  exact sim_receiveAll (links := fun s => links (s, i)) (Q := fun _ => True) hl hu hb (fun j m s _ _ => hf j m s) n j s trivial

section
variable {back next : ι} (hback : links (back, i)) (hnext : links (next, i))

include hnext in
theorem sim_clientOnline (c : Client box) (rand : ClientRand box) (count : Nat) :
    Sim (fun s => links (s, i)) (fun _ => []) (c.startOnlineLoops rand next count) (PProc.ofProc (c.startOnline rand next count)) :=
  sim_proc (fun _ => sim_proc (fun _ => sim_loop hnext (by decide) (by decide) (quiet_clientResponse _) (fun j s => by
    unfold Client.responseStep recvBody recvResponse
    simp only [Proc.bind_def, Proc.bind_assoc]
    rfl) _ _ _))

include hnext in
theorem sim_client (c : Client box) (rand : ClientRand box) (count : Nat) (offline online : Bool) :
    Sim (fun s => links (s, i)) (fun _ => []) (c.startLoops rand next count offline online)
      (PProc.ofProc (c.start rand next count offline online)) := by
  unfold Client.startLoops Client.start
  have hon : ∀ c : Client box, Sim (fun s => links (s, i)) (fun _ => [])
      (if online = true then (do let _ ← c.startOnlineLoops rand next count; pure ()) else pure ())
      (PProc.ofProc (if online = true then (do let _ ← c.startOnline rand next count; pure ()) else pure ())) := by
    intro c
    split
    · exact sim_part (sim_clientOnline hnext _ _ _) (fun _ => .done _ (fun _ => rfl))
    · exact .done _ (fun _ => rfl)
  dsimp only
  split
  · exact sim_proc hon
  · exact sim_proc hon

/-! #### Party -/

/-- What the length of the ciphers in the connection and in the batch have in common. -/
def Party.Fits (p : Party box) : Prop :=
  p.ciphers.longSize = cipherSize (p.partyCount - p.partyId) ∧ p.partyId < p.partyCount ∧ p.partyCount ≤ 255

omit [DecidableEq ι] in
theorem loop_ends {O : Type} {Q : σ → Prop} {f g : Nat → σ → Proc ι O σ} (hfg : ∀ j s, Q s → f j s = g j s)
    (he : ∀ j s, Q s → Ends Q (PProc.ofProc (g j s))) (n j : Nat) (s : σ) (hs : Q s) : loop n j f s = loop n j g s := by
  have bind_congr : ∀ (p : Proc ι O σ) (k k' : σ → Proc ι O σ), Ends Q (PProc.ofProc p) → (∀ s, Q s → k s = k' s) → p.bind k = p.bind k' := by
    intro p k k' h hk
    induction p with
    | done a => cases h with | done h => exact hk _ h
    | fault e => rfl
    | send d b p ih => cases h with | send h => exact congrArg (Proc.send d b) (ih h)
    | recv s p ih => cases h with | recv h => exact congrArg (Proc.recv s) (funext (fun b => ih b (h b)))
    | obs o p ih => cases h with | obs h => exact congrArg (Proc.obs o) (ih h)
  induction n generalizing j s with
  | zero => rfl
  | succ n ih =>
    unfold loop
    rw [hfg j s hs]
    exact bind_congr _ _ _ (he j s hs) (fun s hs => ih _ _ hs)

omit [DecidableEq ι] in
theorem Quiet.ends {O : Type} {Q : α → Prop} {p : Proc ι O α} (h : Quiet Q p) : Ends Q (PProc.ofProc p) := by
  induction h with
  | done h => exact .done h
  | fault e => exact .fault e
  | send _ ih => exact .send ih
  | obs _ ih => exact .obs ih

omit [DecidableEq ι] in
theorem ends_recvBytes {O : Type} {Q : α → Prop} (src : ι) (n : Nat) (got : List Byte) (k : List Byte → Proc ι O α) (hk : ∀ l, Ends Q (PProc.ofProc (k l))) :
    Ends Q (PProc.ofProc ((recvBytesFrom src n got).bind k)) := by
  induction n generalizing got with
  | zero => exact hk _
  | succ n ih => exact .recv (fun b => ih _)

include hback in
theorem sim_collectCiphers (p : Party box) (hp : p.Fits) :
    Sim (fun s => links (s, i)) (fun _ => []) (p.collectCiphersLoops back) (PProc.ofProc (p.collectCiphers back)) := by
  obtain ⟨h1, h2, h3⟩ := hp
  unfold Party.collectCiphersLoops Party.collectCiphers
  generalize hU : cipherSize (p.partyCount - p.partyId) = U at *
  have hU0 : 0 < U := by rw [← hU]; exact Nat.mul_pos (by decide) (by omega)
  have hUb : U ≤ Sockets.bufferSize := by rw [← hU]; unfold cipherSize; simp only [secretSize, sealBytes, Sockets.bufferSize]; omega
  rw [loop_ends (Q := fun p : Party box => p.ciphers.longSize = U) (g := recvBody back U Party.onCipher) (fun j s hs => by
    unfold Party.collectCipher recvBody recvCipher
    rw [hs]
    simp only [Proc.bind_def, Proc.bind_assoc]
    rfl) (fun j s hs => ends_recvBytes back U [] _ (fun l => (quiet_partyCipher j l s hs).ends)) _ _ _ h1]
  exact sim_receiveAll (links := fun s => links (s, i)) hback hU0 hUb (fun j m s hs _ => quiet_partyCipher j m s hs) _ _ _ h1

theorem fits_noiseSamples {p q : Party box} {rand : PartyRand box} (hp : p.Fits) (h : p.initializeNoiseSamples rand = .ok q) : q.Fits := by
  unfold Party.initializeNoiseSamples at h
  obtain ⟨⟨a, b⟩, _, h⟩ := (bind_eq_ok.1 h)
  refine forUp_ends (Q := Party.Fits) (fun j s s' hs h => ?_) _ _ _ _ ?_ h
  · unfold Party.sampleStep at h
    obtain ⟨_, _, h⟩ := (bind_eq_ok.1 h)
    cases h
    exact hs
  · exact hp

theorem fits_noiseCiphers {p q : Party box} {tagOf : Nat → Res (BitVec 64)} {rand : PartyRand box} (hp : p.Fits)
    (h : p.createNoiseCiphersTagged tagOf rand = .ok q) : q.Fits := by
  unfold Party.createNoiseCiphersTagged at h
  refine forUp_ends (Q := Party.Fits) (fun j s s' hs h => ?_) _ _ _ _ ?_ h
  · unfold Party.noiseCipherStep at h
    obtain ⟨_, _, h⟩ := (bind_eq_ok.1 h)
    obtain ⟨⟨p', sec⟩, h1, h⟩ := (bind_eq_ok.1 h)
    obtain ⟨_, _, h⟩ := (bind_eq_ok.1 h)
    obtain ⟨b, h2, h⟩ := (bind_eq_ok.1 h)
    cases h
    have hp' : p'.Fits := by
      unfold Party.makeNoiseSecretTagged at h1
      obtain ⟨_, _, h1⟩ := (bind_eq_ok.1 h1)
      obtain ⟨⟨_, _⟩, _, h1⟩ := (bind_eq_ok.1 h1)
      obtain ⟨_, _, h1⟩ := (bind_eq_ok.1 h1)
      cases h1
      exact hs
    unfold CipherBatch.pushShort at h2
    obtain ⟨_, _, h2⟩ := (bind_eq_ok.1 h2)
    obtain ⟨_, _, h2⟩ := (bind_eq_ok.1 h2)
    cases h2
    exact hp'
  · exact hp

omit [DecidableEq ι] in
theorem ends_readCount (src : ι) : Ends (O := Obs) (fun _ => True) (PProc.ofProc (readCount src)) := Ends.trivial _

omit [DecidableEq ι] in
theorem fits_counts (p : Party box) (hp : p.Fits) (back next : ι) : Ends Party.Fits (PProc.ofProc (p.initializeCounts back next)) := by
  unfold Party.initializeCounts
  simp only [Proc.bind_def, PProc.ofProc_bind]
  exact (Ends.trivial _).bind (fun _ _ => (Ends.trivial _).bind (fun _ _ => .done hp))

include hback in
theorem sim_partyOffline (p : Party box) (hp : p.Fits) (rand : PartyRand box) :
    Sim (fun s => links (s, i)) (fun _ => []) (p.startOfflineLoops rand back next) (PProc.ofProc (p.startOffline rand back next)) := by
  refine sim_proc_ends (Q := Party.Fits) (Ends.lift (fun q hq => fits_noiseSamples hp hq)) (fun p hp => ?_)
  refine sim_proc_ends (Q := Party.Fits) (fits_counts p hp back next) (fun p hp => ?_)
  refine sim_proc_ends (Q := Party.Fits) (Ends.lift (fun q hq => fits_noiseCiphers (p := { p with
    queriesState := p.queriesState.initialize false
    noiseState := p.noiseState.initialize (p.partyCount - p.partyId - 1) p.noiseCount true false }) hp hq)) (fun p hp => ?_)
  refine sim_proc (fun _ => sim_proc (fun _ => sim_part (sim_collectCiphers hback p hp) (fun _ => sim_proc (fun _ => sim_proc (fun _ =>
    sim_proc (fun _ => sim_proc (fun _ => sim_proc (fun _ => sim_proc (fun _ => sim_proc (fun _ => .done _ (fun _ => rfl)))))))))))

include hback hnext in
theorem sim_partyOnline (p : Party box) :
    Sim (fun s => links (s, i)) (fun _ => []) (p.startOnlineLoops back next) (PProc.ofProc (p.startOnline back next)) := by
  refine sim_part (sim_loop hback (by decide) (by decide) quiet_partyQuery (fun j s => by
    unfold Party.collectQuery recvBody recvQuery
    simp only [Proc.bind_def, Proc.bind_assoc]
    rfl) _ _ _) (fun p => sim_proc (fun p => sim_part (sim_part (sim_loop hnext (by decide) (by decide) quiet_partyResponse (fun j s => by
    unfold Party.collectResponse recvBody recvResponse
    simp only [Proc.bind_def, Proc.bind_assoc]
    rfl) _ _ _) (fun p => .done _ (fun _ => rfl))) (fun p => sim_refl (Direct.ofProc _))))

include hback hnext in
theorem sim_party (p : Party box) (hp : p.Fits) (rand : PartyRand box) (offline online : Bool) :
    Sim (fun s => links (s, i)) (fun _ => []) (p.startLoops rand back next offline online)
      (PProc.ofProc (p.start rand back next offline online)) := by
  unfold Party.startLoops Party.start
  have hon : ∀ p : Party box, Sim (fun s => links (s, i)) (fun _ => [])
      (if online = true then (do let _ ← p.startOnlineLoops back next; pure ()) else pure ())
      (PProc.ofProc (if online = true then (do let _ ← p.startOnline back next; pure ()) else pure ())) := by
    intro p
    split
    · exact sim_part (sim_partyOnline hback hnext p) (fun _ => .done _ (fun _ => rfl))
    · exact .done _ (fun _ => rfl)
  dsimp only
  split
  · exact sim_part (sim_partyOffline hback p hp rand) hon
  · exact sim_proc hon

/-! #### Backend -/

include hback in
theorem sim_install (b : Backend box) :
    Sim (fun s => links (s, i)) (fun _ => []) (b.collectAndInstallSecretsLoops back) (PProc.ofProc (b.collectAndInstallSecrets back)) :=
  sim_loop hback (by decide) (by decide) quiet_backendCipher (fun j s => by
    unfold Backend.installStep recvBody recvCipher
    simp only [Proc.bind_def, Proc.bind_assoc]
    rfl) _ _ _

include hback in
theorem sim_backendOnline (b : Backend box) (junk : Response) :
    Sim (fun s => links (s, i)) (fun _ => []) (b.startOnlineLoops back junk) (PProc.ofProc (b.startOnline back junk)) :=
  sim_part (sim_loop hback (by decide) (by decide) quiet_backendQuery (fun j s => by
    unfold Backend.collectQuery recvBody recvQuery
    simp only [Proc.bind_def, Proc.bind_assoc]
    rfl) _ _ _) (fun b => sim_refl (Direct.ofProc _))

include hback in
theorem sim_backend (b : Backend box) (junk : Response) (offline online : Bool) :
    Sim (fun s => links (s, i)) (fun _ => []) (b.startLoops back junk offline online)
      (PProc.ofProc (b.start back junk offline online)) := by
  unfold Backend.startLoops Backend.start
  have hon : ∀ b : Backend box, Sim (fun s => links (s, i)) (fun _ => [])
      (if online = true then (do let _ ← b.startOnlineLoops back junk; pure ()) else pure ())
      (PProc.ofProc (if online = true then (do let _ ← b.startOnline back junk; pure ()) else pure ())) := by
    intro p
    split
    · exact sim_part (sim_backendOnline hback _ _) (fun _ => .done _ (fun _ => rfl))
    · exact .done _ (fun _ => rfl)
  dsimp only
  split
  · exact sim_part (sim_proc (fun b => sim_proc (fun _ => sim_part (sim_install hback _) (fun b => sim_proc (fun _ =>
      .done _ (fun _ => rfl)))))) hon
  · exact sim_proc hon

/-! #### Several servers -/

variable {sib : Nat → ι} (hX : ∀ t, ¬ links (sib t, i))

include hback hX in
theorem sim_parallelOffline (p : ParallelParty box) (hp : p.toParty.Fits) (rand : ParallelRand box) :
    Sim (fun s => links (s, i)) (fun _ => []) (p.startOfflineLoops rand back next sib) (p.startOffline rand back next sib) := by
  refine sim_same (Q := Party.Fits) (direct_lift _) (Ends.lift (fun q hq => fits_noiseSamples hp hq)) (fun q hq => ?_)
  refine sim_same (Q := fun p : ParallelParty box => p.toParty.Fits) (direct_initializeCounts _ _ _ _) ?_ (fun p hp => ?_)
  · unfold ParallelParty.initializeCounts
    exact (Ends.trivial _).bind (fun _ _ => (Ends.trivial _).bind (fun _ _ => (Ends.trivial _).bind (fun _ _ => .done hq)))
  refine sim_same (Q := Party.Fits) (direct_lift _) (Ends.lift (fun q hq => fits_noiseCiphers ?_ hq)) (fun q hq => ?_)
  · exact hp
  refine sim_then (direct_relayReady _ _ _ _) (fun _ => (sim_collectCiphers hback q hq).bind (fun q => sim_refl ?_))
  exact (Direct.ofProc _).bind (fun _ =>
    (direct_initializeShufflers _ _ _).bind (fun _ => (Direct.ofProc _).bind (fun _ => (direct_shuffleCiphers _ hX _).bind (fun _ =>
    (Direct.ofProc _).bind (fun _ => Direct.bind (by
      unfold ParallelParty.broadcast
      exact (direct_broadcast _ _ _ hX _ _ _).bind (fun _ => .done _)) (fun _ =>
    (direct_initializeShufflers _ _ _).bind (fun _ => (direct_lift _).bind (fun _ => (direct_relayReady _ _ _ _).bind (fun _ => .done _)))))))))

include hback hnext hX in
theorem sim_parallelOnline (p : ParallelParty box) :
    Sim (fun s => links (s, i)) (fun _ => []) (p.startOnlineLoops back next sib) (p.startOnline back next sib) := by
  refine Sim.bind (sim_part (sim_loop hback (by decide) (by decide) quiet_parallelQuery (fun j s => by
    unfold ParallelParty.collectQuery recvBody recvQuery
    simp only [Proc.bind_def, Proc.bind_assoc]
    rfl) _ _ _) (fun p => .done _ (fun _ => rfl))) (fun p => sim_then (Direct.ofProc _) (fun _ => sim_then (direct_shuffleQueries _ hX _) (fun p =>
    sim_then (Direct.ofProc _) (fun p => Sim.bind (sim_proc (fun _ => sim_part (sim_loop hnext (by decide) (by decide) quiet_parallelResponse (fun j s => by
    unfold ParallelParty.collectResponse recvBody recvResponse
    simp only [Proc.bind_def, Proc.bind_assoc]
    rfl) _ _ _) (fun p => .done _ (fun _ => rfl)))) (fun p => sim_refl ?_)))))
  exact (direct_deshuffleResponses _ hX _).bind (fun _ => (Direct.ofProc _).bind (fun _ => (Direct.ofProc _).bind (fun _ => .done _)))

include hback hnext hX in
theorem sim_parallel (p : ParallelParty box) (hp : p.toParty.Fits) (rand : ParallelRand box) (offline online : Bool) :
    Sim (fun s => links (s, i)) (fun _ => []) (p.startLoops rand back next sib offline online) (p.start rand back next sib offline online) := by
  unfold ParallelParty.startLoops ParallelParty.start
  have hon : ∀ p : ParallelParty box, Sim (fun s => links (s, i)) (fun _ => [])
      (if online = true then (do let _ ← p.startOnlineLoops back next sib; pure ()) else pure ())
      (if online = true then (do let _ ← p.startOnline back next sib; pure ()) else pure ()) := by
    intro p
    split
    · exact Sim.bind (sim_parallelOnline hback hnext hX p) (fun _ => .done _ (fun _ => rfl))
    · exact .done _ (fun _ => rfl)
  dsimp only
  split
  · exact Sim.bind (sim_parallelOffline hback hX p hp rand) hon
  · exact sim_then (direct_simulateOffline _ _ _ _ _) hon

include hback hX in
theorem sim_parallelBackend (b : Backend box) (order : List (BitVec 64 × BackendSecret) → List (BitVec 64 × BackendSecret)) (me servers : Nat)
    (junk : Response) (offline online : Bool) :
    Sim (fun s => links (s, i)) (fun _ => []) (b.startParallelLoops order me servers back sib junk offline online)
      (b.startParallel order me servers back sib junk offline online) := by
  unfold Backend.startParallelLoops Backend.startParallel
  have hon : ∀ b : Backend box, Sim (fun s => links (s, i)) (fun _ => [])
      (if online = true then (do let _ ← b.startOnlineLoops back junk; pure ()) else pure ())
      (if online = true then (do let _ ← PProc.ofProc (b.startOnline back junk); pure ()) else pure ()) := by
    intro p
    split
    · exact Sim.bind (sim_backendOnline hback _ _) (fun _ => .done _ (fun _ => rfl))
    · exact .done _ (fun _ => rfl)
  dsimp only
  split
  · refine Sim.bind ?_ hon
    exact sim_then (Direct.ofProc _) (fun b => sim_then (Direct.ofProc _) (fun _ => Sim.bind (sim_install hback _) (fun b => sim_refl
      (Direct.bind (by
        unfold Backend.broadcast
        exact (direct_broadcast _ _ _ hX _ _ _).bind (fun _ => .done _)) (fun _ =>
      (Direct.ofProc _).bind (fun _ => (Direct.ofProc _).bind (fun _ => .done _)))))))
  · exact sim_then (Direct.ofProc _) hon

end

end DPPIR.Protocol
