import Verif.Proofs.HostileParty

/-!
# How the client stops among arbitrary peers
-/

namespace DPPIR.Protocol
open DPPIR Proc Onion Incremental Additive Spec Props

variable {box : SealedBox} {ι α β : Type}

/-- The keys are reported in order, and a result is reported only when all earlier
results are right. -/
def ClientI (W : List Nat) (h : List Obs) (o : Obs) : Prop :=
  (∀ k, o = .want k → wants h ++ [k] <+: W ∧ results h = []) ∧
  (∀ r, o = .result r → wants h = W ∧ results h <+: W.map Database.row ∧ (results h).length < W.length)

theorem ClientI.other {W : List Nat} {h : List Obs} {o : Obs} (h1 : ∀ k, o ≠ .want k) (h2 : ∀ r, o ≠ .result r) : ClientI W h o :=
  ⟨fun k hk => absurd hk (h1 k), fun r hr => absurd hr (h2 r)⟩

/-- The client stops by failed assertions only. -/
def OnlyAsserts (_ : List Obs) (e : Fault) : Prop := e = .assertFail

theorem runs_safeI {I : List Obs → Obs → Prop} {F : List Obs → Fault → Prop} {p : Prog ι α} {as : List (PAct ι)} {a : α} {h : List Obs}
    (hr : Runs p as a) (d : ι) (bytes : List Byte)
    (hc : comm as = bytes.map (Act.send d)) (hI : ∀ x o y, obsOf as = x ++ o :: y → I (h ++ x) o) :
    Safe I F p (fun a' h' => a' = a ∧ h' = h ++ obsOf as) h := by
  induction hr generalizing h bytes with
  | done a => exact ⟨rfl, (List.append_nil _).symm⟩
  | @send d' b k as a hk ih =>
    cases bytes with
    | nil => cases hc
    | cons x bytes => exact ih bytes (List.cons.inj hc).2 hI
  | @recv s k b as a hk ih =>
    cases bytes with
    | nil => cases hc
    | cons x bytes => exact absurd (List.cons.inj hc).1 (by simp)
  | @obs o k as a hk ih =>
    rw [obsOf_obs] at hI
    refine ⟨by simpa using hI [] o _ rfl, (ih (h := h ++ [o]) bytes hc ?_).mono ?_⟩
    · intro x o' y hxy
      simpa using hI (o :: x) o' y (by rw [hxy]; rfl)
    · rintro a' h' ⟨rfl, rfl⟩
      exact ⟨rfl, by rw [obsOf_obs]; simp⟩

/-- Neither keys nor results are reported. -/
structure Same (h h' : List Obs) : Prop where
  wants : wants h' = wants h
  results : results h' = results h

theorem wants_append (a b : List Obs) : wants (a ++ b) = wants a ++ wants b := List.filterMap_append ..
theorem results_append (a b : List Obs) : results (a ++ b) = results a ++ results b := List.filterMap_append ..

theorem Same.obs (h : List Obs) {o : Obs} (h1 : ∀ k, o ≠ .want k) (h2 : ∀ r, o ≠ .result r) : Same h (h ++ [o]) := by
  refine ⟨?_, ?_⟩
  · rw [wants_append]
    cases o <;> first | exact List.append_nil _ | exact absurd rfl (h1 _)
  · rw [results_append]
    cases o <;> first | exact List.append_nil _ | exact absurd rfl (h2 _)

theorem Same.refl (h : List Obs) : Same h h := ⟨rfl, rfl⟩
theorem Same.trans {a b c : List Obs} (h : Same a b) (h' : Same b c) : Same a c :=
  ⟨h'.wants.trans h.wants, h'.results.trans h.results⟩

section
variable {W : List Nat} {h : List Obs}

theorem client_sendCount (dst : ι) (n : Nat) : Safe (ClientI W) OnlyAsserts (sendCount dst n) (fun _ h' => Same h h') h :=
  ⟨ClientI.other (by simp) (by simp), Safe.sendBytes (Same.obs h (by simp) (by simp))⟩

theorem client_wait (src : ι) : Safe (ClientI W) OnlyAsserts (waitForReady src) (fun _ h' => Same h h') h := by
  refine Safe.bind (Safe.recvBytes _ (fun l _ => ?_))
  refine Safe.bind (Safe.lift (fun _ _ => ⟨ClientI.other (by simp) (by simp), Same.obs h (by simp) (by simp)⟩) (fun e he => ?_))
  unfold assert at he
  split at he
  · cases he
  · exact (Except.error.inj he).symm

end

section
variable {pkeys : List box.PKey} {skeys : List box.SKey}

theorem safe_done {I : List Obs → Obs → Prop} {F : List Obs → Fault → Prop} {a : α} {Q : α → List Obs → Prop} {h : List Obs} (hq : Q a h) :
    Safe I F (.done a : Prog ι α) Q h := hq

attribute [local irreducible] Proc.Safe in
theorem client_offlineStep (hgood : GoodKeys box pkeys skeys) (hp : pkeys.length ≤ 255) (c : Client box)
    (hpk : c.pkeys = pkeys) (hpc : c.partyCount = pkeys.length) (hpos : 0 < pkeys.length) (rand : ClientRand box) (next : ι) (count : Nat)
    (h32 : count < 2 ^ 32) (W : List Nat) (h : List Obs) (j : Nat) (c' : Client box) (w : WBuf) (h' : List Obs) (hj : j < count)
    (s3 : Same h h') (hc : c' = { c with
      queriesCount := count
      state := clientState count j (clientTag c.serverId count) (fun i => preIncrementalSecretShares (rand.secret i).shares pkeys.length)
        (fun i => (rand.secret i).own pkeys.length) }) (hw : w.Room (cipherSize pkeys.length)) :
    Safe (ClientI W) OnlyAsserts (Client.offlineStep rand next j (c', w)) (fun s h' => Same h h' ∧ s.1 = { c with
      queriesCount := count
      state := clientState count (j + 1) (clientTag c.serverId count) (fun i => preIncrementalSecretShares (rand.secret i).shares pkeys.length)
        (fun i => (rand.secret i).own pkeys.length) } ∧ s.2.Room (cipherSize pkeys.length)) h' := by
  have hps : 0 < cipherSize pkeys.length ∧ cipherSize pkeys.length ≤ Sockets.bufferSize := by
    simp only [cipherSize, secretSize, sealBytes, Sockets.bufferSize]
    omega
  have e1 := (Ticket.encrypt_eq hgood hp (k := 0) ((rand.secret j).ticket_good pkeys.length (clientTag c.serverId count j)) (by omega)
    (rand.secret j).junk (rand.secret j).junk').1
  have hlen := Ticket.cipher_length hgood hp (k := 0) ((rand.secret j).ticket_good pkeys.length (clientTag c.serverId count j)) (by omega)
  have hsl := slice_zero (b := []) hlen
  rw [List.append_nil] at hsl
  refine Exists.elim (sendCipher_ok next _ _ _ hsl hps.1 hps.2 w hw) (fun as hx => Exists.elim hx (fun w' hx => ?_))
  refine Exists.elim hx.2.2.1 (fun sent hs => ?_)
  have h1 := hx.1
  have h2 := hx.2.1
  have h3 := hs.1
  have h4 := hx.2.2.2
  clear hs hx
  subst hc
  unfold Client.offlineStep
  simp only
  refine safe_ok (makeSecret_ok _ (rand.secret j) j count (clientTag c.serverId count) _ _ rfl hj h32
    (by simp only; omega) rfl (by simp only; rw [hpc]) (by simp only; rw [hpc])) ?_
  simp only
  rw [hpk, hpc]
  refine safe_ok e1 (Safe.bind' (runs_safeI h1 next sent h3 ?_) ?_)
  · intro x o y hxy
    rw [h4] at hxy
    have : o ∈ x ++ o :: y := by simp
    rw [← hxy] at this
    rw [List.mem_singleton.1 this]
    exact ClientI.other (by simp) (by simp)
  · rintro a' h'' ⟨rfl, rfl⟩
    rw [h4]
    exact safe_done ⟨s3.trans (Same.obs _ (by simp) (by simp)), rfl, h2⟩

attribute [local irreducible] Proc.Safe in
theorem client_offline_safe (hgood : GoodKeys box pkeys skeys) (hp : pkeys.length ≤ 255) (c : Client box)
    (hpk : c.pkeys = pkeys) (hpc : c.partyCount = pkeys.length) (hpos : 0 < pkeys.length) (rand : ClientRand box) (next : ι) (count : Nat)
    (h32 : count < 2 ^ 32) (W : List Nat) (h : List Obs) :
    Safe (ClientI W) OnlyAsserts (c.startOffline rand next count) (fun c' h' => Same h h' ∧ ∃ st, c' = { c with queriesCount := count, state := st } ∧
      ClientReady st count (clientTag c.serverId count)
        (fun i => preIncrementalSecretShares (rand.secret i).shares pkeys.length)
        (fun i => (rand.secret i).own pkeys.length)) h := by
  let tag := clientTag c.serverId count
  let shares := fun i => preIncrementalSecretShares (rand.secret i).shares pkeys.length
  let own := fun i => (rand.secret i).own pkeys.length
  have hps : 0 < cipherSize pkeys.length ∧ cipherSize pkeys.length ≤ Sockets.bufferSize := by
    simp only [cipherSize, secretSize, sealBytes, Sockets.bufferSize]
    omega
  have e0 : clientState count 0 tag shares own = c.state.initialize c.partyCount count false false := by
    simp [clientState, ClientState.initialize]
  refine Safe.bind' (client_sendCount next count) (fun _ h1 s1 => Safe.bind' (client_wait next) (fun _ h2 s2 => ?_))
  refine Safe.bind' (Safe.loop (f := Client.offlineStep rand next) (fun j (s : Client box × WBuf) h' => Same h h' ∧ s.1 = { c with
      queriesCount := count
      state := clientState count j tag shares own } ∧ s.2.Room (cipherSize pkeys.length)) count 0 _ h2
      ⟨s1.trans s2, by rw [e0], WBuf.room_empty hps.1 hps.2⟩ ?_) ?_
  · intro j s h' _ hj hs
    rw [Nat.zero_add] at hj
    cases s
    exact client_offlineStep hgood hp c hpk hpc hpos rand next count h32 W h j _ _ h' hj hs.1 hs.2.1 hs.2.2
  · intro s h3 hs
    refine Safe.bind (Safe.sendBytes ?_)
    refine Safe.bind' (client_wait next) (fun _ h4 s4 => safe_done ⟨hs.1.trans s4, _, hs.2.1, ?_⟩)
    rw [Nat.zero_add]
    exact clientState_ready count tag shares own h32

end

theorem client_simulated_safe (c : Client box) (next : ι) (count : Nat) (W : List Nat) (h : List Obs) :
    Safe (ClientI W) OnlyAsserts (c.simulateOffline next count) (fun c' h' => Same h h' ∧ ∃ st, c' = { c with state := st } ∧
      ClientReady st count (fun _ => 0) (fun _ => List.replicate c.partyCount ⟨0, 1⟩) (fun _ => fun _ => 0)) h := by
  refine Safe.bind' (client_sendCount next count) (fun _ h1 s1 => Safe.bind' (client_wait next) (fun _ h2 s2 => ?_))
  refine ⟨s1.trans s2, _, rfl, rfl, ?_, ?_, ?_⟩ <;>
  · intro j _
    rfl

theorem response_eq {a b : Response} (h : a.eq b = true) : a = b := by
  unfold Response.eq at h
  split at h
  · cases h
  · rename_i hv
    rw [eqSigFrom_iff] at h
    cases a
    cases b
    simp only [Response.mk.injEq]
    exact ⟨not_not.1 hv, funext (fun j => h j (Nat.zero_le _))⟩

theorem client_online_safe (c : Client box) (rand : ClientRand box) (next : ι) (count rows m : Nat)
    (h32 : count < 2 ^ 32) (hdb : c.db = { size := rows, rows := (List.range rows).map Database.row })
    (hrows : 0 < rows) (hrows2 : rows ≤ p)
    (tag : Nat → BitVec 64) (shares : Nat → List Share) (own : Nat → Preshare)
    (hready : ClientReady c.state count tag shares own)
    (hm : 0 < m) (hsl : ∀ j < count, (shares j).length = m)
    (hsh : ∀ j < count, ∀ s ∈ shares j, IsShare s) (W : List Nat) (hW : W = (List.range count).map (fun j => c.db.randomRow (rand.row j)))
    (h : List Obs) (hh : wants h = [] ∧ results h = []) :
    Safe (ClientI W) OnlyAsserts (c.startOnline rand next count)
      (fun _ h' => wants h' = W ∧ results h' = W.map Database.row) h := by
  have hfresh := clientQ_good rows count m rand.row hrows hrows2 tag shares (fun _ => List.replicate m (fun _ => 0)) hm hsl
    (fun _ _ => List.length_replicate) hsh
  have hqt : ∀ j, (clientQ rows rand.row tag shares (fun _ => List.replicate m (fun _ => 0)) j).tag = tag j := fun _ => rfl
  have hqk : ∀ j, c.db.randomRow (rand.row j) = (clientQ rows rand.row tag shares (fun _ => List.replicate m (fun _ => 0)) j).key := by
    intro j; rw [hdb]; rfl
  generalize clientQ rows rand.row tag shares (fun _ => List.replicate m (fun _ => 0)) = q at *
  rw [show (fun j => c.db.randomRow (rand.row j)) = fun j => (q j).key from funext hqk] at hW
  subst hW
  have e : c.at count c.state 0 = { c with queriesCount := count } := by
    unfold Client.at
    rw [← hready.read]
  refine Safe.bind' (Safe.loop (fun j (s : Client box × List Nat × WBuf) h' => s.1 = c.at count c.state j ∧
      s.2.1 = (List.range j).map (fun j => (q j).key) ∧ s.2.2.Room querySize ∧ wants h' = (List.range j).map (fun j => (q j).key) ∧
      results h' = []) count 0 _ h
    ⟨e.symm, rfl, WBuf.room_empty (by decide) (by decide), hh.1, hh.2⟩ ?_) ?_
  · rintro j ⟨c', keys, w⟩ h' - hj ⟨hc, hk, hw, hw', hr'⟩
    simp only at hc hk hw
    subst hc hk
    rw [Nat.zero_add] at hj
    obtain ⟨as, w', h1, h2, ⟨sent, h3, -⟩, h4⟩ := queryStep_ok c rand next count c.state j ((List.range j).map (fun j => (q j).key)) w hw
      (q j) (shares j) (by omega)
      (hqk j) (by rw [hqt]; exact hready.tags j hj) (hready.shares j hj) (hfresh j hj).1
    have e : (List.range j).map (fun j => (q j).key) ++ [(q j).key] = (List.range (j + 1)).map (fun j => (q j).key) := by
      rw [List.range_succ, List.map_append]; rfl
    rw [e] at h1
    refine (runs_safeI h1 next sent h3 ?_).mono ?_
    · intro x o y hxy
      rw [h4] at hxy
      match x, hxy with
      | [], hxy =>
        obtain ⟨rfl, -⟩ := List.cons.inj hxy
        refine ⟨?_, by simp⟩
        rintro k hk
        obtain rfl := Obs.want.inj hk
        rw [List.append_nil, hw', e, hr']
        refine ⟨?_, rfl⟩
        refine List.IsPrefix.map _ ⟨List.range' (j + 1) (count - (j + 1)), ?_⟩
        rw [List.range_eq_range', List.range_eq_range']
        have := List.range'_append (s := 0) (m := j + 1) (n := count - (j + 1)) (step := 1)
        simp only [Nat.one_mul, Nat.zero_add] at this
        rw [this]
        congr 1
        omega
      | [_], hxy =>
        obtain ⟨-, hxy⟩ := List.cons.inj hxy
        obtain ⟨rfl, -⟩ := List.cons.inj hxy
        exact ClientI.other (by simp) (by simp)
      | _ :: _ :: x, hxy =>
        have := congrArg List.length hxy
        simp at this
    · rintro a' h'' ⟨rfl, rfl⟩
      rw [h4]
      refine ⟨rfl, rfl, h2, ?_, ?_⟩
      · rw [wants_append, hw', ← e]; rfl
      · rw [results_append, hr']; rfl
  · rintro ⟨c1, keys1, w1⟩ h1 ⟨h3, h4, -, h5, h6⟩
    simp only at h3 h4
    rw [Nat.zero_add] at h3 h4 h5
    subst h3 h4
    refine Safe.bind (Safe.sendBytes ?_)
    have := Safe.loop (I := ClientI ((List.range count).map (fun j => (q j).key))) (F := OnlyAsserts)
      (f := Client.responseStep (box := box) next ((List.range count).map (fun j => (q j).key)))
      (fun j s h' => s = c.at count c.state.finishSharing j ∧ wants h' = (List.range count).map (fun j => (q j).key) ∧
        results h' = (List.range j).map (fun j => Database.row (q j).key)) count 0 (c.at count c.state.finishSharing 0) h1
      ⟨rfl, h5, h6⟩ ?_
    · rw [Nat.zero_add] at this
      have e2 : ({ c.at count c.state count with state := (c.at count c.state count).state.finishSharing } : Client box) =
        c.at count c.state.finishSharing 0 := rfl
      rw [← e2] at this
      refine Safe.mono this ?_
      rintro _ h' ⟨-, a, b⟩
      exact ⟨a, by rw [b, List.map_map]; rfl⟩
    · rintro j c' h' - hj ⟨rfl, hw, hr⟩
      rw [Nat.zero_add] at hj
      unfold Client.responseStep
      refine Safe.bind (Safe.bind (Safe.recvBytes _ (fun l _ => ⟨ClientI.other (by simp) (by simp), ?_⟩)))
      generalize Response.decode l = r
      have hs := Same.obs h' (o := .recvResponse r) (by simp) (by simp)
      generalize h' ++ [Obs.recvResponse r] = h2 at hs
      rw [← hs.wants] at hw
      rw [← hs.results] at hr
      have hrec : ∃ r', (c.at count c.state.finishSharing j).reconstructResponse r = .ok (c.at count c.state.finishSharing (j + 1), r') := by
        unfold Client.reconstructResponse ClientState.loadNext Client.at
        simp only
        have := hready.own j hj
        rw [wrap32_of_lt (by omega), this, bind_ok, additiveReconstruct_ok, bind_ok]
        exact ⟨_, rfl⟩
      obtain ⟨r', hrec⟩ := hrec
      have hl : (c.at count c.state.finishSharing (j + 1)).db.lookup (q j).key = .ok (Database.row (q j).key) := by
        show c.db.lookup _ = _
        rw [hdb]
        unfold Database.lookup
        rw [rd_eq_ok]
        simp [(hfresh j hj).2.key]
      refine safe_ok hrec ⟨⟨by simp, ?_⟩, ?_⟩
      · intro r1 hr1
        refine ⟨hw, ?_, ?_⟩
        · rw [hr, List.map_map]
          refine List.IsPrefix.map _ ⟨List.range' j (count - j), ?_⟩
          rw [List.range_eq_range', List.range_eq_range']
          have := List.range'_append (s := 0) (m := j) (n := count - j) (step := 1)
          simp only [Nat.one_mul, Nat.zero_add] at this
          rw [this]
          congr 1
          omega
        · rw [hr]
          simpa using hj
      · show Safe _ _ ((lift (rd _ j)).bind _) _ _
        refine safe_ok (a := (q j).key) (rd_eq_ok.2 (by simp [hj])) (safe_ok hl ?_)
        refine Safe.bind (Safe.lift (fun _ ha => ?_) (fun e he => ?_))
        · unfold assert at ha
          split at ha
          · rename_i heq
            refine ⟨rfl, by rw [wants_append, hw]; exact List.append_nil _, ?_⟩
            rw [results_append, hr, List.range_succ, List.map_append, response_eq heq]
            rfl
          · cases ha
        · unfold assert at he
          split at he
          · cases he
          · exact (Except.error.inj he).symm

/-- What a record says in which all calls were allowed. -/
theorem clientI_record {W : List Nat} {t : List Obs} (h : ∀ a o b, t = a ++ o :: b → ClientI W a o) :
    wants t <+: W ∧ (results t ≠ [] → wants t = W) ∧ (results t).dropLast <+: W.map Database.row ∧ (results t).length ≤ W.length := by
  induction t using List.reverseRecOn with
  | nil => exact ⟨List.nil_prefix, fun h => absurd rfl h, List.nil_prefix, Nat.zero_le _⟩
  | append_singleton t o ih =>
    obtain ⟨i1, i2, i3, i4⟩ := ih (fun a o' b hab => h a o' (b ++ [o]) (by rw [hab]; simp))
    have ho := h t o [] (by simp)
    by_cases hw : ∃ k, o = .want k
    · obtain ⟨k, rfl⟩ := hw
      obtain ⟨j1, j2⟩ := ho.1 k rfl
      rw [wants_append, results_append, j2]
      exact ⟨j1, fun h => absurd rfl h, List.nil_prefix, Nat.zero_le _⟩
    · by_cases hr : ∃ r, o = .result r
      · obtain ⟨r, rfl⟩ := hr
        obtain ⟨j1, j2, j3⟩ := ho.2 r rfl
        rw [wants_append, results_append]
        have e1 : wants [Obs.result r] = [] := rfl
        have e2 : results [Obs.result r] = [r] := rfl
        rw [e1, e2, List.append_nil, List.dropLast_concat, List.length_append]
        exact ⟨i1, fun _ => j1, j2, j3⟩
      · have hs := Same.obs t (fun k hk => hw ⟨k, hk⟩) (fun r hr' => hr ⟨r, hr'⟩)
        rw [hs.wants, hs.results]
        exact ⟨i1, i2, i3, i4⟩

/-- The keys the client asks for. -/
def Chain.keys' (c : Chain box) : List Nat := (List.range c.count).map c.wanted

theorem client_start_hostile {pkeys : List box.PKey} {skeys : List box.SKey} (hgood : GoodKeys box pkeys skeys) (hp : pkeys.length ≤ 255)
    (hpos : 0 < pkeys.length) (cl : Client box) (hpk : cl.pkeys = pkeys) (hpc : cl.partyCount = pkeys.length) (rand : ClientRand box) (next : ι)
    (count rows : Nat) (h32 : count < 2 ^ 32) (hdb : cl.db = { size := rows, rows := (List.range rows).map Database.row })
    (hr0 : 0 < rows) (hr : rows ≤ p) (W : List Nat) (hW : W = (List.range count).map (fun j => cl.db.randomRow (rand.row j)))
    (offline online : Bool) :
    Safe (ClientI W) OnlyAsserts (cl.start rand next count offline online)
      (fun _ h' => online = true → wants h' = W ∧ results h' = W.map Database.row) [] := by
  have hs : cl.start rand next count offline online = (if offline then cl.startOffline rand next count else cl.simulateOffline next count).bind
      fun c' => if online then (c'.startOnline rand next count).bind fun _ => .done () else .done () := by
    unfold Client.start
    cases offline <;> rfl
  rw [hs]
  refine Safe.bind' (R := fun c' h' => Same [] h' ∧ c'.db = cl.db ∧ ∃ tag shares own, ClientReady c'.state count tag shares own ∧
    (∀ j < count, (shares j).length = pkeys.length) ∧ ∀ j < count, ∀ s ∈ shares j, IsShare s) ?_ ?_
  · cases offline with
    | true =>
      refine (client_offline_safe hgood hp cl hpk hpc hpos rand next count h32 _ _).mono ?_
      rintro _ h' ⟨s, st, rfl, hr⟩
      refine ⟨s, rfl, _, _, _, hr, ?_, ?_⟩
      · intro j _
        exact preShares_length _ _
      · intro j _ s hs
        exact preShares_valid _ _ _ hs
    | false =>
      refine (client_simulated_safe cl next count _ _).mono ?_
      rintro _ h' ⟨s, st, rfl, hr⟩
      refine ⟨s, rfl, _, _, _, hr, ?_, ?_⟩
      · intro j _
        simp [hpc]
      · intro j _ s hs
        rw [List.eq_of_mem_replicate hs]
        exact isShare_id
  · rintro c' h' ⟨s, hdb', tag, shares, own, hr', h1, h2⟩
    cases online with
    | false => exact fun h => by cases h
    | true =>
      refine Safe.bind' (client_online_safe c' rand next count rows pkeys.length h32 (hdb'.trans hdb) hr0 hr tag shares own hr'
        (by omega) h1 h2 W ?_ h' ⟨s.wants, s.results⟩) ?_
      · rw [hdb']
        exact hW
      · intro _ h'' hh _
        exact hh

theorem client_hostile {c : Chain box} (h : c.Configured) (h32 : c.count < 2 ^ 32) (offline online : Bool) :
    Safe (ClientI c.keys') OnlyAsserts (c.client offline online)
      (fun _ h' => online = true → wants h' = c.keys' ∧ results h' = c.keys'.map Database.row) [] := by
  have hP := h.parties
  have hlen : c.pkeys.length = c.parties := by rw [h.keys]; simp
  unfold Chain.client
  refine safe_ok (database_new _) ?_
  let cl : Client box := { serverId := 0, partyCount := c.parties, db := { size := c.rows, rows := (List.range c.rows).map Database.row }, pkeys := c.pkeys }
  refine safe_ok (a := cl) (by simp [Client.new, assert, hP.1]; rfl) ?_
  exact client_start_hostile h.good (by omega) (by omega) cl rfl hlen.symm c.clientRand 1 c.count c.rows h32 rfl h.rowsp.1 h.rowsp.2 _ rfl offline online

end DPPIR.Protocol
