import Verif.Proofs.HostileParty

/-!
# How the backend and the client stop among arbitrary peers
-/

namespace DPPIR.Protocol
open DPPIR Proc Onion Incremental Additive Spec Props

variable {box : SealedBox} {ι α β : Type}

theorem _root_.DPPIR.Proc.Safe.each_mem {O σ γ : Type} {I : List O → O → Prop} {F : List O → Fault → Prop} {f : γ → σ → Proc ι O σ}
    (Inv : σ → List O → Prop) (l : List γ) (s : σ) (h : List O)
    (h0 : Inv s h) (hstep : ∀ c ∈ l, ∀ s h, Inv s h → Safe I F (f c s) Inv h) : Safe I F (each f l s) Inv h := by
  induction l generalizing s h with
  | nil => exact h0
  | cons c l ih =>
    exact Safe.bind' (hstep c List.mem_cons_self s h h0) (fun s' h' hs' => ih s' h' hs' (fun c hc => hstep c (List.mem_cons_of_mem _ hc)))

theorem _root_.DPPIR.Proc.Safe.weaken {O : Type} {I : List O → O → Prop} {F F' : List O → Fault → Prop} {p : Proc ι O α}
    {Q : α → List O → Prop} {h : List O} (hs : Safe I F p Q h) (hF : ∀ h e, F h e → F' h e) : Safe I F' p Q h := by
  induction p generalizing h with
  | done a => exact hs
  | fault e => exact hF _ _ hs
  | send d b k ih => exact ih hs
  | recv s k ih => exact fun b => ih b (hs b)
  | obs o k ih => exact ⟨hs.1, ih hs.2⟩

/-! ### The backend -/

/-- What stops a backend other than a failed assertion or an exception. -/
def BackendBlame (rows : Nat) (offline : Bool) (h : List Obs) : Prop := (offline = true ∧ UnknownTag h) ∨ OutOfRange rows h

/-- The same for a backend that has further secrets, with tags `extra`, from elsewhere. -/
def BackendBlameX (rows : Nat) (offline : Bool) (extra : BitVec 64 → Prop) (h : List Obs) : Prop :=
  (offline = true ∧ ∃ q ∈ queriesRead h, q.tag ∉ (stores h).map OfflineSecret.tag ∧ ¬ extra q.tag) ∨ OutOfRange rows h

/-- A tag the state has no secret for is one the record has no store of. -/
def KnowsB (st : BackendState) (offline : Bool) (extra : BitVec 64 → Prop) (h : List Obs) : Prop :=
  ∀ tag, st.secrets.lookup (if st.simulated then 0 else tag) = none → offline = true ∧ tag ∉ (stores h).map OfflineSecret.tag ∧ ¬ extra tag

theorem KnowsB.keeps {st : BackendState} {offline : Bool} {extra : BitVec 64 → Prop} {h h' : List Obs} (hk : KnowsB st offline extra h) (hh : Keeps h h') : KnowsB st offline extra h' := by
  intro tag ht
  rw [hh.stores]
  exact hk tag ht

theorem backendInstall_safe {B : List Obs → Prop} (b : Backend box) (back : ι) (h : List Obs)
    (hsim : b.state.simulated = false) (hk : b.state.secrets.map Prod.fst = (stores h).map OfflineSecret.tag) :
    Safe Any (Stop B) (b.collectAndInstallSecrets back) (fun b' h' => ∃ st, b' = { b with state := st } ∧ st.simulated = false ∧
      st.secrets.map Prod.fst = (stores h').map OfflineSecret.tag) h := by
  refine Safe.loop (I := Any) (F := Stop B) (f := Backend.installStep (box := box) back)
    (fun _ b' h' => ∃ st, b' = { b with state := st } ∧ st.simulated = false ∧
      st.secrets.map Prod.fst = (stores h').map OfflineSecret.tag) _ 0 b h ⟨b.state, rfl, hsim, hk⟩ ?_
  rintro j q h' - - ⟨st, rfl, a2, a3⟩
  refine Safe.bind' (recvCipher_safe back _) ?_
  rintro c h'' ⟨c1, rfl⟩
  unfold Backend.handleOnionCipher
  have hdec : onionDecrypt box c 1 b.pkey b.skey =
      match box.openMsg b.pkey b.skey c with | none => .error .assertFail | some plain => .ok ⟨plain⟩ := by
    unfold onionDecrypt
    simp only
    rw [if_neg (by simp [cipherSize, secretSize]), show slice c 0 (cipherSize 1) = .ok c from by
        have := slice_zero (b := []) c1
        rwa [List.append_nil] at this, bind_ok]
    rfl
  simp only
  rw [hdec]
  cases hopen : box.openMsg b.pkey b.skey c with
  | none => exact Or.inl rfl
  | some plain =>
    have hplain := box.open_length _ _ _ _ hopen
    have hmsg : (OnionLayer.mk plain).msg = .ok (OfflineSecret.decode (plain.take secretSize)) := by
      unfold OnionLayer.msg
      have : secretSize + sealBytes = plain.length + sealBytes := by rw [← hplain, c1]; rfl
      rw [slice_ok (by simp only; omega)]
      rfl
    refine safe_ok (a := OnionLayer.mk plain) rfl (safe_ok hmsg ?_)
    generalize OfflineSecret.decode (plain.take secretSize) = msg
    refine ⟨trivial, ?_⟩
    show Safe _ _ ((lift (st.store msg)).bind _) _ _
    unfold BackendState.store
    cases hlk : st.secrets.lookup msg.tag with
    | some _ => exact Or.inl rfl
    | none =>
      refine ⟨_, rfl, a2, ?_⟩
      simp only
      rw [stores_append, stores_append, List.map_append, List.map_append, List.map_append, a3]
      simp [stores]

theorem backendCollect_safe {B : List Obs → Prop} (b : Backend box) (back : ι) (h : List Obs) (n : Nat) (h32 : n < 2 ^ 32)
    (hb : b.queries = Batch.initialize n ⟨0, 0⟩) :
    Safe Any (Stop B) (b.collectQueries back) (fun b' h' => Keeps h h' ∧ ∃ ptr, b' = { b with
        queries := { ptr := ptr, capacity := n, right := n } } ∧ ptr.length = n ∧ ∀ q ∈ ptr, q ∈ queriesRead h') h := by
  have := Safe.loop (I := Any) (F := Stop B) (f := Backend.collectQuery (box := box) back)
    (fun j b' h' => Keeps h h' ∧ ∃ qs : List Query, b' = { b with
        queries := { ptr := qs ++ List.replicate (n - j) ⟨0, 0⟩, capacity := n, right := j } } ∧ qs.length = j ∧
        ∀ q ∈ qs, q ∈ queriesRead h') n 0 b h ⟨Keeps.refl h, [], by cases b; simp only at hb; subst hb; rfl, rfl, by simp⟩ (by
    rintro j b' h' - hj ⟨a1, qs, rfl, a2, a3⟩
    refine Safe.bind' (recvQuery_safe back) ?_
    rintro q h'' rfl
    refine safe_ok (a := { ptr := (qs ++ [q]) ++ List.replicate (n - (j + 1)) ⟨0, 0⟩, capacity := n, right := j + 1 }) ?_ ?_
    · unfold Batch.pushBack
      simp only
      rw [wr_ok (by simp; omega), bind_ok, wrap32_of_lt (by omega), show n - j = n - (j + 1) + 1 by omega]
      have := set_at_done qs q (⟨0, 0⟩ : Query) (n - (j + 1))
      rw [a2] at this
      rw [this]
    · refine ⟨a1.trans (Keeps.obs _ (by simp)), qs ++ [q], rfl, by simp [a2], ?_⟩
      intro x hx
      rw [queriesRead_append]
      rcases List.mem_append.1 hx with hx | hx
      · exact List.mem_append_left _ (a3 x hx)
      · rw [List.mem_singleton.1 hx]
        exact List.mem_append_right _ (List.mem_singleton.2 rfl))
  unfold Backend.collectQueries
  rw [show b.queries.capacity = n by rw [hb]; rfl]
  rw [Nat.zero_add] at this
  refine this.mono ?_
  rintro b' h' ⟨k1, qs, rfl, l1, l2⟩
  refine ⟨k1, qs, by simp, l1, l2⟩

theorem backendOnline_safe {offline : Bool} {extra : BitVec 64 → Prop} (b : Backend box) (back : ι) (junk : Response) (h : List Obs) (n rows : Nat) (h32 : n < 2 ^ 32)
    (hb : b.queries = Batch.initialize n ⟨0, 0⟩) (hdb : b.db = { size := rows, rows := (List.range rows).map Database.row })
    (hk : KnowsB b.state offline extra h) :
    Safe Any (Stop (BackendBlameX rows offline extra)) (b.startOnline back junk) (fun _ _ => True) h := by
  refine Safe.bind' (backendCollect_safe b back h n h32 hb) ?_
  rintro b' h' ⟨k1, ptr, rfl, l1, l2⟩
  have hk1 := hk.keeps k1
  unfold Backend.sendResponses Batch.elements
  refine safe_ok (slice_ok (by simp only; omega)) ?_
  simp only
  rw [List.drop_zero, List.take_of_length_le (by omega)]
  refine Safe.bind' (Safe.each_mem (fun (s : Backend box × WBuf) h'' => Keeps h' h'' ∧ s.1.db = b.db ∧ KnowsB s.1.state offline extra h'' ∧
    s.2.Room responseSize) ptr _ h' ⟨Keeps.refl _, rfl, hk1, WBuf.room_empty (by decide) (by decide)⟩ ?_) ?_
  · rintro q hq ⟨b', w⟩ h'' ⟨a1, a2, a3, a4⟩
    simp only at a2 a3 a4
    unfold Backend.respond
    refine Safe.bind' (R := fun x h3 => Keeps h' h3 ∧ x.1.db = b.db ∧ KnowsB x.1.state offline extra h3) ?_ ?_
    · unfold Backend.handleQuery BackendState.getIncremental BackendState.getPreshare
      cases hl : b'.state.secrets.lookup (if b'.state.simulated then 0 else q.tag) with
      | none =>
        have : (b'.state.loadSecret q.tag).it = none := hl
        simp only [this]
        obtain ⟨e1, e2⟩ := a3 _ hl
        exact Or.inr (Or.inr (Or.inl ⟨e1, q, a1.reads q (l2 q hq), e2⟩))
      | some e =>
        have hit : (b'.state.loadSecret q.tag).it = some e := hl
        simp only [hit]
        refine safe_ok rfl ⟨trivial, ?_⟩
        generalize (incrementalReconstruct q.tally e.incremental).toNat = key
        show Safe _ _ ((lift (b'.db.lookup key)).bind _) _ _
        by_cases hkey : key < rows
        · have hlk : b'.db.lookup key = .ok (Database.row key) := by
            rw [a2, hdb]
            unfold Database.lookup
            rw [rd_eq_ok]
            simp [hkey]
          refine safe_ok hlk (safe_ok rfl (safe_ok (additiveReconstructInto_ok _ _ _) ?_))
          refine ⟨a1.trans (Keeps.obs _ (by simp)), a2, ?_⟩
          exact a3.keeps (Keeps.obs _ (by simp))
        · have hlk : b'.db.lookup key = .error .ub := by
            rw [a2, hdb]
            unfold Database.lookup rd
            simp [show rows ≤ key by omega]
          rw [hlk]
          exact Or.inr (Or.inr (Or.inr ⟨h'', key, rfl, by omega⟩))
    · rintro ⟨b3, r⟩ h3 ⟨d1, d2, d3⟩
      refine Safe.bind' (sendResponse_safe back r w a4) ?_
      rintro w' h4 ⟨e1, rfl⟩
      exact ⟨d1.trans (Keeps.obs _ (by simp)), d2, d3.keeps (Keeps.obs _ (by simp)), e1⟩
  · rintro ⟨b3, w⟩ h3 _
    exact Safe.bind (Safe.sendBytes trivial)

theorem backend_start_hostile (b : Backend box) (back : ι) (junk : Response) (rows : Nat) (offline online : Bool)
    (hst : b.state = {}) (hdb : b.db = { size := rows, rows := (List.range rows).map Database.row }) :
    Safe Any (Stop (BackendBlame rows offline)) (b.start back junk offline online) (fun _ _ => True) [] := by
  have hs : b.start back junk offline online = (if offline then b.startOffline back else b.simulateOffline back).bind
      fun b => if online then (b.startOnline back junk).bind fun _ => .done () else .done () := by
    unfold Backend.start
    cases offline <;> rfl
  rw [hs]
  refine Safe.bind' (R := fun b' h' => ∃ n, n < 2 ^ 32 ∧ b'.queries = Batch.initialize n ⟨0, 0⟩ ∧ b'.db = b.db ∧ KnowsB b'.state offline (fun _ => False) h') ?_ ?_
  · have hbatch : Safe Any (Stop (BackendBlame rows offline)) (b.initializeBatch back) (fun b' h' => ∃ n, n < 2 ^ 32 ∧ Keeps [] h' ∧
        b' = { b with queries := Batch.initialize n ⟨0, 0⟩ }) [] := by
      refine Safe.bind' (readCount_safe back) ?_
      rintro n h' ⟨h1, h2, -⟩
      exact ⟨n, h1, h2, rfl⟩
    cases offline with
    | true =>
      refine Safe.bind' hbatch ?_
      rintro b1 h1 ⟨n, hn, k1, rfl⟩
      refine Safe.bind' (sendReady_safe back) ?_
      rintro - h2 rfl
      have k2 := k1.trans (Keeps.obs h1 (o := .sendReady) (by simp))
      refine Safe.bind' (backendInstall_safe _ back _ ?_ ?_) ?_
      · simp only [hst]; rfl
      · rw [k2.stores]; simp only [hst]; rfl
      rintro b2 h2 ⟨st, rfl, d1, d2⟩
      refine Safe.bind' (sendReady_safe back) ?_
      rintro - h3 rfl
      refine ⟨n, hn, rfl, rfl, ?_⟩
      refine KnowsB.keeps (h := h2) ?_ (Keeps.obs _ (by simp))
      intro tag ht
      simp only [d1] at ht
      refine ⟨rfl, ?_, fun h => h⟩
      rw [← d2]
      exact lookup_none_keys _ _ ht
    | false =>
      refine Safe.bind' hbatch ?_
      rintro b1 h1 ⟨n, hn, k1, rfl⟩
      refine Safe.bind' (sendReady_safe back) ?_
      rintro - h2 rfl
      refine ⟨n, hn, rfl, rfl, ?_⟩
      intro tag ht
      simp [BackendState.initialize] at ht
  · rintro b' h' ⟨n, h1, h2, h3, h4⟩
    cases online with
    | false => trivial
    | true =>
      refine Safe.bind' ((backendOnline_safe b' back junk h' n rows h1 h2 (h3.trans hdb) h4).weaken ?_) ?_
      · rintro h'' e (he | he | ⟨h5, q, h6, h7, -⟩ | he)
        · exact Or.inl he
        · exact Or.inr (Or.inl he)
        · exact Or.inr (Or.inr (Or.inl ⟨h5, q, h6, h7⟩))
        · exact Or.inr (Or.inr (Or.inr he))
      intro _ _ _
      trivial

theorem backend_hostile {c : Chain box} (h : 2 ≤ c.parties) (offline online : Bool) :
    Safe Any (Stop (BackendBlame c.rows offline)) (c.backend offline online) (fun _ _ => True) [] := by
  unfold Chain.backend
  refine safe_ok (database_new _) (safe_ok (a := ({ db := { size := c.rows, rows := (List.range c.rows).map Database.row }, pkey := c.pkey (c.parties - 1), skey := c.skey (c.parties - 1) } : Backend box)) ?_ ?_)
  · simp [Backend.new, assert, h]
  · exact backend_start_hostile _ _ _ _ _ _ rfl rfl

end DPPIR.Protocol
