import Verif.Proofs.Ticket
import Verif.Model.Backend

/-!
# What the backend does
-/

namespace DPPIR.Protocol
open DPPIR Proc Onion Incremental Additive Spec Props

variable {box : SealedBox} {ι : Type}

/-- Loop rule along a list. -/
theorem _root_.DPPIR.Proc.Runs.loop_list {O σ γ : Type} (Inv : Nat → σ → Prop) (f : Nat → σ → Proc ι O σ)
    (acts : γ → List (Act ι O)) (l : List γ) (i : Nat) (s : σ) (h0 : Inv 0 s)
    (h : ∀ j s (hj : j < l.length), Inv j s → ∃ s', Runs (f (i + j) s) (acts l[j]) s' ∧ Inv (j + 1) s') :
    ∃ s', Runs (Proc.loop l.length i f s) (l.flatMap acts) s' ∧ Inv l.length s' := by
  induction l generalizing i s Inv with
  | nil => exact ⟨s, .done _, h0⟩
  | cons c l ih =>
    obtain ⟨s1, h1, h2⟩ := h 0 s (by simp) h0
    obtain ⟨s2, h3, h4⟩ := ih (fun j => Inv (j + 1)) (i + 1) s1 h2 (by
      intro j s hj hi
      have := h (j + 1) s (by simpa using hj) hi
      rw [← Nat.add_assoc, Nat.add_right_comm] at this
      exact this)
    exact ⟨s2, Runs.bind h1 h3, h4⟩

/-- Loop rule for range-based `for`. -/
theorem _root_.DPPIR.Proc.Runs.each_list {O σ γ δ : Type} (Inv : σ → Prop) (f : γ → σ → Proc ι O σ) (g : δ → γ)
    (acts : δ → List (Act ι O)) (l : List δ) (s : σ) (h0 : Inv s)
    (h : ∀ c ∈ l, ∀ s, Inv s → ∃ s', Runs (f (g c) s) (acts c) s' ∧ Inv s') :
    ∃ s', Runs (Proc.each f (l.map g) s) (l.flatMap acts) s' ∧ Inv s' := by
  induction l generalizing s with
  | nil => exact ⟨s, .done _, h0⟩
  | cons c l ih =>
    obtain ⟨s1, h1, h2⟩ := h c List.mem_cons_self s h0
    obtain ⟨s2, h3, h4⟩ := ih s1 h2 (fun c hc => h c (List.mem_cons_of_mem _ hc))
    exact ⟨s2, Runs.bind h1 h3, h4⟩

/-- The backend's state serves the query's secret. -/
structure BackendServes (s : BackendState) (q : QTicket) : Prop where
  share : (s.loadSecret q.tag).getIncremental = .ok (q.shares.headD ⟨0, 1⟩)
  pre : (s.loadSecret q.tag).getPreshare = .ok (q.pres.headD (fun _ => 0))

theorem backendServes_it (s : BackendState) (x : Option BackendSecret) (q : QTicket) :
    BackendServes { s with it := x } q ↔ BackendServes s q := Iff.rfl.trans ⟨fun h => ⟨h.1, h.2⟩, fun h => ⟨h.1, h.2⟩⟩

section
variable {pkeys : List box.PKey} {skeys : List box.SKey}

theorem backend_initializeBatch (b : Backend box) (back : ι) (n : Nat) (h : n < 2 ^ 32) :
    Runs (b.initializeBatch back) (aRecvCount back n) { b with queries := Batch.initialize n ⟨0, 0⟩ } :=
  Runs.bind' (runs_readCount back n h) (Runs.done _) (List.append_nil _).symm

theorem backend_installStep (hgood : GoodKeys box pkeys skeys) (hp : pkeys.length ≤ 255) (b : Backend box) (back : ι)
    (j : Nat) (t : Ticket box) (ht : t.Good 1) (hpos : 0 < pkeys.length)
    (hpk : pkeys[pkeys.length - 1]? = some b.pkey) (hsk : skeys[pkeys.length - 1]? = some b.skey)
    (hno : b.state.secrets.lookup t.tag = none) :
    Runs (Backend.installStep back j b)
      (aRecvCipher back (t.cipher pkeys (pkeys.length - 1)) ++ [.obs (.store t.head)])
      { b with state := { b.state with secrets := b.state.secrets ++ [(OfflineSecret.entryB t.head)], it := none } } := by
  obtain ⟨layer, h1, h2, -⟩ := Ticket.peel hgood hp (k := pkeys.length - 1) (m := 0) ht (by omega) [] b.pkey b.skey hpk hsk
  rw [List.append_nil] at h1
  have hst : b.state.store t.head = .ok { b.state with
      secrets := b.state.secrets ++ [(OfflineSecret.entryB t.head)]
      it := none } := by
    unfold BackendState.store
    have : t.head.tag = t.tag := rfl
    rw [this, hno]
    rfl
  unfold Backend.installStep
  refine Runs.bind (runs_recvCipher back _ _ ?_) ?_
  · exact Ticket.cipher_length hgood hp (k := pkeys.length - 1) ht (by omega)
  · unfold Backend.handleOnionCipher
    exact Runs.bind' (Runs.lift h1) (Runs.bind' (Runs.lift h2) (Runs.bind' (Runs.observe _)
      (Runs.bind' (Runs.lift hst) (Runs.done _) rfl) rfl) rfl) rfl

/-- Collecting and installing the secrets. -/
theorem backend_collect (hgood : GoodKeys box pkeys skeys) (hp : pkeys.length ≤ 255) (hpos : 0 < pkeys.length)
    (b : Backend box) (hb : b.state = {})
    (back : ι) (T : List (Ticket box)) (hT : ∀ t ∈ T, t.Good 1) (hnd : (T.map Ticket.tag).Nodup)
    (hpk : pkeys[pkeys.length - 1]? = some b.pkey) (hsk : skeys[pkeys.length - 1]? = some b.skey) :
    ∃ it, Runs (Backend.collectAndInstallSecrets { b with
          queries := Batch.initialize T.length ⟨0, 0⟩
          state := b.state.initialize false } back)
        (T.flatMap (fun t => aRecvCipher back (t.cipher pkeys (pkeys.length - 1)) ++ [.obs (.store t.head)]))
        { b with
          queries := Batch.initialize T.length ⟨0, 0⟩
          state := { simulated := false, secrets := T.map (fun t => OfflineSecret.entryB t.head), it := it } } := by
  obtain ⟨b', h1, h2⟩ := Runs.loop_list
    (fun j (b' : Backend box) => ∃ it, b' = { b with
        queries := Batch.initialize T.length ⟨0, 0⟩
        state := { simulated := false, secrets := (T.take j).map (fun t => OfflineSecret.entryB t.head), it := it } })
    (Backend.installStep back)
    (fun t => aRecvCipher back (t.cipher pkeys (pkeys.length - 1)) ++ [.obs (.store t.head)]) T 0
    { b with
      queries := Batch.initialize T.length ⟨0, 0⟩
      state := b.state.initialize false } ⟨none, by rw [hb]; rfl⟩ (by
    rintro j b' hj ⟨it, rfl⟩
    refine ⟨_, backend_installStep hgood hp _ back _ T[j] (hT _ (List.getElem_mem _)) hpos hpk hsk ?_, none, ?_⟩
    · simp only
      apply lookup_eq_none_of
      intro e he heq
      rw [List.mem_map] at he
      obtain ⟨t, ht, rfl⟩ := he
      have ht' : t.tag = T[j].tag := heq
      rw [List.mem_take_iff_getElem] at ht
      obtain ⟨i, hi, rfl⟩ := ht
      have := (List.nodup_iff_injective_get.1 hnd) (a₁ := ⟨i, by simp; omega⟩) (a₂ := ⟨j, by simpa using hj⟩)
        (by simpa using ht')
      simp at this
      omega
    · simp only
      rw [List.take_succ_eq_append_getElem hj, List.map_append]
      rfl)
  obtain ⟨it, rfl⟩ := h2
  rw [List.take_of_length_le (Nat.le_refl _)] at h1
  exact ⟨it, h1⟩

theorem backend_offline (hgood : GoodKeys box pkeys skeys) (hp : pkeys.length ≤ 255) (hpos : 0 < pkeys.length)
    (b : Backend box) (hb : b.state = {})
    (back : ι) (T : List (Ticket box)) (hT : ∀ t ∈ T, t.Good 1) (hnd : (T.map Ticket.tag).Nodup)
    (hpk : pkeys[pkeys.length - 1]? = some b.pkey) (hsk : skeys[pkeys.length - 1]? = some b.skey)
    (h32 : T.length < 2 ^ 32) :
    ∃ st, Runs (b.startOffline back)
        (aRecvCount back T.length ++ (aSendReady back ++
          (T.flatMap (fun t => aRecvCipher back (t.cipher pkeys (pkeys.length - 1)) ++ [.obs (.store t.head)]) ++
            aSendReady back)))
        { b with
          queries := Batch.initialize T.length ⟨0, 0⟩
          state := st } ∧
      ∀ q : QTicket, (∃ t ∈ T, t.tag = q.tag ∧ t.shares = q.shares ∧ t.pres = q.pres) → BackendServes st q := by
  obtain ⟨it, h1⟩ := backend_collect hgood hp hpos b hb back T hT hnd hpk hsk
  refine ⟨{ simulated := false, secrets := T.map (fun t => OfflineSecret.entryB t.head), it := it },
    Runs.bind (backend_initializeBatch b back T.length h32) (Runs.bind (runs_sendReady back) (Runs.bind h1
    (Runs.bind' (runs_sendReady back) (Runs.done _) (List.append_nil _).symm))), ?_⟩
  · rintro q ⟨t, ht, e1, e2, e3⟩
    have hl : (T.map (fun t => OfflineSecret.entryB t.head)).lookup q.tag =
        some ⟨q.shares.headD ⟨0, 1⟩, q.pres.headD (fun _ => 0)⟩ := by
      have := lookup_map_of_nodup T Ticket.tag
        (fun t => (⟨t.shares.headD ⟨0, 1⟩, t.pres.headD (fun _ => 0)⟩ : BackendSecret)) hnd t ht
      rw [← e1, ← e2, ← e3]
      exact this
    constructor <;> simp [BackendState.loadSecret, BackendState.getIncremental, BackendState.getPreshare, hl, deref]

end

theorem headD_replicate {α : Type} (m : Nat) (a : α) : (List.replicate m a).headD a = a := by
  cases m <;> rfl

theorem backend_simulated (b : Backend box) (hb : b.state = {}) (back : ι) (n m : Nat) (h32 : n < 2 ^ 32) :
    ∃ st, Runs (b.simulateOffline back) (aRecvCount back n ++ aSendReady back)
        { b with
          queries := Batch.initialize n ⟨0, 0⟩
          state := st } ∧
      ∀ q : QTicket, q.shares = List.replicate m ⟨0, 1⟩ → q.pres = List.replicate m (fun _ => 0) → BackendServes st q := by
  refine ⟨({} : BackendState).initialize true, ?_, ?_⟩
  · refine Runs.bind (backend_initializeBatch b back n h32) (Runs.bind' (runs_sendReady back) ?_ (List.append_nil _).symm)
    simp only [hb]
    exact Runs.done _
  · intro q h1 h2
    constructor
    · rw [h1, headD_replicate]; rfl
    · rw [h2, headD_replicate]; rfl

/-- Online stage of the backend; what it does depends only on the queries. -/
theorem backend_online_all (back : ι) (junk : Response) (Q : List QTicket) (rows : Nat) (h32 : Q.length < 2 ^ 32)
    (hQ : ∀ q ∈ Q, q.Good rows 1) :
    ∃ sr, Sends back sr (Q.flatMap (fun q => q.resp.encode)) (Q.flatMap (fun q => [.lookup q.key, .sendResponse q.resp])) ∧
      ∀ b : Backend box, b.db = { size := rows, rows := (List.range rows).map Database.row } →
        b.queries = Batch.initialize Q.length ⟨0, 0⟩ → (∀ q ∈ Q, BackendServes b.state q) →
        ∃ b', Runs (b.startOnline back junk) (Q.flatMap (fun q => aRecvQuery back q.query) ++ sr) b' := by
  obtain ⟨as, w2, h4, h5, h3⟩ := each_buffered_all (χ := Backend box) back Prod.snd (fun w : WBuf => w.Room responseSize)
    (fun b (s : Backend box × WBuf) => b.db = { size := rows, rows := (List.range rows).map Database.row } ∧ (∀ q ∈ Q, BackendServes b.state q) ∧
      s.1.db = b.db ∧ (∃ it, s.1.state = { b.state with it := it }))
    (Backend.respond back junk) QTicket.query (fun q => q.resp.encode) (fun q => [.lookup q.key, .sendResponse q.resp]) Q
    {} (WBuf.room_empty (by decide) (by decide)) (by
    intro q hq' w hw
    have hg := hQ q hq'
    have hkey : (incrementalReconstruct q.tally (q.shares.headD ⟨0, 1⟩)).toNat = q.key := by
      have h1 := hg.shares
      have h2 := hg.tally
      obtain ⟨s, hs⟩ := List.length_eq_one_iff.1 h1
      rw [hs] at h2 ⊢
      exact h2
    have hres : additiveReconstructInto (Database.row q.key) (q.pres.headD (fun _ => 0)) junk = .ok q.resp := by
      have := hg.resp_next junk
      have e : q.next.resp = Database.row q.key := by
        have h1 := hg.pres
        obtain ⟨s, hs⟩ := List.length_eq_one_iff.1 h1
        simp only [QTicket.resp, QTicket.next, hs, List.tail_cons]
        exact ofMem_mem _
      rw [e] at this
      exact this
    obtain ⟨as, w', h1, h2, h3, h4⟩ := sendResponse_ok back q.resp w hw
    refine ⟨.obs (.lookup q.key) :: as, w', h2, h3.silent rfl, by rw [obsOf_obs, h4], ?_⟩
    rintro b ⟨b', w0⟩ ⟨hdb, hs, hd, ⟨it, hst⟩⟩ rfl
    simp only at hd hst
    have hserv := hs q hq'
    have hlk : b'.db.lookup q.key = .ok (Database.row q.key) := by
      rw [hd, hdb]
      unfold Database.lookup
      rw [rd_eq_ok]
      simp [hg.key]
    have hld : b'.state.loadSecret q.tag = b.state.loadSecret q.tag := by rw [hst]; rfl
    refine ⟨({ b' with state := b'.state.loadSecret q.tag }, w'), ?_, ⟨hdb, hs, hd, ?_⟩, rfl⟩
    · unfold Backend.respond Backend.handleQuery
      simp only
      have hqt : q.query.tag = q.tag := rfl
      rw [hqt, hld, hserv.share, hserv.pre]
      refine Runs.bind' (bs := as) (a := ({ b' with state := b.state.loadSecret q.tag }, q.resp))
        (as := [.obs (.lookup q.key)]) ?_ (Runs.bind' h1 (Runs.done _) (List.append_nil _).symm) rfl
      refine Runs.bind' (Runs.lift rfl) ?_ rfl
      have hqa : q.query.tally = q.tally := rfl
      rw [hqa, hkey]
      exact Runs.bind' (Runs.observe _) (Runs.bind' (Runs.lift hlk) (Runs.bind' (Runs.lift rfl) (Runs.bind'
        (Runs.lift hres) (Runs.done _) rfl) rfl) rfl) rfl
    · exact ⟨_, by rw [hld]; rfl⟩)
  obtain ⟨h6, h7⟩ := h4.flush h5
  refine ⟨as ++ w2.pending.map (Act.send back), h7, fun b hdb hq hs => ?_⟩
  obtain ⟨b1, h1, h2⟩ := Runs.loop_list
    (fun j (b' : Backend box) => b' = { b with queries := {
        ptr := (Q.take j).map QTicket.query ++ List.replicate (Q.length - j) ⟨0, 0⟩
        capacity := Q.length
        right := j } })
    (Backend.collectQuery back) (fun q => aRecvQuery back q.query) Q 0 b (by
      obtain ⟨db, qs, st, pk, sk⟩ := b
      simp only at hq
      subst hq
      simp [Batch.initialize]) (by
    rintro j b' hj rfl
    refine ⟨_, Runs.bind' (runs_recvQuery back Q[j].query) (Runs.bind' (Runs.lift (a := {
        ptr := (Q.take (j + 1)).map QTicket.query ++ List.replicate (Q.length - (j + 1)) ⟨0, 0⟩
        capacity := Q.length
        right := j + 1 }) ?_) (Runs.done _) rfl) (List.append_nil _).symm, rfl⟩
    unfold Batch.pushBack
    simp only
    rw [wr_ok (by simp; omega), bind_ok, wrap32_of_lt (by omega)]
    congr 2
    have := set_at_done ((Q.take j).map QTicket.query) Q[j].query ⟨0, 0⟩ (Q.length - (j + 1))
    rw [List.length_map, List.length_take, Nat.min_eq_left (by omega), show Q.length - (j + 1) + 1 = Q.length - j by omega] at this
    rw [this, List.take_succ_eq_append_getElem hj, List.map_append]
    rfl)
  subst h2
  rw [List.take_of_length_le (Nat.le_refl _), Nat.sub_self, List.replicate_zero, List.append_nil] at h1
  obtain ⟨⟨b2, w3⟩, h8, -, rfl⟩ := h3 b ({ b with queries := {
        ptr := Q.map QTicket.query
        capacity := Q.length
        right := Q.length } }, {}) ⟨hdb, hs, rfl, ⟨b.state.it, rfl⟩⟩ rfl
  refine ⟨b2, Runs.bind (a := { b with queries := {
        ptr := Q.map QTicket.query
        capacity := Q.length
        right := Q.length } }) ?_ (Runs.bind' (Runs.lift (a := Q.map QTicket.query) ?_) (Runs.bind h8 (Runs.bind' h6 (Runs.done _)
          (List.append_nil _).symm)) rfl)⟩
  · have e : b.queries.capacity = Q.length := by rw [hq]; rfl
    unfold Backend.collectQueries
    rw [e]
    exact h1
  · unfold Batch.elements
    simp only
    rw [slice_ok (by simp), List.drop_zero, List.take_of_length_le (by simp)]

/-- Online stage of the backend. -/
theorem backend_online (b : Backend box) (back : ι) (junk : Response) (Q : List QTicket) (rows : Nat)
    (hdb : b.db = { size := rows, rows := (List.range rows).map Database.row })
    (hq : b.queries = Batch.initialize Q.length ⟨0, 0⟩) (h32 : Q.length < 2 ^ 32)
    (hQ : ∀ q ∈ Q, q.Good rows 1) (hs : ∀ q ∈ Q, BackendServes b.state q) :
    ∃ b' sr, Runs (b.startOnline back junk) (Q.flatMap (fun q => aRecvQuery back q.query) ++ sr) b' ∧
      Sends back sr (Q.flatMap (fun q => q.resp.encode)) (Q.flatMap (fun q => [.lookup q.key, .sendResponse q.resp])) := by
  obtain ⟨sr, h1, h2⟩ := backend_online_all (box := box) back junk Q rows h32 hQ
  obtain ⟨b', h3⟩ := h2 b hdb hq hs
  exact ⟨b', sr, h3, h1⟩

end DPPIR.Protocol
