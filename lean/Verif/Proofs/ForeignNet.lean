import Verif.Proofs.ForeignRun

/-!
# A client that asks for rows the backend does not have: complete runs
-/

namespace DPPIR.Protocol
open DPPIR Proc Onion Incremental Additive Spec Props Shuffle

variable {box : SealedBox}

namespace Chain

/-- The same deployment with more rows, for which no party makes noise. -/
def padded (c : Chain box) (rows : Nat) : Chain box := { c with
  rows := rows
  partyRand := fun k => { c.partyRand k with sample := fun i => if i < c.rows then (c.partyRand k).sample i else 0 } }

theorem padded_keys (c : Chain box) {R : Nat} (hR : c.rows ≤ R) (k : Nat) :
    noiseKeys ((c.padded R).partyRand k).sample R = noiseKeys (c.partyRand k).sample c.rows := by
  induction R, hR using Nat.le_induction with
  | base =>
    unfold noiseKeys
    refine List.flatMap_congr fun i hi => ?_
    simp only [padded, if_pos (List.mem_range.1 hi)]
  | succ n hn ih =>
    rw [noiseKeys_succ]
    have e : ((c.padded (n + 1)).partyRand k).sample = ((c.padded n).partyRand k).sample := rfl
    rw [e, ih]
    have e2 : ((c.padded n).partyRand k).sample n = 0 := if_neg (by omega)
    rw [e2]
    simp

theorem padded_sum (c : Chain box) {R : Nat} (hR : c.rows ≤ R) (k : Nat) :
    sampleSum ((c.padded R).partyRand k).sample (c.padded R).rows = sampleSum (c.partyRand k).sample c.rows := by
  rw [← noiseKeys_length, ← noiseKeys_length]
  exact congrArg List.length (padded_keys c hR k)

theorem padded_queries (c : Chain box) {R : Nat} (hR : c.rows ≤ R) (k : Nat) : (c.padded R).queries k = c.queries k := by
  induction k with
  | zero => rfl
  | succ k ih =>
    rw [queries, queries, ih, noise_eq, noise_eq, padded_sum c hR]

theorem padded_valid {c : Chain box} (h : c.Valid) {R : Nat} (hR : c.rows ≤ R) (hR' : R ≤ 2 ^ 31 - 1) : (c.padded R).Valid :=
  ⟨h.parties, ⟨le_trans h.rows.1 hR, hR'⟩, h.keys, h.pairs, h.division, by rw [padded_queries c hR]; exact h.fits⟩

/-- The program `p` does what process `i` of the deployment does. -/
structure DoesAs (c : Chain box) (p : Prog Nat Unit) (offline online : Bool) (i : Nat) (pre post : List (PAct Nat)) : Prop where
  runs : Runs p (pre ++ post) ()
  commPre : comm pre = c.commOff offline i
  commPost : comm post = c.commOn offline online i
  obsPre : obsOf pre = c.obsOff offline i
  obsPost : obsOf post = if online then c.obsOn offline i else []
  last : 1 ≤ i → i ≤ c.parties → ∃ a, pre = a ++ aSendReady (i - 1)

theorem party_does_padded {o : Chain box} (ho : o.Valid) {R : Nat} (hR : o.rows ≤ R) {c : Chain box} (hc : c = o.padded R) (h : c.Valid)
    (offline online : Bool) (k : Nat) (hk : k + 1 < c.parties) : ∃ pre post, c.DoesAs (o.prog offline online (k + 1)) offline online (k + 1) pre post := by
  have hP := h.parties
  have hlen : c.pkeys.length = c.parties := by rw [h.keys]; simp
  have h32 := h.lt hk
  have e : o.prog offline online (k + 1) = o.party k offline online := by
    unfold prog
    rw [if_neg (by omega), if_pos (by subst hc; exact hk)]
    rfl
  have hsum : sampleSum (o.partyRand k).sample o.rows = sampleSum (c.partyRand k).sample c.rows := by subst hc; exact (padded_sum o hR k).symm
  have hrand : (o.partyRand k).rand = (c.partyRand k).rand := by subst hc; rfl
  have hNT : realNT (o.partyRand k) o.rows (c.parties - k - 1) (c.queries k) = realNT (c.partyRand k) c.rows (c.parties - k - 1) (c.queries k) := by
    unfold realNT
    rw [hsum]
    subst hc
    rfl
  have hNK : noiseKeys (o.partyRand k).sample o.rows = noiseKeys (c.partyRand k).sample c.rows := by subst hc; exact (padded_keys o hR k).symm
  have hNQ : realNQ (o.partyRand k) o.rows (c.parties - k - 1) (c.queries k) = realNQ (c.partyRand k) c.rows (c.parties - k - 1) (c.queries k) := by
    unfold realNQ
    rw [hNK]
    subst hc
    rfl
  have hSQ : simNQ (o.partyRand k) o.rows (c.parties - k - 1) = simNQ (c.partyRand k) c.rows (c.parties - k - 1) := by
    unfold simNQ
    rw [hNK]
  have hq32 : c.queries k + sampleSum (o.partyRand k).sample o.rows < 2 ^ 32 := by rw [hsum]; exact h32
  obtain ⟨t1, t2, -⟩ := tickets_spec h k (by omega)
  obtain ⟨q1, q2, q3, q4⟩ := qs_spec h offline k (by omega)
  obtain ⟨-, q5⟩ := qs_perm h offline k hk q1
  let db : Database := { size := o.rows, rows := (List.range o.rows).map Database.row }
  let p : Party box := { partyId := k, serverId := 0, partyCount := c.parties, serverCount := 1, db := db, shuffler := LocalShuffler.new (c.seed k), ciphers := CipherBatch.new (cipherSize (c.parties - k - 1)) (cipherSize (c.parties - k)), pkeys := c.pkeys, pkey := c.pkey k, skey := c.skey k }
  have hnew : Party.new k 0 c.parties 1 (c.seed k) c.pkeys (c.pkey k) (c.skey k) db = .ok p := by
    have : k < c.parties - 1 := by omega
    simp [Party.new, assert, hP.1, this]
    rfl
  have hnew' : Party.new k 0 o.parties 1 (o.seed k) o.pkeys (o.pkey k) (o.skey k) db = .ok p := by subst hc; exact hnew
  have hfr : PartyFresh p k o.rows (c.seed k) c.pkeys ((List.range c.parties).map c.skey) := by
    refine ⟨rfl, rfl, rfl, hlen.symm, rfl, rfl, rfl, ?_, ?_, rfl, ?_, ?_⟩
    · rw [h.keys, List.getElem?_map, List.getElem?_range (by omega)]
      rfl
    · rw [List.getElem?_map, List.getElem?_range (by omega)]
      rfl
    · rw [hlen]; rfl
    · rw [hlen]; rfl
  have hm1 : c.parties - k = c.parties - k - 1 + 1 := by omega
  have hoff : ∃ p' pre, Runs (if offline then p.startOffline (o.partyRand k) k (k + 2) else p.simulateOffline (o.partyRand k) k (k + 2))
        pre p' ∧
      PartyReady p' (c.qs offline k).length (c.queries (k + 1)) (c.noiseQs offline k) ((c.qs offline k).map QTicket.next)
        (c.shuf k).forward (c.shuf k).backward ∧
      (∀ q ∈ c.qs offline k, PartyServes p'.queriesState q) ∧
      comm pre = c.commOff offline (k + 1) ∧ obsOf pre = c.obsOff offline (k + 1) ∧ ∃ a, pre = a ++ aSendReady k := by
    have e1 := downAct_mid c.parties (k + 1) (by omega) hk c.countB
    have e2 := upAct_mid c.parties (k + 1) (by omega) hk readyB
    have e3 := downAct_mid c.parties (k + 1) (by omega) hk c.cipherB
    rw [Nat.add_sub_cancel] at e1 e2 e3
    cases offline with
    | true =>
      obtain ⟨p', sc, h1, h2, h3, h4⟩ := party_offline h.good (by omega) p (o.partyRand k) k (k + 2) k (c.parties - k - 1) o.rows
        (c.seed k) (by omega) (by omega) hfr (ho.division k) ho.rowsp.1 ho.rowsp.2 (c.tickets k)
        (by rw [← hm1]; exact t2) (tickets_nodup h (by omega)) (by rw [t1]; exact hq32)
        ((c.qs true k).map QTicket.next) (by rw [List.length_map, q1, t1]) (c.tickets (k + 1)) (by
          rw [tickets, t1, hNT, hsum, hrand]; rfl)
      rw [t1, hsum] at h1
      rw [t1, hsum, hrand, hNQ] at h3
      refine ⟨p', _, h1, by rw [q1]; exact h3, fun q hq => h4 q (q3 rfl q hq), ?_, ?_, ?_⟩
      · simp only [comm_append, comm_aSendCount, comm_aRecvCount, comm_aRecvReady, comm_aSendReady, h2.comm, commOff, e1, e2, e3,
          if_true, comm_stores, List.nil_append, List.append_assoc]
        rw [comm_recvs k _ _ (fun t => t.cipher c.pkeys k) (by intro t; simp [aRecvCipher])]
        rfl
      · simp only [obsOf_append, h2.obs, obsOff, obsOf_stores]
        rw [obsOf_recvs _ _ (fun t => [.recvCipher (t.cipher c.pkeys k)]) (by intro t; simp [aRecvCipher]),
          ← List.map_eq_flatMap, if_neg (by omega), if_pos hk, if_true]
        simp [aRecvCount, aSendCount, aRecvReady, aSendReady, queries, noise_eq]
      · simp only [← List.append_assoc]
        exact ⟨_, rfl⟩
    | false =>
      obtain ⟨p', h1, h3, h4⟩ := party_simulated p (o.partyRand k) k (k + 2) k (c.parties - k - 1) o.rows (c.queries k) (c.parties - k)
        (c.seed k) (by omega) (by omega) hfr (ho.division k) ho.rowsp.1 ho.rowsp.2 hq32
        ((c.qs false k).map QTicket.next) (by rw [List.length_map, q1])
      rw [hsum] at h1
      rw [hsum, hrand, hSQ] at h3
      refine ⟨p', _, h1, by rw [q1]; exact h3, fun q hq => ?_, ?_, ?_, ?_⟩
      · obtain ⟨a1, a2, a3⟩ := q4 rfl q hq
        exact h4 q a1 a2 a3
      · simp only [comm_append, comm_aSendCount, comm_aRecvCount, comm_aRecvReady, comm_aSendReady, commOff, e1, e2,
          List.append_assoc]
        simp
        rfl
      · simp only [obsOf_append, obsOff]
        rw [if_neg (by omega), if_pos hk]
        simp [aRecvCount, aSendCount, aRecvReady, aSendReady, queries, noise_eq]
      · simp only [← List.append_assoc]
        exact ⟨_, rfl⟩
  obtain ⟨p', pre, h1, h2, h3, h4, h5, h6⟩ := hoff
  have hstart : ∀ post, Runs (if online then do
        let _ ← p'.startOnline k (k + 2)
        return ()
      else return ()) post () → Runs (o.prog offline online (k + 1)) (pre ++ post) () := by
    intro post hp
    rw [e]
    refine Runs.bind' (Runs.lift (database_new _)) (Runs.bind' (bs := pre ++ post) (Runs.lift hnew') ?_ rfl) rfl
    cases offline <;> exact Runs.bind h1 hp
  cases online with
  | true =>
    obtain ⟨p'', sq, sr, h7, h8, h9⟩ := party_online' p' k (k + 2) c.rows (c.parties - k - 1) (c.noiseQs offline k) (c.qs offline k)
      (c.queries (k + 1)) (c.shuf k).forward (c.shuf k).backward q5 h32 (isShuffler h hk) h2 h3 (by rw [← hm1]; exact q2)
      (c.qs offline (k + 1)) rfl
    refine ⟨pre, _, hstart _ (Runs.bind' h7 (Runs.done _) (List.append_nil _).symm), h4, ?_, h5, ?_, fun _ _ => h6⟩
    · simp only [comm_append, h8.comm, h9.comm]
      rw [comm_recvs k _ _ (fun q => q.query.encode) (by intro j; simp [aRecvQuery]),
        comm_recvs (k + 2) _ _ (fun q => q.resp.encode) (by intro j; simp [aRecvResponse]),
        commOn, if_pos rfl, downAct_mid _ _ (by omega) hk, upAct_mid _ _ (by omega) hk, List.append_assoc]
      rfl
    · simp only [obsOf_append, h8.obs, h9.obs]
      rw [obsOf_recvs _ _ (fun q => [.recvQuery q.query]) (by intro j; simp [aRecvQuery]),
        obsOf_recvs _ _ (fun q => [.recvResponse q.resp]) (by intro j; simp [aRecvResponse]), if_true, obsOn,
        if_neg (by omega), if_pos hk, ← List.map_eq_flatMap, ← List.map_eq_flatMap]
      rfl
  | false => exact ⟨pre, [], hstart [] (Runs.done _), h4, rfl, h5, rfl, fun _ _ => h6⟩


/-- The programs of a deployment with a client that has another idea of the database,
and a backend that has it, too. -/
def mixed (c : Chain box) (R : Nat) (offline online : Bool) (i : Nat) : Prog Nat Unit :=
  if i = 0 then Chain.client { c with rows := R } offline online
  else if i = c.parties then Chain.backend { c with rows := R } offline online
  else c.prog offline online i

theorem mixed_does {c : Chain box} (h : c.Valid) {R : Nat} (hR : c.rows ≤ R) (hR' : R ≤ 2 ^ 31 - 1) (offline online : Bool) (i : Nat) :
    ∃ pre post, (c.padded R).DoesAs (c.mixed R offline online i) offline online i pre post ∧ (c.parties < i → pre ++ post = []) := by
  have hv := padded_valid h hR hR'
  have hP := h.parties
  by_cases hi : 0 < i ∧ i < c.parties
  · obtain ⟨k, rfl⟩ : ∃ k, i = k + 1 := ⟨i - 1, by omega⟩
    obtain ⟨a, b, hd⟩ := party_does_padded h hR rfl hv offline online k hi.2
    refine ⟨a, b, ?_, by omega⟩
    unfold mixed
    rw [if_neg (by omega), if_neg (by omega)]
    exact hd
  · obtain ⟨a, b, hd, hout⟩ := proc_does hv offline online i
    refine ⟨a, b, ⟨?_, hd.commPre, hd.commPost, hd.obsPre, hd.obsPost, hd.last⟩, hout⟩
    have e : c.mixed R offline online i = (c.padded R).prog offline online i := by
      unfold mixed prog
      by_cases h0 : i = 0
      · rw [if_pos h0, if_pos h0]
        rfl
      · rw [if_neg h0, if_neg h0, if_neg h0, if_neg (show ¬ i < c.parties by omega), if_neg (show ¬ i < (c.padded R).parties from fun hl => hi ⟨by omega, hl⟩)]
        by_cases h1 : i = c.parties
        · rw [if_pos h1, if_pos (show i = (c.padded R).parties from h1)]
          rfl
        · rw [if_neg h1, if_neg h1, if_neg (show ¬ i = (c.padded R).parties from h1)]
    rw [e]
    exact hd.runs

/-- Every run of these programs. -/
theorem mixed_runs {c : Chain box} (h : c.Valid) {R : Nat} (hR : c.rows ≤ R) (hR' : R ≤ 2 ^ 31 - 1) (offline online : Bool)
    (cap : Nat × Nat → Nat) (hcap : ∀ x, 0 < cap x) :
    ∃ N, ∀ s n, (Net.start (c.mixed R offline online)).run cap s = some n →
      s.length ≤ N ∧ (∀ i, ¬ n.Faulted i) ∧ (n.CanStep cap ∨ ∀ i, n.Finished i) ∧
      ∀ i, n.Finished i → n.seen i = (c.padded R).obsAll offline online i := by
  choose pre post hd hout using mixed_does h hR hR' offline online
  obtain ⟨s, t, h1, h2, -, h4⟩ := Net.script_run (cap := cap) (List.range (c.parties + 1)) ((c.padded R).script offline online)
    (by
      intro g hg
      refine ⟨?_, hcap _⟩
      rcases (c.padded R).script_adjacent offline online g hg with h | h <;> omega)
    (Net.start (c.mixed R offline online)) (fun _ => rfl) (fun i => pre i ++ post i)
    (by
      intro i hi
      simp only [List.mem_range] at hi
      exact hout i (by omega)) (fun i => (hd i).runs) (by
      intro i
      rw [proj_script, ← (hd i).commPre, ← (hd i).commPost, ← comm_append])
  refine ⟨s.length, fun s' n hn => ?_⟩
  obtain ⟨a1, a2, a3, s'', a4⟩ := Net.all_runs h1 h2 hn
  refine ⟨a1, a2, a3.imp_right fun e => by rw [e]; exact h2, fun i hi => ?_⟩
  rw [← Net.run_finished s'' a4 hi, h4]
  show [] ++ _ = _
  rw [List.nil_append, obsOf_append, (hd i).obsPre, (hd i).obsPost]
  rfl

end Chain

end DPPIR.Protocol
