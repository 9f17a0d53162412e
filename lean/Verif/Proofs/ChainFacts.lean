import Verif.Proofs.ChainRun

/-!
# Consequences for every run of the deployment
-/

namespace DPPIR.Net
open Proc
variable {ι O : Type} [DecidableEq ι]

theorem step_seen {cap : ι × ι → Nat} {n m : Net ι O} {i : ι} (h : n.step cap i = some m) (j : ι) :
    n.seen j <+: m.seen j := by
  unfold step at h
  split at h
  · cases h
  · cases h
  · split at h
    · cases h; exact List.prefix_refl _
    · cases h
  · split at h
    · cases h
    · cases h; exact List.prefix_refl _
  · cases h
    by_cases hj : j = i
    · subst hj; simp
    · simp [hj]

theorem run_seen {cap : ι × ι → Nat} (s : List ι) {n m : Net ι O} (h : n.run cap s = some m) (j : ι) :
    n.seen j <+: m.seen j := by
  induction s generalizing n with
  | nil => simp only [run] at h; cases h; exact List.prefix_refl _
  | cons i s ih =>
    simp only [run, Option.bind_eq_some_iff] at h
    obtain ⟨a, h1, h2⟩ := h
    exact (step_seen h1 j).trans (ih h2)

/-- A process that has returned makes no more calls. -/
theorem step_finished {cap : ι × ι → Nat} {n m : Net ι O} {i j : ι} (h : n.step cap i = some m) (hj : n.Finished j) :
    m.Finished j ∧ m.seen j = n.seen j := by
  have hij : j ≠ i := by
    rintro rfl
    unfold Finished at hj
    simp [step, hj] at h
  unfold step at h
  split at h
  · cases h
  · cases h
  · split at h
    · cases h; exact ⟨by simpa [Finished, hij] using hj, rfl⟩
    · cases h
  · split at h
    · cases h
    · cases h; exact ⟨by simpa [Finished, hij] using hj, rfl⟩
  · cases h
    exact ⟨by simpa [Finished, hij] using hj, by simp [hij]⟩

theorem run_finished {cap : ι × ι → Nat} (s : List ι) {n m : Net ι O} (h : n.run cap s = some m) {j : ι} (hj : n.Finished j) :
    m.seen j = n.seen j := by
  induction s generalizing n with
  | nil => simp only [run] at h; cases h; rfl
  | cons i s ih =>
    simp only [run, Option.bind_eq_some_iff] at h
    obtain ⟨a, h1, h2⟩ := h
    obtain ⟨h3, h4⟩ := step_finished h1 hj
    rw [← h4]
    exact ih h2 h3

end DPPIR.Net

namespace DPPIR.Protocol
open DPPIR Proc Onion Incremental Additive Spec Props Shuffle

variable {box : SealedBox}

namespace Chain

theorem every_run {c : Chain box} (h : c.Valid) (offline online : Bool) (cap : Nat × Nat → Nat) (hcap : ∀ x, 0 < cap x) :
    ∃ N, ∀ s n, (c.net offline online).run cap s = some n →
      s.length ≤ N ∧ (∀ i, ¬ n.Faulted i) ∧ (n.CanStep cap ∨ (∀ i, n.Finished i) ∧ ∀ x, n.chan x = []) ∧
      (∀ i, n.seen i <+: c.obsAll offline online i) ∧
      ((∀ i, n.Finished i) → ∀ i, n.seen i = c.obsAll offline online i) := by
  obtain ⟨s, t, h1, h2, h3, h4⟩ := complete_run h offline online cap hcap
  refine ⟨s.length, ?_⟩
  intro s' n hn
  obtain ⟨a1, a2, a3, s'', a4⟩ := Net.all_runs h1 h2 hn
  refine ⟨a1, a2, ?_, ?_, ?_⟩
  · rcases a3 with a3 | rfl
    · exact .inl a3
    · exact .inr ⟨h2, h3⟩
  · intro i
    rw [← h4]
    exact Net.run_seen s'' a4 i
  · intro hf
    rcases a3 with ⟨i, hi⟩ | rfl
    · have := hf i
      unfold Net.Finished at this
      simp [Net.step, this] at hi
    · exact h4

/-- A process that has returned has made all its calls. -/
theorem finished_seen {c : Chain box} (h : c.Valid) (offline online : Bool) (cap : Nat × Nat → Nat) (hcap : ∀ x, 0 < cap x)
    {s : List Nat} {n : Net Nat Obs} (hn : (c.net offline online).run cap s = some n) {i : Nat} (hi : n.Finished i) :
    n.seen i = c.obsAll offline online i := by
  obtain ⟨s, t, h1, h2, h3, h4⟩ := complete_run h offline online cap hcap
  obtain ⟨-, -, -, s'', a4⟩ := Net.all_runs h1 h2 hn
  rw [← h4, Net.run_finished s'' a4 hi]

/-! ### Parts of the records -/

/-- A filter on calls, as used for the parts of a record. -/
theorem filterMap_prefix {α β : Type} (f : α → Option β) {l l' : List α} (h : l <+: l') : l.filterMap f <+: l'.filterMap f := by
  obtain ⟨r, rfl⟩ := h
  rw [List.filterMap_append]
  exact List.prefix_append _ _

theorem wants_prefix {l l' : List Obs} (h : l <+: l') : wants l <+: wants l' := filterMap_prefix _ h
theorem results_prefix {l l' : List Obs} (h : l <+: l') : results l <+: results l' := filterMap_prefix _ h
theorem lookups_prefix {l l' : List Obs} (h : l <+: l') : lookups l <+: lookups l' := filterMap_prefix _ h
theorem stores_prefix {l l' : List Obs} (h : l <+: l') : stores l <+: stores l' := filterMap_prefix _ h
theorem queriesSent_prefix {l l' : List Obs} (h : l <+: l') : queriesSent l <+: queriesSent l' := filterMap_prefix _ h
theorem queriesRead_prefix {l l' : List Obs} (h : l <+: l') : queriesRead l <+: queriesRead l' := filterMap_prefix _ h
theorem responsesSent_prefix {l l' : List Obs} (h : l <+: l') : responsesSent l <+: responsesSent l' := filterMap_prefix _ h
theorem responsesRead_prefix {l l' : List Obs} (h : l <+: l') : responsesRead l <+: responsesRead l' := filterMap_prefix _ h
theorem ciphersSent_prefix {l l' : List Obs} (h : l <+: l') : ciphersSent l <+: ciphersSent l' := filterMap_prefix _ h
theorem ciphersRead_prefix {l l' : List Obs} (h : l <+: l') : ciphersRead l <+: ciphersRead l' := filterMap_prefix _ h
theorem countsSent_prefix {l l' : List Obs} (h : l <+: l') : countsSent l <+: countsSent l' := filterMap_prefix _ h
theorem countsRead_prefix {l l' : List Obs} (h : l <+: l') : countsRead l <+: countsRead l' := filterMap_prefix _ h

section parts
variable (c : Chain box) (offline online : Bool)

theorem client_obs : c.obsAll offline online 0 =
    ([.sendCount (BitVec.ofNat 32 c.count), .recvReady] ++
      if offline then (c.tickets 0).map (fun t => .sendCipher (t.cipher c.pkeys 0)) ++ [.recvReady] else []) ++
    if online then (c.qs offline 0).flatMap (fun q => [.want q.key, .sendQuery q.query]) ++
      (c.qs offline 0).flatMap (fun q => [.recvResponse q.resp, .result (Database.row q.key)]) else [] := by
  unfold obsAll obsOff obsOn
  simp [queries]

theorem party_obs (k : Nat) (hk : k + 1 < c.parties) : c.obsAll offline online (k + 1) =
    ([.recvCount (BitVec.ofNat 32 (c.queries k)), .sendCount (BitVec.ofNat 32 (c.queries (k + 1))), .recvReady, .sendReady] ++
    if offline then (c.tickets k).map (fun t => .recvCipher (t.cipher c.pkeys k)) ++
      ((c.tickets k).map (fun t => .store t.head) ++
      ((c.tickets (k + 1)).map (fun t => .sendCipher (t.cipher c.pkeys (k + 1))) ++ [.recvReady, .sendReady])) else []) ++
    if online then (c.qs offline k).map (fun q => .recvQuery q.query) ++ ((c.qs offline (k + 1)).map (fun q => .sendQuery q.query) ++
      ((c.qs offline (k + 1)).map (fun q => .recvResponse q.resp) ++ (c.qs offline k).map (fun q => .sendResponse q.resp))) else [] := by
  unfold obsAll obsOff obsOn
  have h0 : ¬ k + 1 = 0 := by omega
  simp only [if_neg h0, if_pos hk, Nat.add_sub_cancel]

theorem backend_obs (k : Nat) (hk : k + 1 = c.parties) : c.obsAll offline online (k + 1) =
    ([.recvCount (BitVec.ofNat 32 (c.queries k)), .sendReady] ++
    if offline then (c.tickets k).flatMap (fun t => [.recvCipher (t.cipher c.pkeys k), .store t.head]) ++ [.sendReady] else []) ++
    if online then (c.qs offline k).map (fun q => .recvQuery q.query) ++
      (c.qs offline k).flatMap (fun q => [.lookup q.key, .sendResponse q.resp]) else [] := by
  unfold obsAll obsOff obsOn
  have h0 : ¬ k + 1 = 0 := by omega
  have h1 : ¬ k + 1 < c.parties := by omega
  simp only [if_neg h0, if_neg h1, if_pos hk, Nat.add_sub_cancel]

end parts

theorem flatMap_nil' {α β : Type} (l : List α) : l.flatMap (fun _ => ([] : List β)) = [] := by
  induction l with
  | nil => rfl
  | cons a l ih => simp

theorem flatMap_single {α β : Type} (f : α → β) (l : List α) : l.flatMap (fun a => [f a]) = l.map f := List.map_eq_flatMap.symm

/-- Evaluates a part of a record. -/
macro "parts" : tactic => `(tactic|
  simp [List.filterMap_append, List.filterMap_cons, List.filterMap_flatMap, List.filterMap_map, Function.comp_def,
    flatMap_nil', flatMap_single, List.filterMap_eq_map'])

theorem wants_client (c : Chain box) (offline : Bool) : wants (c.obsAll offline true 0) = (c.qs offline 0).map QTicket.key := by
  rw [client_obs, wants]
  cases offline <;> parts

theorem results_client (c : Chain box) (offline : Bool) :
    results (c.obsAll offline true 0) = (c.qs offline 0).map (fun q => Database.row q.key) := by
  rw [client_obs, results]
  cases offline <;> parts

theorem lookups_backend (c : Chain box) (offline : Bool) (k : Nat) (hk : k + 1 = c.parties) :
    lookups (c.obsAll offline true (k + 1)) = (c.qs offline k).map QTicket.key := by
  rw [backend_obs c offline true k hk, lookups]
  cases offline <;> parts

theorem queriesSent_client (c : Chain box) (offline : Bool) :
    queriesSent (c.obsAll offline true 0) = (c.qs offline 0).map QTicket.query := by
  rw [client_obs, queriesSent]
  cases offline <;> parts

theorem responsesRead_client (c : Chain box) (offline : Bool) :
    responsesRead (c.obsAll offline true 0) = (c.qs offline 0).map QTicket.resp := by
  rw [client_obs, responsesRead]
  cases offline <;> parts

theorem countsSent_client (c : Chain box) (offline online : Bool) :
    countsSent (c.obsAll offline online 0) = [BitVec.ofNat 32 c.count] := by
  rw [client_obs, countsSent]
  cases offline <;> cases online <;> parts

theorem ciphersSent_client (c : Chain box) (online : Bool) :
    ciphersSent (c.obsAll true online 0) = (c.tickets 0).map (fun t => t.cipher c.pkeys 0) := by
  rw [client_obs, ciphersSent]
  cases online <;> parts

theorem queriesRead_pos (c : Chain box) (offline : Bool) (k : Nat) (hk : k < c.parties) :
    queriesRead (c.obsAll offline true (k + 1)) = (c.qs offline k).map QTicket.query := by
  by_cases h : k + 1 = c.parties
  · rw [backend_obs c offline true k h, queriesRead]
    cases offline <;> parts
  · rw [party_obs c offline true k (by omega), queriesRead]
    cases offline <;> parts

theorem responsesSent_pos (c : Chain box) (offline : Bool) (k : Nat) (hk : k < c.parties) :
    responsesSent (c.obsAll offline true (k + 1)) = (c.qs offline k).map QTicket.resp := by
  by_cases h : k + 1 = c.parties
  · rw [backend_obs c offline true k h, responsesSent]
    cases offline <;> parts
  · rw [party_obs c offline true k (by omega), responsesSent]
    cases offline <;> parts

theorem countsRead_pos (c : Chain box) (offline online : Bool) (k : Nat) (hk : k < c.parties) :
    countsRead (c.obsAll offline online (k + 1)) = [BitVec.ofNat 32 (c.queries k)] := by
  by_cases h : k + 1 = c.parties
  · rw [backend_obs c offline online k h, countsRead]
    cases offline <;> cases online <;> parts
  · rw [party_obs c offline online k (by omega), countsRead]
    cases offline <;> cases online <;> parts

theorem ciphersRead_pos (c : Chain box) (online : Bool) (k : Nat) (hk : k < c.parties) :
    ciphersRead (c.obsAll true online (k + 1)) = (c.tickets k).map (fun t => t.cipher c.pkeys k) := by
  by_cases h : k + 1 = c.parties
  · rw [backend_obs c true online k h, ciphersRead]
    cases online <;> parts
  · rw [party_obs c true online k (by omega), ciphersRead]
    cases online <;> parts

theorem stores_pos (c : Chain box) (online : Bool) (k : Nat) (hk : k < c.parties) :
    stores (c.obsAll true online (k + 1)) = (c.tickets k).map Ticket.head := by
  by_cases h : k + 1 = c.parties
  · rw [backend_obs c true online k h, stores]
    cases online <;> parts
  · rw [party_obs c true online k (by omega), stores]
    cases online <;> parts

theorem queriesSent_party (c : Chain box) (offline : Bool) (k : Nat) (hk : k + 1 < c.parties) :
    queriesSent (c.obsAll offline true (k + 1)) = (c.qs offline (k + 1)).map QTicket.query := by
  rw [party_obs c offline true k hk, queriesSent]
  cases offline <;> parts

theorem responsesRead_party (c : Chain box) (offline : Bool) (k : Nat) (hk : k + 1 < c.parties) :
    responsesRead (c.obsAll offline true (k + 1)) = (c.qs offline (k + 1)).map QTicket.resp := by
  rw [party_obs c offline true k hk, responsesRead]
  cases offline <;> parts

theorem countsSent_party (c : Chain box) (offline online : Bool) (k : Nat) (hk : k + 1 < c.parties) :
    countsSent (c.obsAll offline online (k + 1)) = [BitVec.ofNat 32 (c.queries (k + 1))] := by
  rw [party_obs c offline online k hk, countsSent]
  cases offline <;> cases online <;> parts

theorem ciphersSent_party (c : Chain box) (online : Bool) (k : Nat) (hk : k + 1 < c.parties) :
    ciphersSent (c.obsAll true online (k + 1)) = (c.tickets (k + 1)).map (fun t => t.cipher c.pkeys (k + 1)) := by
  rw [party_obs c true online k hk, ciphersSent]
  cases online <;> parts

/-! ### Keys and tags of the queries -/

theorem qs_zero_keys (c : Chain box) (offline : Bool) : (c.qs offline 0).map QTicket.key = (List.range c.count).map c.wanted := by
  rw [qs, List.map_map]
  rfl

theorem noiseQ_keys (keys : List Nat) (tag : Nat → BitVec 64) (sh : Nat → List Share) (pr : Nat → List Preshare) :
    (noiseQ keys tag sh pr).map QTicket.key = keys := by
  unfold noiseQ
  apply List.ext_getElem?
  intro i
  rw [List.getElem?_map, List.getElem?_mapIdx]
  cases keys[i]? <;> rfl

theorem noiseQs_keys (c : Chain box) (offline : Bool) (k : Nat) :
    (c.noiseQs offline k).map QTicket.key = noiseKeys (c.partyRand k).sample c.rows := by
  unfold noiseQs
  split
  · exact noiseQ_keys _ _ _ _
  · exact noiseQ_keys _ _ _ _

/-- Keys of all noise of the parties before process `k + 1`. -/
def allNoise (c : Chain box) (k : Nat) : List Nat := (List.range k).flatMap (fun j => noiseKeys (c.partyRand j).sample c.rows)

theorem qs_keys {c : Chain box} (h : c.Valid) (offline : Bool) (k : Nat) (hk : k < c.parties) :
    ((c.qs offline k).map QTicket.key).Perm ((List.range c.count).map c.wanted ++ c.allNoise k) := by
  induction k with
  | zero => rw [qs_zero_keys]; simp [allNoise]
  | succ k ih =>
    have := (qs_perm h offline k hk (qs_spec h offline k (by omega)).1).1
    refine (this.map _).trans ?_
    rw [List.map_append, noiseQs_keys, List.map_map,
      show QTicket.key ∘ QTicket.next = QTicket.key from rfl]
    refine List.perm_append_comm.trans (((ih (by omega)).append_right _).trans (List.Perm.of_eq ?_))
    rw [allNoise, allNoise, List.range_succ, List.flatMap_append, List.append_assoc]
    simp

theorem noiseQs_tags (c : Chain box) (k : Nat) :
    (c.noiseQs true k).map QTicket.tag = (List.range (c.noise k)).map (noiseTag (c.queries k)) := by
  rw [noise_eq, ← noiseKeys_length]
  simp only [noiseQs, if_true, realNQ, noiseQ]
  apply List.ext_getElem?
  intro i
  rw [List.getElem?_map, List.getElem?_mapIdx, List.getElem?_map]
  by_cases hi : i < (noiseKeys (c.partyRand k).sample c.rows).length
  · rw [List.getElem?_range hi, List.getElem?_eq_getElem hi]
    rfl
  · rw [List.getElem?_eq_none (l := noiseKeys _ _) (by omega), List.getElem?_eq_none (by rw [List.length_range]; omega)]
    rfl

theorem qs_tags {c : Chain box} (h : c.Valid) (k : Nat) (hk : k < c.parties) :
    ((c.qs true k).map QTicket.tag).Perm ((List.range (c.queries k)).map (BitVec.ofNat 64)) := by
  induction k with
  | zero =>
    have h32 := h.lt hk
    rw [qs, List.map_map]
    refine List.Perm.of_eq (List.map_congr_left ?_)
    intro i hi
    rw [queries] at h32
    rw [List.mem_range] at hi
    show clientTag 0 c.count i = _
    unfold clientTag
    rw [Nat.zero_mul, Nat.zero_add, wrap32_of_lt (by omega)]
  | succ k ih =>
    have h32 := h.lt hk
    have := (qs_perm h true k hk (qs_spec h true k (by omega)).1).1
    refine (this.map _).trans ?_
    rw [List.map_append, noiseQs_tags, List.map_map,
      show QTicket.tag ∘ QTicket.next = QTicket.tag from rfl]
    refine List.perm_append_comm.trans (((ih (by omega)).append_right _).trans (List.Perm.of_eq ?_))
    rw [queries, List.range_add, List.map_append, List.map_map]
    congr 1
    apply List.map_congr_left
    intro i hi
    rw [List.mem_range] at hi
    rw [queries] at h32
    show noiseTag _ _ = _
    unfold noiseTag
    rw [wrap32_of_lt (by omega)]
    rfl

/-- A tag below the client's count belongs to the client's query of that number. -/
theorem qs_tag_key {c : Chain box} (h : c.Valid) (k : Nat) (hk : k < c.parties) (q : QTicket) (hq : q ∈ c.qs true k) (j : Nat)
    (hj : j < c.count) (ht : q.tag = BitVec.ofNat 64 j) : q.key = c.wanted j := by
  induction k generalizing q with
  | zero =>
    have h32 := h.lt hk
    rw [queries] at h32
    simp only [qs, List.mem_map, List.mem_range] at hq
    obtain ⟨i, hi, rfl⟩ := hq
    have : clientTag 0 c.count i = BitVec.ofNat 64 j := ht
    have := congrArg BitVec.toNat this
    unfold clientTag at this
    rw [Nat.zero_mul, Nat.zero_add, wrap32_of_lt (by omega)] at this
    simp only [BitVec.toNat_ofNat] at this
    have : i = j := by omega
    rw [← this]
    rfl
  | succ k ih =>
    have h32 := h.lt hk
    have hm := c.queries_mono (Nat.zero_le k)
    rw [(qs_perm h true k hk (qs_spec h true k (by omega)).1).1.mem_iff, List.mem_append] at hq
    rcases hq with hq | hq
    · exfalso
      have : q.tag ∈ (c.noiseQs true k).map QTicket.tag := List.mem_map_of_mem hq
      rw [noiseQs_tags, List.mem_map] at this
      obtain ⟨i, hi, e⟩ := this
      rw [List.mem_range] at hi
      rw [ht] at e
      have := congrArg BitVec.toNat e
      rw [queries] at h32
      have hm : c.count ≤ c.queries k := hm
      unfold noiseTag at this
      rw [wrap32_of_lt (by omega)] at this
      simp only [BitVec.toNat_ofNat] at this
      omega
    · rw [List.mem_map] at hq
      obtain ⟨q', hq', rfl⟩ := hq
      exact ih (by omega) q' hq' ht

/-! ### Readiness -/

theorem sentTo_prefix {as bs : List (PAct Nat)} (h : as <+: bs) (d : Nat) : (sentTo d as).length ≤ (sentTo d bs).length := by
  obtain ⟨r, rfl⟩ := h
  simp

theorem rcvdFrom_prefix {as bs : List (PAct Nat)} (h : as <+: bs) (d : Nat) : (rcvdFrom d as).length ≤ (rcvdFrom d bs).length := by
  obtain ⟨r, rfl⟩ := h
  simp

/-- The state of every process when the client has started the online stage. -/
theorem offline_done {c : Chain box} (h : c.Valid) (offline : Bool) (cap : Nat × Nat → Nat) (s : List Nat) (n : Net Nat Obs)
    (hn : (c.net offline true).run cap s = some n) (hq : queriesSent (n.seen 0) ≠ []) (i : Nat) (hi : i ≤ c.parties) :
    c.obsOff offline i <+: n.seen i := by
  choose pre post hd hout using proc_does h offline true
  have hcons : ∀ i j, sentTo j (pre i ++ post i) = rcvdFrom i (pre j ++ post j) := by
    intro i j
    rw [← sentTo_comm, ← rcvdFrom_comm, comm_append, comm_append, (hd i).commPre, (hd i).commPost, (hd j).commPre,
      (hd j).commPost, ← proj_script, ← proj_script]
    exact Net.proj_consistent _ _ _
  have hcons' : ∀ i j, sentTo j (pre i) = rcvdFrom i (pre j) := by
    intro i j
    rw [← sentTo_comm, ← rcvdFrom_comm, (hd i).commPre, (hd j).commPre]
    have e : ∀ i, c.commOff offline i = Net.proj i (c.script offline false) := by
      intro i
      rw [proj_script]
      simp [commOn]
    rw [e, e]
    exact Net.proj_consistent _ _ _
  obtain ⟨pr, rest, hp⟩ := Net.progress_run hcons s _ _ (Net.progress_start (fun i => (hd i).runs)) hn
  have hpr : ∀ i, pr i <+: pre i ++ post i := fun i => ⟨rest i, (hp.split i).symm⟩
  suffices H : ∀ i ≤ c.parties, pre i <+: pr i by
    rw [← (hd i).obsPre, hp.seen i]
    obtain ⟨r, hr⟩ := H i hi
    rw [← hr, obsOf_append]
    exact List.prefix_append _ _
  intro i
  induction i with
  | zero =>
    intro _
    rcases List.prefix_or_prefix_of_prefix (hpr 0) (List.prefix_append (pre 0) (post 0)) with h1 | h1
    · exfalso
      apply hq
      rw [hp.seen 0]
      obtain ⟨r, hr⟩ := h1
      have : obsOf (pr 0) <+: c.obsOff offline 0 := by
        rw [← (hd 0).obsPre, ← hr, obsOf_append]
        exact List.prefix_append _ _
      have h2 := queriesSent_prefix this
      have h3 : queriesSent (c.obsOff offline 0) = [] := by
        unfold obsOff queriesSent
        cases offline <;> parts
      rw [h3] at h2
      exact List.prefix_nil.1 h2
    · exact h1
  | succ i ih =>
    intro hi
    have h1 := ih (by omega)
    rcases List.prefix_or_prefix_of_prefix (hpr (i + 1)) (List.prefix_append (pre (i + 1)) (post (i + 1))) with h2 | h2
    · obtain ⟨a, ha⟩ := (hd (i + 1)).last (by omega) hi
      rw [Nat.add_sub_cancel] at ha
      have h3 := rcvdFrom_prefix h1 (i + 1)
      have h4 := congrArg List.length (hp.chan (i + 1) i)
      have h5 := congrArg List.length (hcons' (i + 1) i)
      rw [List.length_append] at h4
      obtain ⟨r, hr⟩ := h2
      cases hr' : r.reverse with
      | nil =>
        have : r = [] := by simpa using hr'
        rw [← hr, this, List.append_nil]
      | cons x l =>
        exfalso
        have er : r = l.reverse ++ [x] := by rw [← List.reverse_reverse r, hr']; simp
        rw [ha, er, ← List.append_assoc] at hr
        have hx : x = Act.send i 1 := by
          have := congrArg List.getLast? hr
          simpa [aSendReady] using this
        have h6 : sentTo i (pre (i + 1)) = sentTo i (pr (i + 1)) ++ sentTo i r := by
          rw [ha, ← hr, ← sentTo_append, er, List.append_assoc]
        have h7 : 1 ≤ (sentTo i r).length := by
          rw [er, hx, sentTo_append]
          simp [sentTo_send]
        rw [h6, List.length_append] at h5
        omega
    · exact h2

end Chain
end DPPIR.Protocol
