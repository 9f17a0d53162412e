import Verif.Proofs.State

/-!
# C28, C29, C50: offline state, database, response equality
-/

namespace DPPIR.Props
open DPPIR.Spec

/-- **C28** (party). Storing secrets with pairwise distinct tags succeeds, and every
stored tag then gives back exactly its secret, whatever the insertion order. -/
theorem C28_party_store_load (os : List OfflineSecret) (hnd : (os.map OfflineSecret.tag).Nodup) :
    ∃ s, storeAll (({} : PartyState).initialize false) os = .ok s ∧
      ∀ o ∈ os, (s.loadSecret o.tag).getNextTag = .ok o.nextTag ∧
        (s.loadSecret o.tag).getIncremental = .ok o.share ∧
        s.getPreshare o.tag = .ok o.preshare ∧
        (s.loadSecret o.tag).getPreshare o.tag = .ok o.preshare := by
  obtain ⟨s, h1, h2, h3, -⟩ := storeAll_ok (({} : PartyState).initialize false) os hnd (by intro o _; rfl)
  refine ⟨s, h1, ?_⟩
  intro o ho
  have hl : s.secrets.lookup o.tag = some ⟨o.nextTag, o.share, o.preshare⟩ := by
    rw [h3]
    exact lookup_map_of_nodup os OfflineSecret.tag (fun o => (⟨o.nextTag, o.share, o.preshare⟩ : PartySecret))
      hnd o ho
  have hsim : s.simulated = false := h2
  refine ⟨?_, ?_, ?_, ?_⟩ <;>
    simp [PartyState.loadSecret, PartyState.getNextTag, PartyState.getIncremental, PartyState.getPreshare, hsim, hl,
      deref]

/-- **C28** (party). A tag that was not stored is never answered: loading it and
reading is undefined behaviour, and asking for its response share throws. -/
theorem C28_party_absent (os : List OfflineSecret) (hnd : (os.map OfflineSecret.tag).Nodup) (s : PartyState)
    (h : storeAll (({} : PartyState).initialize false) os = .ok s) (tag : BitVec 64)
    (ht : ∀ o ∈ os, o.tag ≠ tag) :
    (s.loadSecret tag).getNextTag = .error .ub ∧ (s.loadSecret tag).getIncremental = .error .ub ∧
      s.getPreshare tag = .error .exception := by
  obtain ⟨s', h1, h2, h3, -⟩ := storeAll_ok (({} : PartyState).initialize false) os hnd (by intro o _; rfl)
  rw [h] at h1
  have := Except.ok.inj h1
  subst this
  have hl : s.secrets.lookup tag = none := by
    rw [h3]
    apply lookup_eq_none_of
    intro e he
    simp only [PartyState.initialize, Bool.false_eq_true, if_false, List.nil_append, List.mem_map] at he
    obtain ⟨o, ho, rfl⟩ := he
    exact ht o ho
  have hsim : s.simulated = false := h2
  refine ⟨?_, ?_, ?_⟩ <;>
    simp [PartyState.loadSecret, PartyState.getNextTag, PartyState.getIncremental, PartyState.getPreshare, hsim, hl,
      deref]

/-- **C28** (party). If two of the secrets carry the same tag, the program stops. -/
theorem C28_party_collision_stops (os : List OfflineSecret) (hnd : ¬ (os.map OfflineSecret.tag).Nodup) :
    storeAll (({} : PartyState).initialize false) os = .error .assertFail :=
  storeAll_fail _ _ (fun h => hnd h.1)

/-- **C28** (party). The simulated store answers every tag with the identity. -/
theorem C28_party_simulated (tag : BitVec 64) :
    let s := ({} : PartyState).initialize true
    (s.loadSecret tag).getNextTag = .ok 0 ∧ (s.loadSecret tag).getIncremental = .ok ⟨0, 1⟩ ∧
      s.getPreshare tag = .ok (fun _ => 0) ∧ (s.loadSecret tag).getPreshare tag = .ok (fun _ => 0) := by
  refine ⟨rfl, rfl, rfl, rfl⟩

/-- **C28** (backend). -/
theorem C28_backend_store_load (os : List OfflineSecret) (hnd : (os.map OfflineSecret.tag).Nodup) :
    ∃ s, storeAllB (({} : BackendState).initialize false) os = .ok s ∧
      ∀ o ∈ os, (s.loadSecret o.tag).getIncremental = .ok o.share ∧
        (s.loadSecret o.tag).getPreshare = .ok o.preshare := by
  obtain ⟨s, h1, h2, h3, -⟩ := storeAllB_ok (({} : BackendState).initialize false) os hnd (by intro o _; rfl)
  refine ⟨s, h1, ?_⟩
  intro o ho
  have hl : s.secrets.lookup o.tag = some ⟨o.share, o.preshare⟩ := by
    rw [h3]
    exact lookup_map_of_nodup os OfflineSecret.tag (fun o => (⟨o.share, o.preshare⟩ : BackendSecret)) hnd o ho
  have hsim : s.simulated = false := h2
  refine ⟨?_, ?_⟩ <;>
    simp [BackendState.loadSecret, BackendState.getIncremental, BackendState.getPreshare, hsim, hl, deref]

/-- **C28** (backend). -/
theorem C28_backend_absent (os : List OfflineSecret) (hnd : (os.map OfflineSecret.tag).Nodup) (s : BackendState)
    (h : storeAllB (({} : BackendState).initialize false) os = .ok s) (tag : BitVec 64)
    (ht : ∀ o ∈ os, o.tag ≠ tag) :
    (s.loadSecret tag).getIncremental = .error .ub ∧ (s.loadSecret tag).getPreshare = .error .ub := by
  obtain ⟨s', h1, h2, h3, -⟩ := storeAllB_ok (({} : BackendState).initialize false) os hnd (by intro o _; rfl)
  rw [h] at h1
  have := Except.ok.inj h1
  subst this
  have hl : s.secrets.lookup tag = none := by
    rw [h3]
    apply lookup_eq_none_of
    intro e he
    simp only [BackendState.initialize, Bool.false_eq_true, if_false, List.nil_append, List.mem_map] at he
    obtain ⟨o, ho, rfl⟩ := he
    exact ht o ho
  have hsim : s.simulated = false := h2
  refine ⟨?_, ?_⟩ <;>
    simp [BackendState.loadSecret, BackendState.getIncremental, BackendState.getPreshare, hsim, hl, deref]

/-- **C28** (backend). -/
theorem C28_backend_collision_stops (os : List OfflineSecret) (hnd : ¬ (os.map OfflineSecret.tag).Nodup) :
    storeAllB (({} : BackendState).initialize false) os = .error .assertFail :=
  storeAllB_fail _ _ (fun h => hnd h.1)

/-- **C28** (backend). -/
theorem C28_backend_simulated (tag : BitVec 64) :
    let s := ({} : BackendState).initialize true
    (s.loadSecret tag).getIncremental = .ok ⟨0, 1⟩ ∧ (s.loadSecret tag).getPreshare = .ok (fun _ => 0) := by
  refine ⟨rfl, rfl⟩

/-- Non-vacuity of C28: two secrets with different tags; and with equal tags. -/
example : (([⟨7, 7, ⟨5, 6⟩, fun _ => 1⟩, ⟨8, 9, ⟨1, 2⟩, fun _ => 2⟩] : List OfflineSecret).map
      OfflineSecret.tag).Nodup ∧
    ¬ (([⟨7, 7, ⟨5, 6⟩, fun _ => 1⟩, ⟨7, 9, ⟨1, 2⟩, fun _ => 2⟩] : List OfflineSecret).map
      OfflineSecret.tag).Nodup := by decide

/-- **C29.** After storing `n` secrets in a state made for `n`, the `k`-th load
serves the tag and key shares of the `k`-th secret; after `FinishSharing` the
`k`-th load serves the response share of the `k`-th secret.  One load too many is
an out-of-bounds access, never a repetition. -/
theorem C29_client_fifo (s0 : ClientState) (partyCount : Nat) (cs : List ClientSecret)
    (h32 : cs.length + 1 < 2 ^ 32) :
    ∃ s, addAll (s0.initialize partyCount cs.length false false) cs = .ok s ∧
      (∀ k (h : k < cs.length), (loads (k + 1) s).getTag = .ok cs[k].tag ∧
        (loads (k + 1) s).getIncrementalShares = .ok cs[k].incrementals ∧
        (loads (k + 1) s.finishSharing).getPreshare = .ok cs[k].preshare ∧
        (loads (k + 1) (loads cs.length s).finishSharing).getPreshare = .ok cs[k].preshare) ∧
      (loads (cs.length + 1) s).getTag = .error .ub ∧
      (loads (cs.length + 1) s).getIncrementalShares = .error .ub ∧
      (loads (cs.length + 1) s.finishSharing).getPreshare = .error .ub := by
  have h := addAll_ok (s0.initialize partyCount cs.length false false) [] cs (by simp; omega) rfl
    (by simp [ClientState.initialize]) (by simp [ClientState.initialize]) (by simp [ClientState.initialize])
  simp only [List.nil_append, List.length_nil, Nat.zero_add] at h
  refine ⟨_, h, ?_, ?_, ?_, ?_⟩
  · intro k hk
    have hr : ∀ j, j < 2 ^ 32 → ((s0.initialize partyCount cs.length false false).readIdx + j) < 2 ^ 32 := by
      intro j hj; simpa [ClientState.initialize] using hj
    have e1 := loads_eq (k + 1) { s0.initialize partyCount cs.length false false with
      writeIdx := cs.length, tags := cs.map ClientSecret.tag,
      incrementals := cs.map ClientSecret.incrementals, preshares := cs.map ClientSecret.preshare }
      (hr (k + 1) (by omega))
    have e2 := loads_eq cs.length { s0.initialize partyCount cs.length false false with
      writeIdx := cs.length, tags := cs.map ClientSecret.tag,
      incrementals := cs.map ClientSecret.incrementals, preshares := cs.map ClientSecret.preshare }
      (hr cs.length (by omega))
    have e3 := loads_eq (k + 1) (ClientState.finishSharing { s0.initialize partyCount cs.length false false with
      writeIdx := cs.length, tags := cs.map ClientSecret.tag,
      incrementals := cs.map ClientSecret.incrementals, preshares := cs.map ClientSecret.preshare })
      (by simp [ClientState.finishSharing]; omega)
    have e4 := loads_eq (k + 1) (ClientState.finishSharing { s0.initialize partyCount cs.length false false with
      writeIdx := cs.length, tags := cs.map ClientSecret.tag,
      incrementals := cs.map ClientSecret.incrementals, preshares := cs.map ClientSecret.preshare,
      readIdx := (s0.initialize partyCount cs.length false false).readIdx + cs.length })
      (by simp [ClientState.finishSharing]; omega)
    rw [e2, e1, e3, e4]
    refine ⟨?_, ?_, ?_, ?_⟩
    · unfold ClientState.getTag
      rw [cur_eq _ k rfl (by simp [ClientState.initialize]) (by omega)]
      exact rd_eq_ok.2 (by simp [hk])
    · unfold ClientState.getIncrementalShares
      rw [cur_eq _ k rfl (by simp [ClientState.initialize]) (by omega)]
      exact rd_eq_ok.2 (by simp [hk])
    · unfold ClientState.getPreshare
      rw [cur_eq _ k rfl (by simp [ClientState.finishSharing]) (by omega)]
      exact rd_eq_ok.2 (by simp [ClientState.finishSharing, hk])
    · unfold ClientState.getPreshare
      rw [cur_eq _ k rfl (by simp [ClientState.finishSharing]) (by omega)]
      exact rd_eq_ok.2 (by simp [ClientState.finishSharing, hk])
  all_goals
    rw [loads_eq _ _ (by simp [ClientState.initialize, ClientState.finishSharing]; omega)]
    first
      | unfold ClientState.getTag
      | unfold ClientState.getIncrementalShares
      | unfold ClientState.getPreshare
    rw [cur_eq _ cs.length rfl (by simp [ClientState.initialize, ClientState.finishSharing]) (by omega)]
    exact rd_ub (by simp [ClientState.finishSharing])

/-- **C29**, noise secrets of a party (no response shares are kept). -/
theorem C29_noise_fifo (s0 : ClientState) (partyCount : Nat) (cs : List ClientSecret)
    (h32 : cs.length + 1 < 2 ^ 32) :
    ∃ s, addAllNoise (s0.initialize partyCount cs.length true false) cs = .ok s ∧
      (∀ k (h : k < cs.length), (loads (k + 1) s).getTag = .ok cs[k].tag ∧
        (loads (k + 1) s).getIncrementalShares = .ok cs[k].incrementals) ∧
      (loads (cs.length + 1) s).getTag = .error .ub ∧
      (loads (cs.length + 1) s).getIncrementalShares = .error .ub := by
  have h := addAllNoise_ok (s0.initialize partyCount cs.length true false) [] cs (by simp; omega) rfl
    (by simp [ClientState.initialize]) (by simp [ClientState.initialize])
  simp only [List.nil_append, List.length_nil, Nat.zero_add] at h
  refine ⟨_, h, ?_, ?_, ?_⟩
  · intro k hk
    rw [loads_eq (k + 1) _ (by simp [ClientState.initialize]; omega)]
    constructor
    · unfold ClientState.getTag
      rw [cur_eq _ k rfl (by simp [ClientState.initialize]) (by omega)]
      exact rd_eq_ok.2 (by simp [hk])
    · unfold ClientState.getIncrementalShares
      rw [cur_eq _ k rfl (by simp [ClientState.initialize]) (by omega)]
      exact rd_eq_ok.2 (by simp [hk])
  all_goals
    rw [loads_eq _ _ (by simp [ClientState.initialize]; omega)]
    first
      | unfold ClientState.getTag
      | unfold ClientState.getIncrementalShares
    rw [cur_eq _ cs.length rfl (by simp [ClientState.initialize]) (by omega)]
    exact rd_ub (by simp)

/-- Non-vacuity of C29. -/
example : ([⟨3, [⟨1, 2⟩], fun _ => 9⟩, ⟨4, [⟨5, 6⟩], fun _ => 8⟩] : List ClientSecret).length + 1 < 2 ^ 32 := by
  decide

/-- **C50.** Construction succeeds and every row can be looked up; no key outside
`[0, rows)` can. -/
theorem C50_database_rows (rows : Nat) :
    ∃ d, Database.new rows = .ok d ∧ d.size = rows ∧
      (∀ key, key < rows → ∃ r, d.lookup key = .ok r ∧ r.value = BitVec.ofNat 32 (2 * key) ∧
        ∀ j, r.sig j = BitVec.ofNat 8 (key % 128)) ∧
      (∀ key, rows ≤ key → d.lookup key = .error .ub) ∧
      (∀ raw, 0 < rows → d.randomRow raw < rows) := by
  refine ⟨_, database_new rows, rfl, ?_, ?_, ?_⟩
  · intro key h
    refine ⟨Database.row key, rd_eq_ok.2 (by simp [h]), ?_, fun _ => rfl⟩
    apply BitVec.eq_of_toNat_eq
    simp [Database.row, wrap32]
  · intro key h
    exact rd_ub (by simpa using h)
  · intro raw h
    unfold Database.randomRow
    simp only
    split
    · omega
    · exact Nat.mod_lt _ h

/-- **C50.** Two responses compare equal exactly when they are the same 52 bytes. -/
theorem C50_response_equality (a b : Response) :
    (a.eq b = true ↔ a.encode = b.encode) ∧ (a.eq b = true ↔ a = b) := by
  have h : a.eq b = true ↔ a = b := by
    unfold Response.eq
    by_cases hv : a.value = b.value
    · rw [if_neg (by simpa using hv), eqSigFrom_iff]
      constructor
      · intro h
        cases a; cases b
        simp only at hv h
        subst hv
        congr 1
        funext j
        exact h j (Nat.zero_le _)
      · rintro rfl; intros; rfl
    · rw [if_pos (by simpa using hv)]
      simp only [Bool.false_eq_true, false_iff]
      rintro rfl
      exact hv rfl
  refine ⟨?_, h⟩
  rw [h]
  constructor
  · rintro rfl; rfl
  · intro e
    rw [← Response.decode_encode a, e, Response.decode_encode]

/-- **C50.** Below 2^31 rows the values of different rows differ, so the client's
comparison detects every wrong row. -/
theorem C50_rows_distinct (rows : Nat) (h : rows ≤ 2 ^ 31) (d : Database) (hd : Database.new rows = .ok d)
    (k k' : Nat) (hk : k < rows) (hk' : k' < rows) (r : Response) (h1 : d.lookup k = .ok r)
    (h2 : d.lookup k' = .ok r) : k = k' := by
  rw [database_new] at hd
  have := Except.ok.inj hd
  subst this
  have e1 : r = Database.row k := by
    have := rd_eq_ok.1 h1
    simpa [hk] using this.symm
  have e2 : r = Database.row k' := by
    have := rd_eq_ok.1 h2
    simpa [hk'] using this.symm
  have := congrArg (fun r => r.value.toNat) (e1.symm.trans e2)
  simp [Database.row, wrap32] at this
  omega

/-- Non-vacuity of C50. -/
example : (5 : Nat) ≤ 2 ^ 31 ∧ ∃ d, Database.new 5 = .ok d ∧ d.lookup 3 = .ok (Database.row 3) := by
  exact ⟨by decide, _, database_new 5, rfl⟩

end DPPIR.Props
