import Verif.Proofs.GridFacts

/-!
# Tags with several servers per party, and parts of the records
-/

namespace DPPIR.Protocol
open DPPIR Proc PNet Onion Incremental Additive Spec Props Shuffle

variable {box : SealedBox}

namespace Grid

/-! ### Tags -/

theorem range_flatMap (w : Nat → Nat) (n : Nat) :
    (List.range n).flatMap (fun s => (List.range (w s)).map (fun i => preSum w s + i)) = List.range (preSum w n) := by
  induction n with
  | zero => rfl
  | succ n ih => rw [List.range_succ, List.flatMap_append, ih, List.flatMap_singleton, preSum_succ, List.range_add]

theorem first_eq (g : Grid box) {s : Nat} (hs : s < g.servers) : preSum g.width s = g.first s := by
  rw [preSum_congr (g := fun _ => g.share), preSum_const]
  · rfl
  · intro i hi
    unfold width
    rw [if_neg (by omega)]

theorem width_sum {g : Grid box} (h : g.Valid) : preSum g.width g.servers = g.rows := by
  obtain ⟨n, hn⟩ : ∃ n, g.servers = n + 1 := ⟨g.servers - 1, by have := h.pos; omega⟩
  rw [hn, preSum_succ, first_eq g (by omega)]
  have h1 := first_width h (s := n) (by omega)
  have h2 : g.width n = g.rows - g.first n := by
    unfold width
    rw [if_pos hn.symm]
  omega

theorem preSum_mul (f : Nat → Nat) (N n : Nat) : preSum (fun s => N * f s) n = N * preSum f n := by
  induction n with
  | zero => rfl
  | succ n ih => rw [preSum_succ, preSum_succ, ih, Nat.mul_add]

/-- With equally many noise queries per row, the noise tags of a party continue where
those of its predecessors end. -/
theorem noiseTag_even {g : Grid box} (h : g.Valid) {k N : Nat} (hk : k < g.parties - 1)
    (hN : ∀ s < g.servers, g.noise k s = N * g.width s) {s i : Nat} (hs : s < g.servers) (hi : i < g.noise k s) :
    g.noiseTag k s i = BitVec.ofNat 64 (g.total k + (preSum (g.noise k) s + i)) := by
  have hP := h.parties
  have hlt := h.lt (k := k + 1) (by omega)
  have hsum : preSum (g.noise k) g.servers = N * g.rows := by
    rw [preSum_congr hN, preSum_mul, width_sum h]
  have hpre : preSum (g.noise k) s = N * g.first s := by
    rw [preSum_congr (fun i hi => hN i (by omega)), preSum_mul, first_eq g hs]
  have hT := total_succ g k
  rw [hsum] at hT
  have hw : 0 < g.width s := by
    rcases Nat.eq_zero_or_pos (g.width s) with e | e
    · rw [hN s hs, e] at hi; omega
    · exact e
  have hper : g.noise k s / g.width s = N := by rw [hN s hs, Nat.mul_div_cancel _ hw]
  have hfw := first_width h hs
  have hle : N * g.first s ≤ N * g.rows := Nat.mul_le_mul_left _ (by omega)
  unfold noiseTag
  simp only [hper]
  rw [wrap32_of_lt (n := N * g.rows) (by omega), Nat.mul_comm (g.first s) N, wrap32_of_lt (n := N * g.first s) (by omega), hpre]
  have : wrap32 (N * g.rows + 2 ^ 32 - N * g.first s) = N * g.rows - N * g.first s := by
    unfold wrap32
    rcases Nat.eq_zero_or_pos (N * g.first s) with e | e
    · rw [e]; omega
    · omega
  rw [this, ← BitVec.ofInt_natCast]
  congr 1
  rw [hT]
  omega

theorem tagsTo_even {g : Grid box} (h : g.Valid) (hq : g.EqualClients) (hn : g.EvenNoise) (k : Nat) (hk : k < g.parties) :
    g.tagsTo k = (List.range (g.total k)).map (BitVec.ofNat 64) := by
  induction k with
  | zero =>
    obtain ⟨q, hq⟩ := hq
    have hc : preSum g.count g.servers < 2 ^ 32 := by rw [← total_zero]; exact h.lt hk
    show (List.range g.servers).flatMap _ ++ [] = _
    rw [List.append_nil, total_zero, ← range_flatMap, List.map_flatMap]
    refine List.flatMap_congr fun s hs => ?_
    have hs := List.mem_range.1 hs
    rw [List.map_map]
    refine List.map_congr_left fun i hi => ?_
    have hi := List.mem_range.1 hi
    show BitVec.ofNat 64 (wrap32 (s * g.count s + i)) = BitVec.ofNat 64 (preSum g.count s + i)
    have e : preSum g.count s = s * g.count s := by
      rw [preSum_congr (g := fun _ => q) (fun j hj => hq j (by omega)), preSum_const, hq s hs]
    have hm := preSum_mono g.count (show s + 1 ≤ g.servers by omega)
    rw [preSum_succ] at hm
    rw [e] at hm ⊢
    rw [wrap32_of_lt (by omega)]
  | succ k ih =>
    have hP := h.parties
    obtain ⟨N, hN⟩ := hn k (by omega)
    have hN' : ∀ s < g.servers, g.noise k s = N * g.width s := by
      intro s hs
      have e : g.noise k s = preSum (fun i => ((g.partyRand k s).sample i).toNat) (g.width s) := rfl
      rw [e, preSum_congr (g := fun _ => N) (hN s hs), preSum_const, Nat.mul_comm]
    rw [tagsTo_succ, ih (by omega), total_succ, List.range_add, List.map_append, List.map_map]
    congr 1
    rw [← range_flatMap, List.map_flatMap]
    refine List.flatMap_congr fun s hs => ?_
    have hs := List.mem_range.1 hs
    rw [List.map_map]
    refine List.map_congr_left fun i hi => ?_
    exact noiseTag_even h (by omega) hN' hs (List.mem_range.1 hi)

theorem distinct_even {g : Grid box} (h : g.Valid) (hq : g.EqualClients) (hn : g.EvenNoise) : g.DistinctTags := by
  have hP := h.parties
  have e := tagsTo_even h hq hn (g.parties - 1) (by omega)
  have hlt := h.fits
  show (g.tagsTo (g.parties - 1)).Nodup
  rw [e]
  refine List.Nodup.map_on ?_ List.nodup_range
  intro a ha b hb e
  rw [List.mem_range] at ha hb
  have := congrArg BitVec.toNat e
  simp only [BitVec.toNat_ofNat] at this
  omega

/-! ### Parts of the records -/

/-- Calls of a process in a complete run. -/
def obsAll (g : Grid box) (offline online : Bool) (i s : Nat) : List Obs :=
  g.obsOff offline i s ++ if online then g.obsOn offline i s else []

section parts
variable (g : Grid box) (offline online : Bool) (s : Nat)

theorem client_obs : g.obsAll offline online 0 s =
    ([.sendCount (BitVec.ofNat 32 (g.load 0 s)), .recvReady] ++
      if offline then (g.tickets 0 s).map (fun t => .sendCipher (t.cipher g.pkeys 0)) ++ [.recvReady] else []) ++
    if online then (g.qs offline 0 s).flatMap (fun q => [.want q.key, .sendQuery q.query]) ++
      (g.qs offline 0 s).flatMap (fun q => [.recvResponse q.resp, .result (Database.row q.key)]) else [] := by
  unfold obsAll obsOff obsOn
  simp

theorem party_obs (k : Nat) (hk : k + 1 < g.parties) : g.obsAll offline online (k + 1) s =
    ([.recvCount (BitVec.ofNat 32 (g.load k s)), .sendCount (BitVec.ofNat 32 (g.load (k + 1) s)), .recvReady, .sendReady] ++
    if offline then (g.tickets k s).map (fun t => .recvCipher (t.cipher g.pkeys k)) ++
      ((g.tickets k s).map (fun t => .store t.head) ++
      ((g.tickets (k + 1) s).map (fun t => .sendCipher (t.cipher g.pkeys (k + 1))) ++ [.recvReady, .sendReady])) else []) ++
    if online then (g.qs offline k s).map (fun q => .recvQuery q.query) ++ ((g.qs offline (k + 1) s).map (fun q => .sendQuery q.query) ++
      ((g.qs offline (k + 1) s).map (fun q => .recvResponse q.resp) ++ (g.qs offline k s).map (fun q => .sendResponse q.resp))) else [] := by
  unfold obsAll obsOff obsOn
  have h0 : ¬ k + 1 = 0 := by omega
  simp only [if_neg h0, if_pos hk, Nat.add_sub_cancel]

theorem backend_obs (k : Nat) (hk : k + 1 = g.parties) : g.obsAll offline online (k + 1) s =
    ([.recvCount (BitVec.ofNat 32 (g.load k s)), .sendReady] ++
    if offline then (g.tickets k s).flatMap (fun t => [.recvCipher (t.cipher g.pkeys k), .store t.head]) ++ [.sendReady] else []) ++
    if online then (g.qs offline k s).map (fun q => .recvQuery q.query) ++
      (g.qs offline k s).flatMap (fun q => [.lookup q.key, .sendResponse q.resp]) else [] := by
  unfold obsAll obsOff obsOn
  have h0 : ¬ k + 1 = 0 := by omega
  have h1 : ¬ k + 1 < g.parties := by omega
  simp only [if_neg h0, if_neg h1, if_pos hk, Nat.add_sub_cancel]

end parts

open Chain (flatMap_nil' flatMap_single)

section
variable (g : Grid box) (offline : Bool) (s : Nat)

theorem wants_client : wants (g.obsAll offline true 0 s) = (g.qs offline 0 s).map QTicket.key := by
  rw [client_obs, wants]
  cases offline <;> parts

theorem results_client : results (g.obsAll offline true 0 s) = (g.qs offline 0 s).map (fun q => Database.row q.key) := by
  rw [client_obs, results]
  cases offline <;> parts

theorem lookups_backend (k : Nat) (hk : k + 1 = g.parties) : lookups (g.obsAll offline true (k + 1) s) = (g.qs offline k s).map QTicket.key := by
  rw [backend_obs g offline true s k hk, lookups]
  cases offline <;> parts

theorem queriesSent_client : queriesSent (g.obsAll offline true 0 s) = (g.qs offline 0 s).map QTicket.query := by
  rw [client_obs, queriesSent]
  cases offline <;> parts

theorem queriesRead_pos (k : Nat) (hk : k < g.parties) : queriesRead (g.obsAll offline true (k + 1) s) = (g.qs offline k s).map QTicket.query := by
  rcases Nat.lt_or_ge (k + 1) g.parties with h | h
  · rw [party_obs g offline true s k h, queriesRead]
    cases offline <;> parts
  · rw [backend_obs g offline true s k (by omega), queriesRead]
    cases offline <;> parts

theorem responsesSent_pos (k : Nat) (hk : k < g.parties) : responsesSent (g.obsAll offline true (k + 1) s) = (g.qs offline k s).map QTicket.resp := by
  rcases Nat.lt_or_ge (k + 1) g.parties with h | h
  · rw [party_obs g offline true s k h, responsesSent]
    cases offline <;> parts
  · rw [backend_obs g offline true s k (by omega), responsesSent]
    cases offline <;> parts

theorem queriesSent_party (k : Nat) (hk : k + 1 < g.parties) : queriesSent (g.obsAll offline true (k + 1) s) = (g.qs offline (k + 1) s).map QTicket.query := by
  rw [party_obs g offline true s k hk, queriesSent]
  cases offline <;> parts

theorem responsesRead_client : responsesRead (g.obsAll offline true 0 s) = (g.qs offline 0 s).map QTicket.resp := by
  rw [client_obs, responsesRead]
  cases offline <;> parts

theorem responsesRead_party (k : Nat) (hk : k + 1 < g.parties) : responsesRead (g.obsAll offline true (k + 1) s) = (g.qs offline (k + 1) s).map QTicket.resp := by
  rw [party_obs g offline true s k hk, responsesRead]
  cases offline <;> parts

theorem countsSent_client (online : Bool) : countsSent (g.obsAll offline online 0 s) = [BitVec.ofNat 32 (g.load 0 s)] := by
  rw [client_obs, countsSent]
  cases offline <;> cases online <;> parts

theorem countsSent_party (online : Bool) (k : Nat) (hk : k + 1 < g.parties) :
    countsSent (g.obsAll offline online (k + 1) s) = [BitVec.ofNat 32 (g.load (k + 1) s)] := by
  rw [party_obs g offline online s k hk, countsSent]
  cases offline <;> cases online <;> parts

theorem countsRead_pos (online : Bool) (k : Nat) (hk : k < g.parties) :
    countsRead (g.obsAll offline online (k + 1) s) = [BitVec.ofNat 32 (g.load k s)] := by
  rcases Nat.lt_or_ge (k + 1) g.parties with h | h
  · rw [party_obs g offline online s k h, countsRead]
    cases offline <;> cases online <;> parts
  · rw [backend_obs g offline online s k (by omega), countsRead]
    cases offline <;> cases online <;> parts

theorem stores_pos (online : Bool) (k : Nat) (hk : k < g.parties) :
    stores (g.obsAll true online (k + 1) s) = (g.tickets k s).map Ticket.head := by
  rcases Nat.lt_or_ge (k + 1) g.parties with h | h
  · rw [party_obs g true online s k h, stores]
    cases online <;> parts
  · rw [backend_obs g true online s k (by omega), stores]
    cases online <;> parts

end

theorem qs_zero_keys (g : Grid box) (offline : Bool) (s : Nat) : (g.qs offline 0 s).map QTicket.key = (List.range (g.count s)).map (g.wanted s) := by
  rw [qs, List.map_map]
  rfl

/-! ### Keys -/

/-- Keys of the noise of server `s` of party `k`. -/
def noiseKeysOf (g : Grid box) (k s : Nat) : List Nat :=
  (List.range (g.width s)).flatMap (fun i => List.replicate ((g.partyRand k s).sample i).toNat (g.first s + i))

theorem noiseQs_keys (g : Grid box) (offline : Bool) (k s : Nat) : (g.noiseQs offline k s).map QTicket.key = g.noiseKeysOf k s := by
  have e : noiseKeysAt (g.partyRand k s).sample (g.first s) (g.width s) = g.noiseKeysOf k s := by
    unfold noiseKeysAt noiseKeys noiseKeysOf
    rw [List.map_flatMap]
    refine List.flatMap_congr fun i _ => ?_
    rw [List.map_replicate]
  unfold noiseQs
  rw [← e]
  split
  · exact Chain.noiseQ_keys _ _ _ _
  · exact Chain.noiseQ_keys _ _ _ _

theorem qs_keys {g : Grid box} (h : g.Valid) (offline : Bool) (k : Nat) (hk : k < g.parties) :
    ((List.range g.servers).flatMap (fun s => (g.qs offline k s).map QTicket.key)).Perm
      ((List.range g.servers).flatMap (fun s => (List.range (g.count s)).map (g.wanted s)) ++
        (List.range k).flatMap (fun k => (List.range g.servers).flatMap (g.noiseKeysOf k))) := by
  induction k with
  | zero =>
    simp only [qs_zero_keys, List.range_zero, List.flatMap_nil, List.append_nil]
    exact List.Perm.refl _
  | succ k ih =>
    have hlen : ∀ s, s < g.servers → (rawQ (g.noiseQs offline k) (g.qs offline k) s).length = (g.dests k s).length := by
      intro s hs
      rw [rawQ_length g offline _ s (qs_spec h offline k (by omega) s hs).1, dests_length h hk hs]
    have hp := (shuffled_perm g.servers (g.dests k) (rawQ (g.noiseQs offline k) (g.qs offline k)) (fun t => (g.slot k t).shuf.backward)
        hlen (routing h hk).lt (fun t ht => (isShuffler h hk ht).permB)).map QTicket.key
    rw [List.map_flatMap, List.map_flatMap] at hp
    refine (List.Perm.trans (List.Perm.of_eq rfl) hp).trans ?_
    have e : (fun s => (rawQ (g.noiseQs offline k) (g.qs offline k) s).map QTicket.key) =
        fun s => g.noiseKeysOf k s ++ (g.qs offline k s).map QTicket.key := by
      funext s
      unfold rawQ
      rw [List.map_append, List.map_map, noiseQs_keys]
      rfl
    rw [e, List.range_succ, List.flatMap_append, List.flatMap_singleton, ← List.append_assoc]
    exact (flatMap_append_perm' _ _ _).trans (List.perm_append_comm.trans ((ih (by omega)).append_right _))

end Grid

end DPPIR.Protocol
