import Verif.Proofs.ChainFacts

/-!
# Properties of a whole deployment with one server per party

`c.net offline online` is the network of all processes before the first step;
`.run cap s` lets them take steps in the order of the schedule `s`, with queues of
capacity `cap`.  A theorem that speaks of every `s` and `cap` speaks of every
interleaving, chunking and socket buffer size.
-/

namespace DPPIR.Props
open DPPIR Proc Onion Spec Protocol

variable {box : SealedBox}

theorem serves (c : Chain box) (h : c.Valid) (offline : Bool) : c.Serves offline := by
  intro cap hcap
  obtain ⟨N, hN⟩ := Chain.every_run h offline true cap hcap
  refine ⟨N, fun s n hn => ?_⟩
  obtain ⟨h1, h2, h3, h4, h5⟩ := hN s n hn
  have hw := Chain.wants_prefix (h4 0)
  rw [Chain.wants_client, Chain.qs_zero_keys] at hw
  refine ⟨h1, h2, h3.imp_right And.left, hw, ?_⟩
  intro d hd
  rw [database_new] at hd
  obtain rfl := Except.ok.inj hd
  have hkey : ∀ k ∈ (List.range c.count).map c.wanted,
      Database.lookup { size := c.rows, rows := (List.range c.rows).map Database.row } k = .ok (Database.row k) := by
    intro k hk
    rw [List.mem_map] at hk
    obtain ⟨j, -, rfl⟩ := hk
    have hr := h.rows
    have : c.wanted j < c.rows := by
      unfold Chain.wanted
      split
      · omega
      · exact Nat.mod_lt _ (by omega)
    exact rd_eq_ok.2 (by simp [this])
  have hres : ∀ l : List QTicket, (l.map (fun q => Database.row q.key)).map Except.ok =
      (l.map QTicket.key).map (fun k => (Except.ok (Database.row k) : Res Response)) := by
    intro l; simp
  have hall : ((c.qs offline 0).map (fun q => Database.row q.key)).map Except.ok =
      ((List.range c.count).map c.wanted).map
        (Database.lookup { size := c.rows, rows := (List.range c.rows).map Database.row }) := by
    rw [hres, Chain.qs_zero_keys]
    exact List.map_congr_left (fun k hk => (hkey k hk).symm)
  refine ⟨?_, ?_⟩
  · have hr := Chain.results_prefix (h4 0)
    rw [Chain.results_client] at hr
    rw [← hall]
    obtain ⟨r, hr⟩ := hr
    rw [← hr, List.map_append]
    exact List.prefix_append _ _
  · intro hf
    have := Chain.finished_seen h offline true cap hcap hn hf
    have e : wants (n.seen 0) = (List.range c.count).map c.wanted := by
      rw [this, Chain.wants_client, Chain.qs_zero_keys]
    refine ⟨e, ?_⟩
    rw [e, this, Chain.results_client, hall]

/-- **C36.** Offline and online stage together: the client gets exactly the database
rows of its keys, in order, for every number of parties, every noise, all shuffles and
random choices, every schedule and chunking. -/
theorem C36_end_to_end (c : Chain box) (h : c.Valid) : c.Serves true := serves c h true

/-- **C37.** The same in the online-only mode. -/
theorem C37_online_only (c : Chain box) (h : c.Valid) : c.Serves false := serves c h false

/-- **C45.** Whatever the stages run, the schedule and the (positive) capacities, no
run gets stuck before every process has returned and every queue is empty, and every
run is finite. -/
theorem C45_no_deadlock (c : Chain box) (h : c.Valid) (offline online : Bool) (cap : Nat × Nat → Nat)
    (hcap : ∀ x, 0 < cap x) :
    ∃ N, ∀ s n, (c.net offline online).run cap s = some n →
      s.length ≤ N ∧ (n.CanStep cap ∨ (∀ i, n.Finished i) ∧ ∀ x, n.chan x = []) := by
  obtain ⟨N, hN⟩ := Chain.every_run h offline online cap hcap
  refine ⟨N, fun s n hn => ?_⟩
  obtain ⟨h1, -, h3, -, -⟩ := hN s n hn
  exact ⟨h1, h3⟩

/-- **C38.** When all processes have returned, every process has read exactly the
count, ciphers and queries its predecessor sent and has sent back exactly the responses its
predecessor read; there are `queries k` of each between process `k` and process `k + 1`,
that is the client's count plus the noise sampled by the parties before. -/
theorem C38_counts_conserved (c : Chain box) (h : c.Valid) (offline : Bool) (cap : Nat × Nat → Nat) (hcap : ∀ x, 0 < cap x)
    (s : List Nat) (n : Net Nat Obs) (hn : (c.net offline true).run cap s = some n) (hf : ∀ i, n.Finished i)
    (k : Nat) (hk : k < c.parties) :
    (countsSent (n.seen k) = [BitVec.ofNat 32 (c.queries k)] ∧ (BitVec.ofNat 32 (c.queries k)).toNat = c.queries k) ∧
    countsRead (n.seen (k + 1)) = countsSent (n.seen k) ∧
    queriesRead (n.seen (k + 1)) = queriesSent (n.seen k) ∧ (queriesSent (n.seen k)).length = c.queries k ∧
    responsesRead (n.seen k) = responsesSent (n.seen (k + 1)) ∧ (responsesRead (n.seen k)).length = c.queries k ∧
    (offline = true → ciphersRead (n.seen (k + 1)) = ciphersSent (n.seen k) ∧
      (ciphersSent (n.seen k)).length = c.queries k ∧ (stores (n.seen (k + 1))).length = c.queries k) := by
  obtain ⟨N, hN⟩ := Chain.every_run h offline true cap hcap
  have hs := (hN s n hn).2.2.2.2 hf
  rw [hs, hs]
  have hlen := (Chain.qs_spec h offline k hk).1
  have htl := (Chain.tickets_spec h k hk).1
  rw [Chain.countsRead_pos c offline true k hk, Chain.queriesRead_pos c offline k hk, Chain.responsesSent_pos c offline k hk]
  have h32 : (BitVec.ofNat 32 (c.queries k)).toNat = c.queries k := by
    rw [BitVec.toNat_ofNat, Nat.mod_eq_of_lt (h.lt hk)]
  rcases Nat.eq_zero_or_pos k with rfl | hk0
  · rw [Chain.countsSent_client, Chain.queriesSent_client, Chain.responsesRead_client]
    refine ⟨⟨rfl, h32⟩, rfl, rfl, by rw [List.length_map, hlen], rfl, by rw [List.length_map, hlen], ?_⟩
    rintro rfl
    rw [Chain.ciphersRead_pos c true 0 hk, Chain.ciphersSent_client, Chain.stores_pos c true 0 hk]
    exact ⟨rfl, by rw [List.length_map, htl], by rw [List.length_map, htl]⟩
  · obtain ⟨j, rfl⟩ : ∃ j, k = j + 1 := ⟨k - 1, by omega⟩
    rw [Chain.countsSent_party c offline true j hk, Chain.queriesSent_party c offline j hk,
      Chain.responsesRead_party c offline j hk]
    refine ⟨⟨rfl, h32⟩, rfl, rfl, by rw [List.length_map, hlen], rfl, by rw [List.length_map, hlen], ?_⟩
    rintro rfl
    rw [Chain.ciphersRead_pos c true _ hk, Chain.ciphersSent_party c true j hk, Chain.stores_pos c true _ hk]
    exact ⟨rfl, by rw [List.length_map, htl], by rw [List.length_map, htl]⟩

/-- **C38.** At no point of a run has a party forwarded or returned more than that. -/
theorem C38_never_more (c : Chain box) (h : c.Valid) (offline : Bool) (cap : Nat × Nat → Nat) (hcap : ∀ x, 0 < cap x)
    (s : List Nat) (n : Net Nat Obs) (hn : (c.net offline true).run cap s = some n) (k : Nat) (hk : k < c.parties) :
    (queriesSent (n.seen k)).length ≤ c.queries k ∧ (queriesRead (n.seen (k + 1))).length ≤ c.queries k ∧
    (responsesSent (n.seen (k + 1))).length ≤ c.queries k ∧ (responsesRead (n.seen k)).length ≤ c.queries k := by
  obtain ⟨N, hN⟩ := Chain.every_run h offline true cap hcap
  have hs := (hN s n hn).2.2.2.1
  have hlen := (Chain.qs_spec h offline k hk).1
  have a1 := (Chain.queriesRead_prefix (hs (k + 1))).length_le
  have a2 := (Chain.responsesSent_prefix (hs (k + 1))).length_le
  have a3 := (Chain.queriesSent_prefix (hs k)).length_le
  have a4 := (Chain.responsesRead_prefix (hs k)).length_le
  rw [Chain.queriesRead_pos c offline k hk, List.length_map, hlen] at a1
  rw [Chain.responsesSent_pos c offline k hk, List.length_map, hlen] at a2
  rcases Nat.eq_zero_or_pos k with rfl | hk0
  · rw [Chain.queriesSent_client, List.length_map, hlen] at a3
    rw [Chain.responsesRead_client, List.length_map, hlen] at a4
    exact ⟨a3, a1, a2, a4⟩
  · obtain ⟨j, rfl⟩ : ∃ j, k = j + 1 := ⟨k - 1, by omega⟩
    rw [Chain.queriesSent_party c offline j hk, List.length_map, hlen] at a3
    rw [Chain.responsesRead_party c offline j hk, List.length_map, hlen] at a4
    exact ⟨a3, a1, a2, a4⟩

/-- **C39.** The keys the backend looks up are, as a multiset, the client's keys and,
for every party, each key as many times as that party sampled for it. -/
theorem C39_exact_noise (c : Chain box) (h : c.Valid) (offline : Bool) (cap : Nat × Nat → Nat) (hcap : ∀ x, 0 < cap x)
    (s : List Nat) (n : Net Nat Obs) (hn : (c.net offline true).run cap s = some n) (hf : ∀ i, n.Finished i) :
    (lookups (n.seen c.parties)).Perm (wants (n.seen 0) ++
      (List.range (c.parties - 1)).flatMap (fun party =>
        (List.range c.rows).flatMap (fun key => List.replicate ((c.partyRand party).sample key).toNat key))) := by
  obtain ⟨N, hN⟩ := Chain.every_run h offline true cap hcap
  have hs := (hN s n hn).2.2.2.2 hf
  have hP := h.parties
  obtain ⟨k, hk⟩ : ∃ k, k + 1 = c.parties := ⟨c.parties - 1, by omega⟩
  rw [← hk, hs, hs, Chain.lookups_backend c offline k hk, Chain.wants_client, Chain.qs_zero_keys]
  exact Chain.qs_keys h offline k (by omega)

/-- **C40.** In every state of every run, each key the backend has looked up is a row
of the database. -/
theorem C40_lookups_in_range (c : Chain box) (h : c.Valid) (offline : Bool) (cap : Nat × Nat → Nat) (hcap : ∀ x, 0 < cap x)
    (s : List Nat) (n : Net Nat Obs) (hn : (c.net offline true).run cap s = some n) :
    ∀ key ∈ lookups (n.seen c.parties), key < c.rows := by
  obtain ⟨N, hN⟩ := Chain.every_run h offline true cap hcap
  have hs := (hN s n hn).2.2.2.1
  have hP := h.parties
  obtain ⟨k, hk⟩ : ∃ k, k + 1 = c.parties := ⟨c.parties - 1, by omega⟩
  intro key hkey
  have := (Chain.lookups_prefix (hs c.parties)).subset hkey
  rw [← hk, Chain.lookups_backend c offline k hk, List.mem_map] at this
  obtain ⟨q, hq, rfl⟩ := this
  exact ((Chain.qs_spec h offline k (by omega)).2.1 q hq).key

/-- **C30.** In every state of every run, the secrets a party or the backend has
installed have pairwise different tags, and so do the queries it has read. -/
theorem C30_tags_distinct (c : Chain box) (h : c.Valid) (cap : Nat × Nat → Nat) (hcap : ∀ x, 0 < cap x)
    (s : List Nat) (n : Net Nat Obs) (hn : (c.net true true).run cap s = some n) (k : Nat) (hk : k < c.parties) :
    ((stores (n.seen (k + 1))).map OfflineSecret.tag).Nodup ∧ ((queriesRead (n.seen (k + 1))).map Query.tag).Nodup ∧
    ∀ i, ¬ n.Faulted i := by
  obtain ⟨N, hN⟩ := Chain.every_run h true true cap hcap
  have hs := (hN s n hn).2.2.2.1
  refine ⟨?_, ?_, (hN s n hn).2.1⟩
  · have h1 := Chain.stores_prefix (hs (k + 1))
    rw [Chain.stores_pos c true k hk] at h1
    have h2 := (h1.sublist.map OfflineSecret.tag)
    rw [List.map_map] at h2
    exact (Chain.tickets_nodup h hk).sublist h2
  · have h1 := Chain.queriesRead_prefix (hs (k + 1))
    rw [Chain.queriesRead_pos c true k hk] at h1
    have h2 := (h1.sublist.map Query.tag)
    rw [List.map_map] at h2
    refine List.Nodup.sublist h2 ?_
    have h32 := h.lt hk
    show ((c.qs true k).map QTicket.tag).Nodup
    rw [(Chain.qs_tags h k hk).nodup_iff]
    refine List.Nodup.map_on ?_ List.nodup_range
    intro a ha b hb e
    rw [List.mem_range] at ha hb
    have := congrArg BitVec.toNat e
    simp only [BitVec.toNat_ofNat] at this
    omega

/-- **C47.** As soon as the client has made its first online query, every party and
the backend has installed all its offline secrets: as many as there are queries coming
its way, and no further one at any later time. -/
theorem C47_installed_before_online (c : Chain box) (h : c.Valid) (cap : Nat × Nat → Nat) (hcap : ∀ x, 0 < cap x)
    (s : List Nat) (n : Net Nat Obs) (hn : (c.net true true).run cap s = some n) (hq : queriesSent (n.seen 0) ≠ [])
    (k : Nat) (hk : k < c.parties) :
    (stores (n.seen (k + 1))).length = c.queries k ∧
    ∀ s' n', n.run cap s' = some n' → stores (n'.seen (k + 1)) = stores (n.seen (k + 1)) := by
  obtain ⟨N, hN⟩ := Chain.every_run h true true cap hcap
  have key : ∀ s n, (c.net true true).run cap s = some n → queriesSent (n.seen 0) ≠ [] →
      stores (n.seen (k + 1)) = (c.tickets k).map Ticket.head := by
    intro s n hn hq
    have h1 := Chain.stores_prefix ((hN s n hn).2.2.2.1 (k + 1))
    have h2 := Chain.stores_prefix (Chain.offline_done h true cap s n hn hq (k + 1) (by omega))
    have h3 : stores (c.obsOff true (k + 1)) = stores (c.obsAll true false (k + 1)) := by simp [Chain.obsAll]
    rw [h3, Chain.stores_pos c false k hk] at h2
    rw [Chain.stores_pos c true k hk] at h1
    exact (h1.eq_of_length_le h2.length_le)
  have e := key s n hn hq
  refine ⟨by rw [e, List.length_map, (Chain.tickets_spec h k hk).1], ?_⟩
  intro s' n' hn'
  rw [e]
  refine key (s ++ s') n' (by rw [Net.run_append, hn]; exact hn') ?_
  intro h0
  have := Chain.queriesSent_prefix (Net.run_seen s' hn' 0)
  rw [h0] at this
  exact hq (List.prefix_nil.1 this)

/-- **C48, violated.** From what the backend sees and the number of the client's
queries one can compute the client's keys in the order of the queries: the tags give
the positions away. -/
theorem C48_violated_backend_learns_order :
    ∃ f : Nat → List Obs → List Nat, ∀ (box : SealedBox) (c : Chain box), c.Valid → ∀ cap : Nat × Nat → Nat, (∀ x, 0 < cap x) →
      ∀ s n, (c.net true true).run cap s = some n → (∀ i, n.Finished i) →
        f c.count (n.seen c.parties) = wants (n.seen 0) := by
  refine ⟨fun count seen => (List.range count).map (fun j =>
    (((queriesRead seen).zip (lookups seen)).find? (fun p => p.1.tag = BitVec.ofNat 64 j)).elim 0 Prod.snd), ?_⟩
  intro box c h cap hcap s n hn hf
  obtain ⟨N, hN⟩ := Chain.every_run h true true cap hcap
  have hs := (hN s n hn).2.2.2.2 hf
  have hP := h.parties
  obtain ⟨k, hk⟩ : ∃ k, k + 1 = c.parties := ⟨c.parties - 1, by omega⟩
  rw [← hk, hs, hs]
  beta_reduce
  rw [Chain.lookups_backend c true k hk, Chain.queriesRead_pos c true k (by omega), Chain.wants_client,
    Chain.qs_zero_keys]
  apply List.map_congr_left
  intro j hj
  rw [List.mem_range] at hj
  rw [List.zip_map']
  have hm : BitVec.ofNat 64 j ∈ (c.qs true k).map QTicket.tag := by
    rw [(Chain.qs_tags h k (by omega)).mem_iff, List.mem_map]
    refine ⟨j, List.mem_range.2 ?_, rfl⟩
    have : c.count ≤ c.queries k := c.queries_mono (Nat.zero_le k)
    omega
  rw [List.mem_map] at hm
  obtain ⟨q, hq, ht⟩ := hm
  cases hfind : ((c.qs true k).map (fun x => (x.query, x.key))).find? (fun p => p.1.tag = BitVec.ofNat 64 j) with
  | none =>
    exfalso
    rw [List.find?_eq_none] at hfind
    exact hfind _ (List.mem_map_of_mem hq) (decide_eq_true ht)
  | some p =>
    have h1 := List.find?_some hfind
    have h2 := List.mem_of_find?_eq_some hfind
    rw [List.mem_map] at h2
    obtain ⟨q', hq', rfl⟩ := h2
    exact Chain.qs_tag_key h k (by omega) q' hq' j hj (of_decide_eq_true h1)

/-- **C48, violated.** In particular the client's `j`-th query carries tag `j`. -/
theorem C48_violated_tag_is_position (c : Chain box) (h : c.Valid) (cap : Nat × Nat → Nat) (hcap : ∀ x, 0 < cap x)
    (s : List Nat) (n : Net Nat Obs) (hn : (c.net true true).run cap s = some n) (j : Nat) (q : Query)
    (hq : (queriesSent (n.seen 0))[j]? = some q) : q.tag = BitVec.ofNat 64 j := by
  obtain ⟨N, hN⟩ := Chain.every_run h true true cap hcap
  have h1 := Chain.queriesSent_prefix ((hN s n hn).2.2.2.1 0)
  rw [Chain.queriesSent_client] at h1
  obtain ⟨r, hr⟩ := h1
  have hj := (List.getElem?_eq_some_iff.1 hq).1
  have h2 : ((c.qs true 0).map QTicket.query)[j]? = some q := by
    rw [← hr, List.getElem?_append_left hj, hq]
  have h3 := (List.getElem?_eq_some_iff.1 h2).1
  rw [List.length_map, (Chain.qs_spec h true 0 (by have := h.parties; omega)).1] at h3
  have h32 := h.lt (k := 0) (by have := h.parties; omega)
  rw [Chain.queries] at h3 h32
  rw [Chain.qs, List.map_map, List.getElem?_map, List.getElem?_range h3] at h2
  obtain rfl := Option.some.inj h2
  show clientTag 0 c.count j = _
  unfold clientTag
  rw [Nat.zero_mul, Nat.zero_add, wrap32_of_lt (by omega)]

/-- Non-vacuity of C30, C36-C40, C45, C47 and C48: a deployment of three parties, four
rows, two queries of the client and one noise query per row and party is valid; it makes
ten queries at the backend, some complete run exists, and there the client's query for
row 3 is answered by row 3. -/
def exampleChain : Chain toyBox where
  parties := 3
  rows := 4
  pkeys := [(1 : Byte), (2 : Byte), (3 : Byte)]
  skey := fun k => BitVec.ofNat 8 (k + 1)
  pkey := fun k => BitVec.ofNat 8 (k + 1)
  seed := fun k => k
  count := 2
  clientRand := { secret := fun i => ⟨fun j => 3 * i + j, fun j _ => BitVec.ofNat 8 (7 * j), fun _ => (5 : Byte), fun _ => 0, fun _ => 0⟩
                  row := fun i => 7 * i + 3 }
  partyRand := fun _ => { rnd := id, rand := fun s i => s.toNat + 3 * i, sample := fun _ => 1
                          secret := fun i => ⟨fun j => i + j, fun j _ => BitVec.ofNat 8 j, fun _ => (5 : Byte), fun _ => 0, fun _ => 0⟩ }
  junk := ⟨0, fun _ => 0⟩

theorem exampleChain_valid : exampleChain.Valid := by
  refine ⟨by decide, by decide, rfl, fun _ _ => rfl, fun _ => ⟨monotone_id, fun _ _ => rfl⟩, ?_⟩
  decide

example : exampleChain.queries 2 = 10 ∧ exampleChain.wanted 0 = 3 ∧ exampleChain.wanted 1 = 2 ∧
    ∃ s n, (exampleChain.net true true).run (fun _ => 1) s = some n ∧ (∀ i, n.Finished i) ∧
      wants (n.seen 0) = [3, 2] ∧ results (n.seen 0) = [Database.row 3, Database.row 2] ∧ queriesSent (n.seen 0) ≠ [] := by
  obtain ⟨s, n, h1, h2, -, h4⟩ := Chain.complete_run exampleChain_valid true true (fun _ => 1) (fun _ => Nat.one_pos)
  refine ⟨by decide, by decide, by decide, s, n, h1, h2, ?_, ?_, ?_⟩
  · rw [h4, Chain.wants_client, Chain.qs_zero_keys]
    decide
  · rw [h4, Chain.results_client]
    have := congrArg (List.map Database.row) (Chain.qs_zero_keys exampleChain true)
    rw [List.map_map] at this
    exact this
  · rw [h4, Chain.queriesSent_client]
    simp [Chain.qs, exampleChain]

end DPPIR.Props
