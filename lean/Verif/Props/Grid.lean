import Verif.Proofs.GridTags

/-!
# Properties of a whole deployment with several servers per party

`g.net offline online` is the network of all processes before the first step; `Reach cap`
relates it to every state it can be in after some steps of some of its processes, where
connections hold `cap` bytes.  A theorem that speaks of every reachable state and `cap`
speaks of every interleaving, chunking, outcome of polling and socket buffer size.
-/

namespace DPPIR.Props
open DPPIR Proc PNet Onion Spec Protocol

variable {box : SealedBox}

theorem serves_parallel (g : Grid box) (h : g.Valid) (offline : Bool) (hd : offline = true → g.DistinctTags) : g.Serves offline := by
  intro cap
  obtain ⟨h1, h2⟩ := Grid.every_run h offline true hd cap
  refine ⟨fun n hn => ?_, ?_⟩
  · obtain ⟨a1, a2, a3, a4⟩ := h1 n hn
    refine ⟨a1, fun hc => (a4 hc).imp_right And.left, fun s hs d hdb => ?_⟩
    have hw := Chain.wants_prefix (a2 0 s hs)
    have ew := g.wants_client offline s
    have er := g.results_client offline s
    unfold Grid.obsAll at ew er
    rw [ew, Grid.qs_zero_keys] at hw
    rw [database_new] at hdb
    obtain rfl := Except.ok.inj hdb
    have hkey : ∀ k ∈ (List.range (g.count s)).map (g.wanted s),
        Database.lookup { size := g.rows, rows := (List.range g.rows).map Database.row } k = .ok (Database.row k) := by
      intro k hk
      rw [List.mem_map] at hk
      obtain ⟨j, -, rfl⟩ := hk
      have hr := h.rowsp
      have : g.wanted s j < g.rows := by
        unfold Grid.wanted
        split
        · omega
        · exact Nat.mod_lt _ (by omega)
      exact rd_eq_ok.2 (by simp [this])
    have hres : ∀ l : List QTicket, (l.map (fun q => Database.row q.key)).map Except.ok =
        (l.map QTicket.key).map (fun k => (Except.ok (Database.row k) : Res Response)) := by
      intro l; simp
    have hall : ((g.qs offline 0 s).map (fun q => Database.row q.key)).map Except.ok =
        ((List.range (g.count s)).map (g.wanted s)).map
          (Database.lookup { size := g.rows, rows := (List.range g.rows).map Database.row }) := by
      rw [hres, Grid.qs_zero_keys]
      exact List.map_congr_left (fun k hk => (hkey k hk).symm)
    refine ⟨hw, ?_, fun hr => ?_⟩
    · have hr := Chain.results_prefix (a2 0 s hs)
      rw [er] at hr
      rw [← hall]
      obtain ⟨r, hr⟩ := hr
      rw [← hr, List.map_append]
      exact List.prefix_append _ _
    · have := a3 0 s hs hr
      have e : wants (n.seen (0, s)) = (List.range (g.count s)).map (g.wanted s) := by
        rw [this, ew, Grid.qs_zero_keys]
      exact ⟨e, by rw [e, this, er, hall]⟩
  · rintro ⟨f, hf, hall⟩
    exact h2 f hf hall

/-- **C44.** With several servers per party, whose clients have equally many queries,
and equally much noise for every row: every client gets exactly the database rows of its
keys, in order, for every number of parties and servers, all shuffles and random choices,
every schedule and chunking. -/
theorem C44_end_to_end (g : Grid box) (h : g.Valid) (hq : g.EqualClients) (hn : g.EvenNoise) : g.Serves true :=
  serves_parallel g h true (fun _ => Grid.distinct_even h hq hn)

/-- **C44.** The same for any numbers of queries and any noise for which no two secrets
get the same tag. -/
theorem C44_distinct_tags (g : Grid box) (h : g.Valid) (hd : g.DistinctTags) : g.Serves true := serves_parallel g h true (fun _ => hd)

/-- **C44.** In the online-only mode there are no tags, and no condition on the numbers
of queries and the noise. -/
theorem C44_online_only (g : Grid box) (h : g.Valid) : g.Serves false := serves_parallel g h false (fun h => by cases h)

/-- **C44 (finding).** The limit of 254 servers is one: the maps of counts have room for
one more server than there are, and that number is a `uint8_t`.  With 255 servers, which
the configuration tool accepts, every server of every party and of the backend stops
with an exception before it sends or reads a message. -/
theorem C44_violated_255_servers (g : Grid box) (hs : g.servers = 255) (offline online : Bool) (k s : Nat) (hk : k < g.parties)
    (h : s < g.servers) : g.prog offline online (k + 1, s) = .fault .exception ∧ ¬ g.Serves offline := by
  have h0 : ∀ online, g.prog offline online (k + 1, s) = .fault .exception := by
    intro online
    have hdb : ∃ d, Database.new g.rows = .ok d := ⟨_, database_new _⟩
    obtain ⟨d, hd⟩ := hdb
    have ht : serverTable g.servers = .error .exception := by rw [hs]; rfl
    unfold Grid.prog
    rw [if_pos h, if_neg (by simp)]
    split
    · simp only [Grid.party, ParallelParty.new, hd, ht]
      rfl
    · rw [if_pos (by simp at *; omega)]
      simp only [Grid.backend, hd, ht]
      rfl
  refine ⟨h0 online, fun hS => ?_⟩
  exact ((hS (fun _ => 1)).1 _ .refl).1 (k + 1, s) ⟨_, h0 true⟩

/-- **C31.** With equal clients and equal noise for every row, in every state of every
run, the secrets which all servers of a party (or of the backend) together have installed
have pairwise different tags, and none has ever stopped. -/
theorem C31_tags_distinct (g : Grid box) (h : g.Valid) (hq : g.EqualClients) (hn : g.EvenNoise) (online : Bool)
    (cap : Node × Node → Nat) (n : PNet Node Obs Unit) (hr : Reach cap (g.net true online) n) (k : Nat) (hk : k < g.parties) :
    ((List.range g.servers).flatMap (fun s => (stores (n.seen (k + 1, s))).map OfflineSecret.tag)).Nodup ∧ ∀ i, ¬ n.Faulted i := by
  have hd := Grid.distinct_even h hq hn
  obtain ⟨a1, a2, -, -⟩ := (Grid.every_run h true online (fun _ => hd) cap).1 n hr
  refine ⟨?_, a1⟩
  refine List.Nodup.sublist ?_ (Grid.tickets_nodup h hd hk)
  have hsub : ∀ l : List Nat, (∀ s ∈ l, s < g.servers) →
      (l.flatMap (fun s => (stores (n.seen (k + 1, s))).map OfflineSecret.tag)).Sublist
        (l.flatMap (fun s => (g.tickets k s).map Ticket.tag)) := by
    intro l hl
    induction l with
    | nil => exact List.Sublist.refl _
    | cons s l ih =>
      rw [List.flatMap_cons, List.flatMap_cons]
      refine List.Sublist.append ?_ (ih (fun s hs => hl s (List.mem_cons_of_mem _ hs)))
      have h1 := Chain.stores_prefix (a2 (k + 1) s (hl s List.mem_cons_self))
      have e := g.stores_pos s online k hk
      unfold Grid.obsAll at e
      rw [e] at h1
      have h2 := h1.sublist.map OfflineSecret.tag
      rw [List.map_map] at h2
      exact h2
  exact hsub _ (fun s hs => List.mem_range.1 hs)

/-- **C51.** When server `s` of a level and of the next have returned, the latter has
read exactly the count and queries the former sent, and the former exactly the responses
the latter sent; there are `load k s` of each: the queries of all clients and the noise of
all servers before, in equal parts. -/
theorem C51_counts_conserved (g : Grid box) (h : g.Valid) (offline : Bool) (hd : offline = true → g.DistinctTags)
    (cap : Node × Node → Nat) (n : PNet Node Obs Unit) (hn : Reach cap (g.net offline true) n) (k s : Nat)
    (hk : k < g.parties) (hs : s < g.servers) (hf : n.Returned (k, s) ()) (hf' : n.Returned (k + 1, s) ()) :
    (countsSent (n.seen (k, s)) = [BitVec.ofNat 32 (g.load k s)] ∧ (BitVec.ofNat 32 (g.load k s)).toNat = g.load k s) ∧
    countsRead (n.seen (k + 1, s)) = countsSent (n.seen (k, s)) ∧
    queriesRead (n.seen (k + 1, s)) = queriesSent (n.seen (k, s)) ∧ (queriesSent (n.seen (k, s))).length = g.load k s ∧
    responsesRead (n.seen (k, s)) = responsesSent (n.seen (k + 1, s)) ∧ (responsesRead (n.seen (k, s))).length = g.load k s := by
  obtain ⟨-, -, a3, -⟩ := (Grid.every_run h offline true hd cap).1 n hn
  have e0 : n.seen (k, s) = g.obsAll offline true k s := a3 k s hs hf
  have e1 : n.seen (k + 1, s) = g.obsAll offline true (k + 1) s := a3 (k + 1) s hs hf'
  rw [e0, e1]
  have hlen := (Grid.qs_spec h offline k hk s hs).1
  have h32 : (BitVec.ofNat 32 (g.load k s)).toNat = g.load k s := by
    rw [BitVec.toNat_ofNat, Nat.mod_eq_of_lt (h.load_lt hk hs)]
  rw [Grid.countsRead_pos g offline s true k hk, Grid.queriesRead_pos g offline s k hk, Grid.responsesSent_pos g offline s k hk]
  rcases Nat.eq_zero_or_pos k with rfl | hk0
  · rw [Grid.countsSent_client, Grid.queriesSent_client, Grid.responsesRead_client]
    exact ⟨⟨rfl, h32⟩, rfl, rfl, by rw [List.length_map, hlen], rfl, by rw [List.length_map, hlen]⟩
  · obtain ⟨j, rfl⟩ : ∃ j, k = j + 1 := ⟨k - 1, by omega⟩
    rw [Grid.countsSent_party g offline s true j hk, Grid.queriesSent_party g offline s j hk, Grid.responsesRead_party g offline s j hk]
    exact ⟨⟨rfl, h32⟩, rfl, rfl, by rw [List.length_map, hlen], rfl, by rw [List.length_map, hlen]⟩

/-- **C51.** The `load`s of a level add up to the queries of all clients and all noise
before. -/
theorem C51_loads_add_up (g : Grid box) (h : g.Valid) (k : Nat) :
    ((List.range g.servers).map (g.load k)).sum = ((List.range g.servers).map g.count).sum +
      ((List.range k).map (fun j => ((List.range g.servers).map (g.noise j)).sum)).sum := by
  have e := Grid.load_sum g h.pos k
  have e' : ((List.range g.servers).map (g.load k)).sum = Grid.total g k := e
  rw [e']
  clear e e'
  induction k with
  | zero => simp [Grid.total]
  | succ k ih => rw [Grid.total, ih, List.range_succ, List.map_append, List.sum_append]; simp [Nat.add_assoc]

/-- **C52.** When all servers of the backend have returned, the keys they looked up are,
as a multiset, the clients' keys and, for every server of every party, each key of its
share of the database as many times as that server sampled for it. -/
theorem C52_exact_noise (g : Grid box) (h : g.Valid) (offline : Bool) (hd : offline = true → g.DistinctTags)
    (cap : Node × Node → Nat) (n : PNet Node Obs Unit) (hn : Reach cap (g.net offline true) n) (hf : ∀ i, n.Returned i ()) :
    ((List.range g.servers).flatMap (fun s => lookups (n.seen (g.parties, s)))).Perm
      ((List.range g.servers).flatMap (fun s => wants (n.seen (0, s))) ++
        (List.range (g.parties - 1)).flatMap (fun party => (List.range g.servers).flatMap (fun s =>
          (List.range (g.width s)).flatMap (fun i =>
            List.replicate ((g.partyRand party s).sample i).toNat (g.first s + i))))) := by
  obtain ⟨-, -, a3, -⟩ := (Grid.every_run h offline true hd cap).1 n hn
  have hP := h.parties
  obtain ⟨k, hk⟩ : ∃ k, k + 1 = g.parties := ⟨g.parties - 1, by omega⟩
  have e1 : (List.range g.servers).flatMap (fun s => lookups (n.seen (g.parties, s))) =
      (List.range g.servers).flatMap (fun s => (g.qs offline k s).map QTicket.key) := by
    refine List.flatMap_congr fun s hs => ?_
    have : n.seen (g.parties, s) = g.obsAll offline true g.parties s := a3 _ s (List.mem_range.1 hs) (hf _)
    rw [this, ← hk]
    exact g.lookups_backend offline s k hk
  have e2 : (List.range g.servers).flatMap (fun s => wants (n.seen (0, s))) =
      (List.range g.servers).flatMap (fun s => (List.range (g.count s)).map (g.wanted s)) := by
    refine List.flatMap_congr fun s hs => ?_
    have : n.seen (0, s) = g.obsAll offline true 0 s := a3 _ s (List.mem_range.1 hs) (hf _)
    rw [this, g.wants_client offline s, Grid.qs_zero_keys]
  rw [e1, e2, show g.parties - 1 = k by omega]
  exact Grid.qs_keys h offline k (by omega)

/-- **C52.** The shares of the database are disjoint and cover it: every key is in the
share of exactly one server. -/
theorem C52_shares_partition (g : Grid box) (h : g.Valid) (key : Nat) (hkey : key < g.rows) :
    ∃! s, s < g.servers ∧ g.first s ≤ key ∧ key < g.first s + g.width s := by
  have hsum := Grid.width_sum h
  have hex : ∀ m ≤ g.servers, key < preSum g.width m → ∃ s < m, g.first s ≤ key ∧ key < g.first s + g.width s := by
    intro m hm hlt
    induction m with
    | zero => rw [preSum_zero] at hlt; omega
    | succ m ih =>
      rw [preSum_succ, Grid.first_eq g (by omega)] at hlt
      by_cases hc : g.first m ≤ key
      · exact ⟨m, by omega, hc, hlt⟩
      · obtain ⟨s, h1, h2⟩ := ih (by omega) (by rw [Grid.first_eq g (by omega)]; omega)
        exact ⟨s, by omega, h2⟩
  obtain ⟨s, hs, h1, h2⟩ := hex g.servers (Nat.le_refl _) (by omega)
  refine ⟨s, ⟨hs, h1, h2⟩, ?_⟩
  rintro t ⟨ht, g1, g2⟩
  have key : ∀ a b, a < g.servers → b < g.servers → a < b → g.first a + g.width a ≤ g.first b := by
    intro a b ha hb hab
    rw [← Grid.first_eq g ha, ← Grid.first_eq g hb, ← preSum_succ]
    exact preSum_mono _ hab
  rcases Nat.lt_trichotomy s t with hst | hst | hst
  · have := key s t hs ht hst; omega
  · exact hst.symm
  · have := key t s ht hs hst; omega

/-- **C53.** In every state of every run, each key a server of the backend has looked up
is a row of the database. -/
theorem C53_lookups_in_range (g : Grid box) (h : g.Valid) (offline : Bool) (hd : offline = true → g.DistinctTags)
    (cap : Node × Node → Nat) (n : PNet Node Obs Unit) (hn : Reach cap (g.net offline true) n) (s : Nat) (hs : s < g.servers) :
    ∀ key ∈ lookups (n.seen (g.parties, s)), key < g.rows := by
  obtain ⟨-, a2, -, -⟩ := (Grid.every_run h offline true hd cap).1 n hn
  have hP := h.parties
  obtain ⟨k, hk⟩ : ∃ k, k + 1 = g.parties := ⟨g.parties - 1, by omega⟩
  intro key hkey
  have e := g.lookups_backend offline s k hk
  have := (Chain.lookups_prefix (a2 g.parties s hs)).subset hkey
  rw [← hk] at this
  unfold Grid.obsAll at e
  rw [e, List.mem_map] at this
  obtain ⟨q, hq, rfl⟩ := this
  exact ((Grid.qs_spec h offline k (by omega) s hs).2.1 q hq).key

/-- Non-vacuity of C31, C44 and C51-C53: a deployment of three parties with two servers
each, five rows, two queries per client and, for every row, one noise query of the first
and one of the second party. -/
def exampleGrid : Grid toyBox where
  parties := 3
  servers := 2
  rows := 5
  pkeys := [(1 : Byte), (2 : Byte), (3 : Byte)]
  skey := fun k => BitVec.ofNat 8 (k + 1)
  pkey := fun k => BitVec.ofNat 8 (k + 1)
  sharedSeed := fun k => k
  localSeed := fun k s => 2 * k + s
  count := fun _ => 2
  rand := fun s i => s.toNat + 3 * i
  clientRand := fun s =>
    { secret := fun i => ⟨fun j => 3 * i + j, fun j _ => BitVec.ofNat 8 (7 * j), fun _ => (5 : Byte), fun _ => 0, fun _ => 0⟩
      row := fun i => 7 * i + 3 + s }
  partyRand := fun _ _ => { rnd := id, rand := fun s i => s.toNat + 3 * i, sample := fun _ => 1
                            secret := fun i => ⟨fun j => i + j, fun j _ => BitVec.ofNat 8 j, fun _ => (5 : Byte), fun _ => 0, fun _ => 0⟩
                            order := List.reverse }
  backendOrder := fun _ l => l
  junk := ⟨0, fun _ => 0⟩

theorem exampleGrid_valid : exampleGrid.Valid := by
  refine ⟨by decide, by decide, by decide, by decide, rfl, fun _ _ => rfl, fun _ _ => ⟨monotone_id, fun _ _ => rfl⟩,
    fun _ _ l => List.reverse_perm l, fun _ l => List.Perm.refl l, by decide⟩

theorem exampleGrid_even : exampleGrid.EqualClients ∧ exampleGrid.EvenNoise :=
  ⟨⟨2, fun _ _ => rfl⟩, fun _ _ => ⟨1, fun _ _ _ _ => rfl⟩⟩

example : exampleGrid.total 2 = 14 ∧ exampleGrid.load 2 0 = 7 ∧ exampleGrid.load 1 0 = 4 ∧ exampleGrid.load 1 1 = 5 ∧
    exampleGrid.width 0 = 3 ∧ exampleGrid.width 1 = 2 ∧
    exampleGrid.wanted 0 0 = 3 ∧ exampleGrid.wanted 0 1 = 0 ∧ exampleGrid.wanted 1 0 = 4 := by decide

/-- In some run of it all processes return, and the client of server 1 has got rows 4
and 1. -/
example : ∃ cap n, Reach cap (exampleGrid.net true true) n ∧ (∀ i, n.Returned i ()) ∧
    wants (n.seen (0, 1)) = [4, 1] ∧ results (n.seen (0, 1)) = [Database.row 4, Database.row 1] := by
  have hd : exampleGrid.DistinctTags := Grid.distinct_even exampleGrid_valid exampleGrid_even.1 exampleGrid_even.2
  obtain ⟨cap, hc⟩ := exampleGrid.exists_roomy
  obtain ⟨n, hn, hr⟩ := Grid.complete_run exampleGrid_valid true true (fun _ => hd) hc
  refine ⟨cap, n, hn, hr, ?_⟩
  obtain ⟨-, -, a3, -⟩ := (Grid.every_run exampleGrid_valid true true (fun _ => hd) cap).1 n hn
  have e : n.seen (0, 1) = exampleGrid.obsAll true true 0 1 := a3 0 1 (by decide) (hr _)
  have ek := exampleGrid.qs_zero_keys true 1
  have e41 : (List.range (exampleGrid.count 1)).map (exampleGrid.wanted 1) = [4, 1] := by decide
  refine ⟨by rw [e, Grid.wants_client, ek, e41], ?_⟩
  rw [e, Grid.results_client]
  have := congrArg (List.map Database.row) ek
  rw [List.map_map, e41] at this
  exact this

/-- The example with 255 servers: its parties stop. -/
example : { exampleGrid with servers := 255 }.prog true true (1, 7) = .fault .exception :=
  (C44_violated_255_servers { exampleGrid with servers := 255 } rfl true true 0 7 (by decide) (by decide)).1

end DPPIR.Props
