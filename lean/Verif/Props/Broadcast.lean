import Verif.Proofs.BroadcastRun

/-!
# Properties of the broadcast of secrets among the servers of a party

`servers S prog p` is the network of the servers before the first step, `Reach cap` is
reachability by any interleaving of their steps over connections that hold `cap` bytes,
where `poll` may report any selection of the connections with bytes in transit and `read`
returns any positive number of them.
-/

namespace DPPIR.Props
open DPPIR Proc PNet Onion Shuffle Spec Protocol

variable {box : SealedBox}

/-! ## Helpers -/

theorem mem_iff_lookup {V : Type} {k : BitVec 64} {v : V} {l : List (BitVec 64 × V)} (h : (l.map Prod.fst).Nodup) :
    l.lookup k = some v ↔ (k, v) ∈ l := by
  refine ⟨fun e => ?_, lookup_of_nodup h⟩
  induction l with
  | nil => cases e
  | cons a l ih =>
    obtain ⟨a1, a2⟩ := a
    rw [List.lookup_cons] at e
    by_cases hk : k = a1
    · subst hk
      simp only [beq_self_eq_true] at e
      obtain rfl := Option.some.inj e
      exact List.mem_cons_self
    · have : (k == a1) = false := by simpa using hk
      rw [this] at e
      exact List.mem_cons_of_mem _ (ih (List.nodup_cons.1 h).2 e)

theorem canLoad_iff {st : PartyState} (h : st.simulated = false) (hk : (st.secrets.map Prod.fst).Nodup) (tag : BitVec 64) (e : PartySecret) :
    CanLoad st tag e ↔ (tag, e) ∈ st.secrets := by
  rw [← mem_iff_lookup hk]
  unfold CanLoad PartyState.loadSecret
  rw [h]
  rfl

theorem canLoadB_iff {st : BackendState} (h : st.simulated = false) (hk : (st.secrets.map Prod.fst).Nodup) (tag : BitVec 64)
    (e : BackendSecret) : CanLoadB st tag e ↔ (tag, e) ∈ st.secrets := by
  rw [← mem_iff_lookup hk]
  unfold CanLoadB BackendState.loadSecret
  rw [h]
  rfl

/-- The tags in all the stores differ iff they differ within each and between each two. -/
theorem nodup_all {V : Type} (S : Nat) (l : Nat → List (BitVec 64 × V)) (hk : ∀ s, s < S → ((l s).map Prod.fst).Nodup) :
    (((List.range S).flatMap l).map Prod.fst).Nodup ↔
      ∀ s t tag e e', s < S → t < S → (tag, e) ∈ l s → (tag, e') ∈ l t → s = t := by
  rw [List.map_flatMap, List.nodup_flatMap]
  constructor
  · rintro ⟨-, h2⟩ s t tag e e' hs ht h3 h4
    by_contra hne
    have m3 : tag ∈ (l s).map Prod.fst := List.mem_map_of_mem (f := Prod.fst) h3
    have m4 : tag ∈ (l t).map Prod.fst := List.mem_map_of_mem (f := Prod.fst) h4
    rcases Nat.lt_or_gt_of_ne hne with hlt | hlt
    · have := (List.pairwise_iff_getElem.1 h2) s t (by simpa using hs) (by simpa using ht) hlt
      simp only [List.getElem_range, Function.onFun] at this
      exact this m3 m4
    · have := (List.pairwise_iff_getElem.1 h2) t s (by simpa using ht) (by simpa using hs) hlt
      simp only [List.getElem_range, Function.onFun] at this
      exact this m4 m3
  · intro h
    refine ⟨fun s hs => hk s (List.mem_range.1 hs), ?_⟩
    rw [List.pairwise_iff_getElem]
    intro s t hs ht hlt
    simp only [List.getElem_range, Function.onFun]
    intro k h3 h4
    obtain ⟨⟨k1, e⟩, h5, rfl⟩ := List.mem_map.1 h3
    obtain ⟨⟨k2, e'⟩, h6, h7⟩ := List.mem_map.1 h4
    dsimp only at h7
    subst h7
    have := h s t k2 e e' (by simpa using hs) (by simpa using ht) h5 h6
    omega

def secretsOf (p : ParallelParty box) (rand : ParallelRand box) : List OfflineSecret :=
  (rand.order p.queriesState.secrets).map (fun s => ⟨s.1, s.2.nextTag, s.2.incremental, s.2.preshare⟩)

def secretsOfB (b : Backend box) (order : List (BitVec 64 × BackendSecret) → List (BitVec 64 × BackendSecret)) : List OfflineSecret :=
  (order b.state.secrets).map (fun s => ⟨s.1, 0, s.2.incremental, s.2.preshare⟩)

theorem casting_party {S : Nat} {p : Nat → ParallelParty box} {rand : Nat → ParallelRand box} (h : Installed S p rand) :
    Casting partyStore S (fun s => secretsOf (p s) (rand s)) (fun s => (p s).queriesState) (fun s st => { p s with queriesState := st })
      (fun s p => p.broadcast (rand s) (fun s => s)) p where
  servers := h.servers
  prog := by
    intro s hs
    have e : (p s).broadcast (rand s) (fun s => s) = (broadcastSecrets (p s).serverId (p s).serverCount (fun s => s) (secretsOf (p s) (rand s))
      partyStore.store (p s).queriesState).bind (fun st => .done { p s with queriesState := st }) := rfl
    show (p s).broadcast (rand s) (fun s => s) = _
    rw [e]
    congr 1
    rw [(h.id s hs).1, (h.id s hs).2]
  K := h.offline
  get := by
    intro s hs
    unfold secretsOf
    rw [List.map_map]
    refine Eq.subst (motive := fun l => List.Perm l _) ?_ (h.order s hs)
    exact (List.map_id _).symm
  keys := h.keys
  total := by
    refine Eq.subst (motive := fun n => n < 2 ^ 32) ?_ h.total
    refine (preSum_congr (fun s hs => ?_))
    unfold secretsOf
    rw [List.length_map, (h.order s hs).length_eq]

theorem casting_backend {S : Nat} {b : Nat → Backend box} {order : Nat → List (BitVec 64 × BackendSecret) → List (BitVec 64 × BackendSecret)}
    (h : InstalledB S b order) :
    Casting backendStore S (fun s => secretsOfB (b s) (order s)) (fun s => (b s).state) (fun s st => { b s with state := st })
      (fun s b => b.broadcast (order s) s S (fun s => s)) b where
  servers := h.servers
  prog := by intro s hs; rfl
  K := h.offline
  get := by
    intro s hs
    unfold secretsOfB
    rw [List.map_map]
    refine Eq.subst (motive := fun l => List.Perm l _) ?_ (h.order s hs)
    exact (List.map_id _).symm
  keys := h.keys
  total := by
    refine Eq.subst (motive := fun n => n < 2 ^ 32) ?_ h.total
    refine (preSum_congr (fun s hs => ?_))
    unfold secretsOfB
    rw [List.length_map, (h.order s hs).length_eq]

/-! ## The properties -/

/-- **C43, parties.** If no tag is stored by two servers, then whatever the schedule, the
capacities and the orders in which the hash maps are traversed: no server stops
abnormally, and when a server has returned it can load every secret that any server could
load before, and nothing else. -/
theorem C43_stores_united (S : Nat) (p : Nat → ParallelParty box) (rand : Nat → ParallelRand box) (h : Installed S p rand)
    (distinct : ∀ s t tag e e', s < S → t < S → CanLoad (p s).queriesState tag e → CanLoad (p t).queriesState tag e' → s = t)
    (cap : Nat × Nat → Nat) (n : PNet Nat Obs (ParallelParty box))
    (hn : Reach cap (servers S (fun s p => p.broadcast (rand s) (fun s => s)) p) n) :
    (∀ s, ¬ n.Faulted s) ∧
    ∀ t p', t < S → n.Returned t p' → ∀ tag e, CanLoad p'.queriesState tag e ↔ ∃ s, s < S ∧ CanLoad (p s).queriesState tag e := by
  have hc := casting_party h
  have hnd : (((List.range S).flatMap (fun s => (p s).queriesState.secrets)).map Prod.fst).Nodup := by
    rw [nodup_all _ _ h.keys]
    intro s t tag e e' hs ht h1 h2
    exact distinct s t tag e e' hs ht ((canLoad_iff (h.offline s hs) (h.keys s hs) _ _).2 h1) ((canLoad_iff (h.offline t ht) (h.keys t ht) _ _).2 h2)
  obtain ⟨h1, h3, -⟩ := hc.safe hnd hn
  refine ⟨h1, fun t p' ht hp' tag e => ?_⟩
  obtain ⟨st, rfl, hK, hp⟩ := h3 t p' ht hp'
  have hk' : (st.secrets.map Prod.fst).Nodup := ((hp.map Prod.fst).nodup_iff).2 hnd
  show CanLoad st tag e ↔ _
  have hm : (tag, e) ∈ st.secrets ↔ (tag, e) ∈ (List.range S).flatMap (fun s => (p s).queriesState.secrets) := hp.mem_iff
  rw [canLoad_iff hK hk', hm, List.mem_flatMap]
  constructor
  · rintro ⟨s, hs, hm⟩
    have hs := List.mem_range.1 hs
    exact ⟨s, hs, (canLoad_iff (h.offline s hs) (h.keys s hs) _ _).2 hm⟩
  · rintro ⟨s, hs, hm⟩
    exact ⟨s, List.mem_range.2 hs, (canLoad_iff (h.offline s hs) (h.keys s hs) _ _).1 hm⟩

/-- **C43, backend.** The same for the servers of the backend. -/
theorem C43_backend_stores_united (S : Nat) (b : Nat → Backend box)
    (order : Nat → List (BitVec 64 × BackendSecret) → List (BitVec 64 × BackendSecret)) (h : InstalledB S b order)
    (distinct : ∀ s t tag e e', s < S → t < S → CanLoadB (b s).state tag e → CanLoadB (b t).state tag e' → s = t)
    (cap : Nat × Nat → Nat) (n : PNet Nat Obs (Backend box))
    (hn : Reach cap (servers S (fun s b => b.broadcast (order s) s S (fun s => s)) b) n) :
    (∀ s, ¬ n.Faulted s) ∧
    ∀ t b', t < S → n.Returned t b' → ∀ tag e, CanLoadB b'.state tag e ↔ ∃ s, s < S ∧ CanLoadB (b s).state tag e := by
  have hc := casting_backend h
  have hnd : (((List.range S).flatMap (fun s => (b s).state.secrets)).map Prod.fst).Nodup := by
    rw [nodup_all _ _ h.keys]
    intro s t tag e e' hs ht h1 h2
    exact distinct s t tag e e' hs ht ((canLoadB_iff (h.offline s hs) (h.keys s hs) _ _).2 h1) ((canLoadB_iff (h.offline t ht) (h.keys t ht) _ _).2 h2)
  obtain ⟨h1, h3, -⟩ := hc.safe hnd hn
  refine ⟨h1, fun t b' ht hb' tag e => ?_⟩
  obtain ⟨st, rfl, hK, hp⟩ := h3 t b' ht hb'
  have hk' : (st.secrets.map Prod.fst).Nodup := ((hp.map Prod.fst).nodup_iff).2 hnd
  show CanLoadB st tag e ↔ _
  have hm : (tag, e) ∈ st.secrets ↔ (tag, e) ∈ (List.range S).flatMap (fun s => (b s).state.secrets) := hp.mem_iff
  rw [canLoadB_iff hK hk', hm, List.mem_flatMap]
  constructor
  · rintro ⟨s, hs, hm⟩
    have hs := List.mem_range.1 hs
    exact ⟨s, hs, (canLoadB_iff (h.offline s hs) (h.keys s hs) _ _).2 hm⟩
  · rintro ⟨s, hs, hm⟩
    exact ⟨s, List.mem_range.2 hs, (canLoadB_iff (h.offline s hs) (h.keys s hs) _ _).1 hm⟩

/-- **C43, progress.** If moreover the connections have room for the secrets, some server
can go on until all have returned. -/
theorem C43_progress (S : Nat) (p : Nat → ParallelParty box) (rand : Nat → ParallelRand box) (h : Installed S p rand)
    (distinct : ∀ s t tag e e', s < S → t < S → CanLoad (p s).queriesState tag e → CanLoad (p t).queriesState tag e' → s = t)
    (cap : Nat × Nat → Nat) (room : Roomy S (fun s => (p s).queriesState.secrets.length) cap) (n : PNet Nat Obs (ParallelParty box))
    (hn : Reach cap (servers S (fun s p => p.broadcast (rand s) (fun s => s)) p) n) :
    CanStep cap n ∨ ∀ t, ∃ p', n.Returned t p' := by
  have hc := casting_party h
  have hnd : (((List.range S).flatMap (fun s => (p s).queriesState.secrets)).map Prod.fst).Nodup := by
    rw [nodup_all _ _ h.keys]
    intro s t tag e e' hs ht h1 h2
    exact distinct s t tag e e' hs ht ((canLoad_iff (h.offline s hs) (h.keys s hs) _ _).2 h1) ((canLoad_iff (h.offline t ht) (h.keys t ht) _ _).2 h2)
  refine (hc.safe hnd hn).2.2 ?_
  intro s t hs ht
  show 4 ≤ _ ∧ (secretsOf (p s) (rand s)).length * _ ≤ _
  unfold secretsOf
  rw [List.length_map, (h.order s hs).length_eq]
  exact room s t hs ht

theorem C43_backend_progress (S : Nat) (b : Nat → Backend box)
    (order : Nat → List (BitVec 64 × BackendSecret) → List (BitVec 64 × BackendSecret)) (h : InstalledB S b order)
    (distinct : ∀ s t tag e e', s < S → t < S → CanLoadB (b s).state tag e → CanLoadB (b t).state tag e' → s = t)
    (cap : Nat × Nat → Nat) (room : Roomy S (fun s => (b s).state.secrets.length) cap) (n : PNet Nat Obs (Backend box))
    (hn : Reach cap (servers S (fun s b => b.broadcast (order s) s S (fun s => s)) b) n) :
    CanStep cap n ∨ ∀ t, ∃ b', n.Returned t b' := by
  have hc := casting_backend h
  have hnd : (((List.range S).flatMap (fun s => (b s).state.secrets)).map Prod.fst).Nodup := by
    rw [nodup_all _ _ h.keys]
    intro s t tag e e' hs ht h1 h2
    exact distinct s t tag e e' hs ht ((canLoadB_iff (h.offline s hs) (h.keys s hs) _ _).2 h1) ((canLoadB_iff (h.offline t ht) (h.keys t ht) _ _).2 h2)
  refine (hc.safe hnd hn).2.2 ?_
  intro s t hs ht
  show 4 ≤ _ ∧ (secretsOfB (b s) (order s)).length * _ ≤ _
  unfold secretsOfB
  rw [List.length_map, (h.order s hs).length_eq]
  exact room s t hs ht

/-- **C43, equal tags.** If two servers have stored the same tag, no server ever returns;
a server stops by a failed assertion or not at all; and if the connections have room for
the secrets, the network only stands still when a server has stopped so. -/
theorem C43_equal_tags_stop (S : Nat) (p : Nat → ParallelParty box) (rand : Nat → ParallelRand box) (h : Installed S p rand)
    (s t : Nat) (hs : s < S) (ht : t < S) (hst : s ≠ t) (tag : BitVec 64) (e e' : PartySecret)
    (h1 : CanLoad (p s).queriesState tag e) (h2 : CanLoad (p t).queriesState tag e')
    (cap : Nat × Nat → Nat) (n : PNet Nat Obs (ParallelParty box))
    (hn : Reach cap (servers S (fun s p => p.broadcast (rand s) (fun s => s)) p) n) :
    (∀ u p', u < S → ¬ n.Returned u p') ∧ (∀ u e, n.proc u = .fault e → e = .assertFail) ∧
    (Roomy S (fun s => (p s).queriesState.secrets.length) cap → CanStep cap n ∨ ∃ u, n.Faulted u) := by
  have hc := casting_party h
  obtain ⟨g1, g2, g3⟩ := hc.stops (by
    show ¬ (((List.range S).flatMap (fun s => (p s).queriesState.secrets)).map Prod.fst).Nodup
    rw [nodup_all _ _ h.keys]
    intro hd
    exact hst (hd s t tag e e' hs ht ((canLoad_iff (h.offline s hs) (h.keys s hs) _ _).1 h1)
      ((canLoad_iff (h.offline t ht) (h.keys t ht) _ _).1 h2))) hn
  refine ⟨g1, g2, fun room => g3 ?_⟩
  intro s t hs ht
  show 4 ≤ _ ∧ (secretsOf (p s) (rand s)).length * _ ≤ _
  unfold secretsOf
  rw [List.length_map, (h.order s hs).length_eq]
  exact room s t hs ht

theorem C43_backend_equal_tags_stop (S : Nat) (b : Nat → Backend box)
    (order : Nat → List (BitVec 64 × BackendSecret) → List (BitVec 64 × BackendSecret)) (h : InstalledB S b order)
    (s t : Nat) (hs : s < S) (ht : t < S) (hst : s ≠ t) (tag : BitVec 64) (e e' : BackendSecret)
    (h1 : CanLoadB (b s).state tag e) (h2 : CanLoadB (b t).state tag e')
    (cap : Nat × Nat → Nat) (n : PNet Nat Obs (Backend box))
    (hn : Reach cap (servers S (fun s b => b.broadcast (order s) s S (fun s => s)) b) n) :
    (∀ u b', u < S → ¬ n.Returned u b') ∧ (∀ u e, n.proc u = .fault e → e = .assertFail) ∧
    (Roomy S (fun s => (b s).state.secrets.length) cap → CanStep cap n ∨ ∃ u, n.Faulted u) := by
  have hc := casting_backend h
  obtain ⟨g1, g2, g3⟩ := hc.stops (by
    show ¬ (((List.range S).flatMap (fun s => (b s).state.secrets)).map Prod.fst).Nodup
    rw [nodup_all _ _ h.keys]
    intro hd
    exact hst (hd s t tag e e' hs ht ((canLoadB_iff (h.offline s hs) (h.keys s hs) _ _).1 h1)
      ((canLoadB_iff (h.offline t ht) (h.keys t ht) _ _).1 h2))) hn
  refine ⟨g1, g2, fun room => g3 ?_⟩
  intro s t hs ht
  show 4 ≤ _ ∧ (secretsOfB (b s) (order s)).length * _ ≤ _
  unfold secretsOfB
  rw [List.length_map, (h.order s hs).length_eq]
  exact room s t hs ht

/-- **C43.** Every run is finite, with equal tags or without. -/
theorem C43_runs_finite {α : Type} (S : Nat) (prog : Nat → α → PProg Nat α) (p : Nat → α) (cap : Nat × Nat → Nat)
    (run : Nat → PNet Nat Obs α) (h0 : run 0 = servers S prog p) : ¬ ∀ k, ∃ i, Step cap i (run k) (run (k + 1)) :=
  no_infinite_run (Finset.range S) run (by rw [h0]; exact Casting.finite S prog p)

/-! ## Examples -/

/-- A server with the secrets of the given tags. -/
def exampleHolder (S s : Nat) (tags : List (BitVec 64)) : ParallelParty toyBox :=
  { partyId := 0, serverId := s, partyCount := 2, serverCount := S, db := { size := 4, rows := [] }
    shuffler := LocalShuffler.new 0, pshuffler := ParallelShuffler.new s S 0
    ciphers := CipherBatch.new 48 96, outCiphers := CipherBatch.new 48 96
    queriesState := { secrets := tags.map (fun t => (t, ⟨t + 100, ⟨1, 2⟩, fun _ => 7⟩)) }
    atSiblingCounts := [], noiseFrom := [], noisePrefix := [], pkeys := [], pkey := (0 : Byte), skey := (0 : Byte) }

/-- Traverses the map backwards. -/
def exampleOrder : ParallelRand toyBox :=
  { rnd := id, rand := fun _ _ => 0, sample := fun _ => 1, order := List.reverse
    secret := fun _ => ⟨fun _ => 0, fun _ _ => 0, fun _ => (5 : Byte), fun _ => 0, fun _ => 0⟩ }

def exampleHolders (s : Nat) : ParallelParty toyBox := exampleHolder 3 s ([[0, 1], [2], [3, 4, 5]].getD s [])

theorem exampleHolders_installed : Installed 3 exampleHolders (fun _ => exampleOrder) where
  servers := by decide
  id := fun _ _ => ⟨rfl, rfl⟩
  offline := fun _ _ => rfl
  keys := by decide +kernel
  order := fun s _ => List.reverse_perm _
  total := by decide +kernel

/-- Non-vacuity: three servers with two, one and three secrets have a complete run. -/
example : ∃ n, Reach (fun _ => 1000) (servers 3 (fun _ p => p.broadcast exampleOrder (fun s => s)) exampleHolders) n ∧
    ∀ t, ∃ p', n.Returned t p' := by
  have hk := exampleHolders_installed
  have hnd : (((List.range 3).flatMap (fun s => (exampleHolders s).queriesState.secrets)).map Prod.fst).Nodup := by decide +kernel
  have hG := bcastOrder_ok 3 (fun s => secretsOf (exampleHolders s) exampleOrder) (cap := fun _ => 1000) (by
    intro s t hs _
    match s, hs with
    | 0, _ => exact ⟨show 4 ≤ 1000 by decide, show (secretsOf (exampleHolders 0) exampleOrder).length * secretSize ≤ 1000 by decide +kernel⟩
    | 1, _ => exact ⟨show 4 ≤ 1000 by decide, show (secretsOf (exampleHolders 1) exampleOrder).length * secretSize ≤ 1000 by decide +kernel⟩
    | 2, _ => exact ⟨show 4 ≤ 1000 by decide, show (secretsOf (exampleHolders 2) exampleOrder).length * secretSize ≤ 1000 by decide +kernel⟩)
  obtain ⟨n, h1, h2⟩ := script_complete hG ((casting_party hk).does hnd) (fun i => proj_comm i _) (Finset.range 3) (Casting.finite 3 _ _)
  refine ⟨n, h1, fun t => ?_⟩
  rcases (script_net hG ((casting_party hk).does hnd) (fun i => proj_comm i _) h1).2.2 with h3 | h3
  · exact absurd h3 h2
  · obtain ⟨⟨a, ha, -⟩, -⟩ := h3.1 t
    exact ⟨a, ha⟩

/-- The hypothesis of the first theorem. -/
example : ∀ s t tag e e', s < 3 → t < 3 → CanLoad (exampleHolders s).queriesState tag e → CanLoad (exampleHolders t).queriesState tag e' → s = t := by
  intro s t tag e e' hs ht h1 h2
  have hk := exampleHolders_installed
  have hnd : (((List.range 3).flatMap (fun s => (exampleHolders s).queriesState.secrets)).map Prod.fst).Nodup := by decide +kernel
  exact (nodup_all _ _ hk.keys).1 hnd s t tag e e' hs ht ((canLoad_iff (hk.offline s hs) (hk.keys s hs) _ _).1 h1)
    ((canLoad_iff (hk.offline t ht) (hk.keys t ht) _ _).1 h2)

def exampleClash (s : Nat) : ParallelParty toyBox := exampleHolder 2 s ([[0, 1], [1, 2, 3]].getD s [])

theorem exampleClash_installed : Installed 2 exampleClash (fun _ => exampleOrder) where
  servers := by decide
  id := fun _ _ => ⟨rfl, rfl⟩
  offline := fun _ _ => rfl
  keys := by decide +kernel
  order := fun s _ => List.reverse_perm _
  total := by decide +kernel

/-- Two servers both of which have a secret for tag 1. -/
example : ∃ e e', CanLoad (exampleClash 0).queriesState 1 e ∧ CanLoad (exampleClash 1).queriesState 1 e' := ⟨_, _, rfl, rfl⟩

end DPPIR.Props
