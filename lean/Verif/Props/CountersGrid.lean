import Verif.Proofs.OverflowGrid
import Verif.Props.HostileGridBad

/-!
# C49 with several servers per party

The server is process `i` of a network whose other processes and queues are arbitrary.
`g.noise k s` is the true sum of its samples, as a natural number.
-/

namespace DPPIR.Props
open DPPIR Onion Spec Protocol

variable {box : SealedBox}

theorem grid_party_told {g : Grid box} (h : g.Configured) {k s : Nat} (hk : k + 1 < g.parties) (hs : s < g.servers)
    (hrows : g.servers ≤ g.rows) (hrange : (g.servers - 1) * g.share ≤ g.rows) (hdiv : Noise.IsDivRounding (g.partyRand k s).rnd)
    (offline online : Bool) (bound : Nat) (hb : ∀ j < g.width s, ((g.partyRand k s).sample j).toNat ≤ bound) :
    PProc.Safe AnyObs AnyFault (g.party k s offline online) (fun _ h => ToldRight (g.noise k s) bound h) [] := by
  have hP := h.parties
  have hS := h.servers
  have hR := h.rows
  have hfind := findRange_at (rnd := (g.choices k s).rnd) hdiv g.servers g.rows s hs (by omega) (by omega) hrows hrange
  let db : Database := { size := g.rows, rows := (List.range g.rows).map Database.row }
  let ciphers := CipherBatch.new (cipherSize (g.parties - k - 1)) (cipherSize (g.parties - k))
  let p : ParallelParty box := { partyId := k, serverId := s, partyCount := g.parties, serverCount := g.servers, db := db, shuffler := Shuffle.LocalShuffler.new (g.localSeed k s), pshuffler := Shuffle.ParallelShuffler.new s g.servers (g.sharedSeed k), ciphers := ciphers, outCiphers := ciphers, atSiblingCounts := List.replicate g.servers 0, noiseFrom := List.replicate g.servers 0, noisePrefix := List.replicate g.servers 0, pkeys := g.pkeys, pkey := g.pkey k, skey := g.skey k }
  have hnew : ParallelParty.new k s g.parties g.servers (g.sharedSeed k) (g.localSeed k s) g.pkeys (g.pkey k) (g.skey k) db = .ok p := by
    have h1 : k < g.parties - 1 := by omega
    have h2 : 1 < g.servers := by omega
    have h3 : serverTable g.servers = .ok (List.replicate g.servers 0) := by
      unfold serverTable wrap8
      rw [if_neg (by omega)]
    unfold ParallelParty.new
    rw [h3]
    simp [assert, hP.1, h1, h2, hs]
    rfl
  unfold Grid.party
  refine psafe_ok (database_new _) ?_
  refine psafe_ok hnew ?_
  have hle : g.first s + g.width s ≤ g.rows := hfind.2
  exact start_told p (g.choices k s) (g.first s) (g.width s) hfind.1 (by omega) _ _ _ bound hb offline online

/-- C49 with several servers per party: a server that returns, with or without the
offline stage and among arbitrary peers, was first told a number of queries which fits
the 32-bit counters together with its own noise, unless their sum comes within one
sample of a multiple of 2^32.
Missing: in the latter case the counters may have wrapped. -/
theorem C49_returns_fits_parallel_partial (g : Grid box) (h : g.Configured) (k s : Nat) (hk : k + 1 < g.parties) (hs : s < g.servers)
    (hrows : g.servers ≤ g.rows) (hrange : (g.servers - 1) * g.share ≤ g.rows) (hdiv : Noise.IsDivRounding (g.partyRand k s).rnd)
    (offline online : Bool) (i : Node) (n0 n : PNet Node Obs Unit) (cap : Node × Node → Nat)
    (hp : n0.proc i = g.party k s offline online) (h0 : n0.seen i = []) (hn : PNet.Reach cap n0 n) (hfin : n.proc i = .done ())
    (bound : Nat) (hb : ∀ j < g.width s, ((g.partyRand k s).sample j).toNat ≤ bound) :
    ∃ N rest, n.seen i = .recvCount N :: rest ∧
      ((N.toNat + g.noise k s) % 2 ^ 32 + bound < 2 ^ 32 → N.toNat + g.noise k s < 2 ^ 32) := by
  obtain ⟨h1, -⟩ := PProc.Safe.net (by rw [h0, hp]; exact grid_party_told h hk hs hrows hrange hdiv offline online bound hb) hn
  rw [hfin] at h1
  exact h1

/-- It applies to the servers of a complete run. -/
example : ∃ cap n, PNet.Reach cap (exampleGrid.net true true) n ∧ n.proc (1, 0) = .done () ∧
    (exampleGrid.net true true).proc (1, 0) = exampleGrid.party 0 0 true true ∧ (exampleGrid.net true true).seen (1, 0) = [] ∧
    ∀ j < exampleGrid.width 0, ((exampleGrid.partyRand 0 0).sample j).toNat ≤ 1 := by
  have hd : exampleGrid.DistinctTags := Grid.distinct_even exampleGrid_valid exampleGrid_even.1 exampleGrid_even.2
  obtain ⟨cap, hc⟩ := exampleGrid.exists_roomy
  obtain ⟨n, hn, hr⟩ := Grid.complete_run exampleGrid_valid true true (fun _ => hd) hc
  exact ⟨cap, n, hn, hr (1, 0), rfl, rfl, by decide⟩

/-- A deployment whose servers draw 2^31 noise queries for each row. -/
def overflowGrid : Grid toyBox := { exampleGrid with
  partyRand := fun k s => { exampleGrid.partyRand k s with sample := fun _ => BitVec.ofNat 32 (2 ^ 31) } }

/-- What reaches server 1 of the first party: no client has a query, the sibling has no
messages, and everybody is ready. -/
def nothingToDo : Node → List Byte := fun j =>
  if j = (0, 1) then [0, 0, 0, 0]
  else if j = (1, 0) then [0, 0, 0, 0] ++ [1] ++ [1] ++ [0, 0, 0, 0] ++ [1] ++ [0, 0, 0, 0] ++ [0, 0, 0, 0]
  else if j = (2, 1) then [1] else []

/-- C49 is false with several servers per party as well: a server with 2^32 noise
queries and no others runs past the end of its batch after the offline stage. -/
theorem C49_violated_parallel : overflowGrid.Configured ∧ overflowGrid.noise 0 1 = 2 ^ 32 ∧
    ∃ (n0 n : PNet Node Obs Unit) (cap : Node × Node → Nat) (heard : Node → List Byte),
      n0.proc (1, 1) = overflowGrid.party 0 1 true true ∧ n0.seen (1, 1) = [] ∧ PNet.Hears cap (1, 1) n0 n heard ∧
      n.proc (1, 1) = .fault .ub ∧ heard (0, 1) = [0, 0, 0, 0] := by
  have h := exampleGrid_valid
  refine ⟨⟨h.parties, h.servers, ⟨by decide, h.rows.2⟩, h.keys, h.pairs⟩, by decide +kernel, ?_⟩
  exact besieged_dies (i := (1, 1)) (p := overflowGrid.party 0 1 true true) (input := nothingToDo) (j := (0, 1)) (by decide +kernel)

end DPPIR.Props
