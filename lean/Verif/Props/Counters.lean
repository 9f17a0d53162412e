import Verif.Proofs.Overflow

/-!
# C49: the 32-bit counters of a party

`total` is the true number of noise queries the samples ask for, as a natural number.
`Proc.feed bytes prog` answers the reads of `prog` with `bytes` and gives the calls it
makes and how it ends.
-/

namespace DPPIR.Props
open DPPIR Proc Onion Spec Protocol

variable {box : SealedBox} {ι : Type}

/-- The number of noise queries asked for, without any wrapping. -/
def total (sample : Nat → BitVec 32) (rows : Nat) : Nat := ((List.range rows).map (fun i => (sample i).toNat)).sum

/-- C49, the part that holds: a party whose samples and input fit in 32 bits counts its
noise exactly and announces exactly input plus noise. -/
theorem C49_exact_below_partial (k parties rows : Nat) (seed : Int) (pkeys : List box.PKey) (pkey : box.PKey) (skey : box.SKey)
    (db : Database) (hdb : Database.new rows = .ok db) (p : Party box)
    (hp : Party.new k 0 parties 1 seed pkeys pkey skey db = .ok p) (rand : PartyRand box) (hrnd : Noise.IsDivRounding rand.rnd)
    (hr0 : 0 < rows) (hr : rows < 2 ^ 32) (back next : ι) (N : BitVec 32) (hfit : N.toNat + total rand.sample rows < 2 ^ 32) :
    ∃ p' M, feed (natLE 4 N.toNat) (do
        let p ← lift (p.initializeNoiseSamples rand)
        p.initializeCounts back next) = some ([.recvCount N, .sendCount M], .ok p') ∧
      p'.noiseCount = total rand.sample rows ∧ M.toNat = N.toNat + total rand.sample rows := by
  obtain ⟨f1, f2, f3⟩ : p.serverId = 0 ∧ p.serverCount = 1 ∧ p.db.size = rows := by
    rw [database_new] at hdb
    obtain rfl := Except.ok.inj hdb
    unfold Party.new at hp
    by_cases ha : 2 ≤ parties ∧ k < parties - 1
    swap
    · simp [assert, ha] at hp
    simp only [assert, ha, and_self, decide_true, if_true, bind_ok] at hp
    obtain rfl := Except.ok.inj hp
    exact ⟨rfl, rfl, rfl⟩
  obtain ⟨p', h1, h2⟩ := counts_announced p rand rows hrnd f1 f2 f3 hr0 hr back next N.toNat N.isLt
  refine ⟨p', BitVec.ofNat 32 (N.toNat + total rand.sample rows), ?_, ?_, ?_⟩
  · rw [BitVec.ofNat_toNat, BitVec.setWidth_eq] at h1
    exact h1
  · rw [h2]
    exact Nat.mod_eq_of_lt (show total rand.sample rows < 2 ^ 32 by omega)
  · rw [BitVec.toNat_ofNat, Nat.mod_eq_of_lt hfit]

/-- A party with four rows and three noise queries for each, told of ten queries. -/
example : ∃ p : Party toyBox, Party.new 0 0 2 1 7 [(1 : Byte), (2 : Byte)] (1 : Byte) (1 : Byte)
      { size := 4, rows := (List.range 4).map Database.row } = .ok p ∧ Database.new 4 = .ok { size := 4, rows := (List.range 4).map Database.row } ∧
    total (fun _ => 3) 4 = 12 ∧ (10 : BitVec 32).toNat + total (fun _ => 3) 4 < 2 ^ 32 := by
  exact ⟨_, rfl, database_new 4, by decide, by decide⟩

/-- C49 is false in general: without the bound the count announced is the true count
modulo 2^32. -/
theorem C49_violated_announced_wraps (p : Party box) (rand : PartyRand box) (rows : Nat) (hrnd : Noise.IsDivRounding rand.rnd)
    (hid : p.serverId = 0) (hsc : p.serverCount = 1) (hdb : p.db.size = rows) (hr0 : 0 < rows) (hr : rows < 2 ^ 32)
    (back next : ι) (N : BitVec 32) :
    ∃ p' M, feed (natLE 4 N.toNat) (do
        let p ← lift (p.initializeNoiseSamples rand)
        p.initializeCounts back next) = some ([.recvCount N, .sendCount M], .ok p') ∧
      p'.noiseCount = total rand.sample rows % 2 ^ 32 ∧ M.toNat = (N.toNat + total rand.sample rows) % 2 ^ 32 := by
  obtain ⟨p', h1, h2⟩ := counts_announced p rand rows hrnd hid hsc hdb hr0 hr back next N.toNat N.isLt
  refine ⟨p', BitVec.ofNat 32 (N.toNat + total rand.sample rows), ?_, h2, ?_⟩
  · rw [BitVec.ofNat_toNat, BitVec.setWidth_eq] at h1
    exact h1
  · rw [BitVec.toNat_ofNat]

/-- C49 is false in general: once input and noise together reach 2^32, a party in an
online-only run announces the wrapped count and then indexes past the end of its
shuffler, undefined behaviour.  (`bound` caps single samples: it excludes the case of
one sample wrapping the loop bound past zero again.) -/
theorem C49_violated_runs_past_the_end (k parties rows : Nat) (seed : Int) (pkeys : List box.PKey) (pkey : box.PKey)
    (skey : box.SKey) (db : Database) (hdb : Database.new rows = .ok db) (p : Party box)
    (hp : Party.new k 0 parties 1 seed pkeys pkey skey db = .ok p) (rand : PartyRand box) (hrnd : Noise.IsDivRounding rand.rnd)
    (hr0 : 0 < rows) (hr : rows ≤ Spec.p) (back next : ι) (N : BitVec 32) (bound : Nat)
    (hb : ∀ key < rows, (rand.sample key).toNat ≤ bound)
    (h32 : (N.toNat + total rand.sample rows) % 2 ^ 32 + bound < 2 ^ 32)
    (hover : 2 ^ 32 ≤ N.toNat + total rand.sample rows) :
    ∃ M, M.toNat < N.toNat + total rand.sample rows ∧
      feed (natLE 4 N.toNat) (p.simulateOffline rand back next) = some ([.recvCount N, .sendCount M], .error .ub) := by
  have h := sim_overflow k parties rows seed pkeys pkey skey db hdb p hp rand hrnd hr0 hr back next N.toNat N.isLt bound hb h32 hover
  refine ⟨BitVec.ofNat 32 (N.toNat + total rand.sample rows), ?_, ?_⟩
  · rw [BitVec.toNat_ofNat]
    omega
  · rw [BitVec.ofNat_toNat, BitVec.setWidth_eq] at h
    exact h

theorem total_const (n rows : Nat) (h : n < 2 ^ 32) : total (fun _ => BitVec.ofNat 32 n) rows = rows * n := by
  unfold total
  simp
  exact Or.inl h

/-- The witness: 2^24 rows and 276 noise queries for each row are 4630511616 queries;
the party announces 335544320 more than its input instead, and then fails. -/
theorem C49_violated_witness : ∃ (p : Party toyBox) (rand : PartyRand toyBox),
    Party.new 0 0 2 1 7 [(1 : Byte), (2 : Byte)] (1 : Byte) (1 : Byte)
      { size := 2 ^ 24, rows := (List.range (2 ^ 24)).map Database.row } = .ok p ∧
    total rand.sample (2 ^ 24) = 4630511616 ∧
    feed (natLE 4 10) (p.simulateOffline rand 0 2) =
      some ([.recvCount 10, .sendCount 335544330], .error .ub) := by
  have hnew : ∃ p : Party toyBox, Party.new 0 0 2 1 7 [(1 : Byte), (2 : Byte)] (1 : Byte) (1 : Byte)
      { size := 2 ^ 24, rows := (List.range (2 ^ 24)).map Database.row } = .ok p := by
    unfold Party.new
    simp only [assert, show (2 ≤ 2 ∧ 0 < 2 - 1) = True from by decide, decide_true, if_true, bind_ok]
    exact ⟨_, rfl⟩
  obtain ⟨p, hp⟩ := hnew
  let rand : PartyRand toyBox :=
    { rnd := id, rand := fun s i => s.toNat + 3 * i, sample := fun _ => BitVec.ofNat 32 276
      secret := fun i => ⟨fun j => i + j, fun j _ => BitVec.ofNat 8 j, fun _ => (5 : Byte), fun _ => 0, fun _ => 0⟩ }
  have ht : total rand.sample (2 ^ 24) = 4630511616 := (total_const 276 _ (by decide)).trans (by norm_num)
  refine ⟨p, rand, hp, ht, ?_⟩
  have h := sim_overflow (ι := Nat) 0 2 (2 ^ 24) 7 _ _ _ _ (database_new _) p hp rand ⟨monotone_id, fun _ _ => rfl⟩ (by decide) (by decide)
    0 2 10 (by decide) 276 (fun _ _ => Nat.le_refl 276)
    (show (10 + total rand.sample (2 ^ 24)) % 2 ^ 32 + 276 < 2 ^ 32 by rw [ht]; decide)
    (show 2 ^ 32 ≤ 10 + total rand.sample (2 ^ 24) by rw [ht]; decide)
  rw [h]
  have e : BitVec.ofNat 32 (10 + total rand.sample (2 ^ 24)) = 335544330#32 := by
    rw [ht]
    rfl
  exact congrArg (fun m => some ([Obs.recvCount 10, Obs.sendCount m], Except.error Fault.ub)) e

end DPPIR.Props
