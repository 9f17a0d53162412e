import Verif.Proofs.OverflowAny
import Verif.Props.Hostile

/-!
# C49: parties that return have counted right

The party is process `i` of a network whose other processes and queues are arbitrary.
`c.noise k` is the true sum of its samples, as a natural number.
-/

namespace DPPIR.Props
open DPPIR Proc Onion Spec Protocol Shuffle

variable {box : SealedBox}

theorem party_counted {c : Chain box} (h : c.Configured) (k : Nat) (hk : k + 1 < c.parties) (offline online : Bool) (bound : Nat)
    (hb : ∀ key < c.rows, ((c.partyRand k).sample key).toNat ≤ bound) :
    Safe AnyObs AnyFault (c.party k offline online) (fun _ h => CountedRight (c.noise k) bound h) [] := by
  have hP := h.parties
  have hp32 : Spec.p < 2 ^ 32 := by decide
  have hr := h.rowsp
  unfold Chain.party
  refine safe_ok (database_new _) ?_
  let db : Database := { size := c.rows, rows := (List.range c.rows).map Database.row }
  let p : Party box := { partyId := k, serverId := 0, partyCount := c.parties, serverCount := 1, db := db, shuffler := LocalShuffler.new (c.seed k), ciphers := CipherBatch.new (cipherSize (c.parties - k - 1)) (cipherSize (c.parties - k)), pkeys := c.pkeys, pkey := c.pkey k, skey := c.skey k }
  have hnew : Party.new k 0 c.parties 1 (c.seed k) c.pkeys (c.pkey k) (c.skey k) db = .ok p := by
    have : k < c.parties - 1 := by omega
    simp [Party.new, assert, hP.1, this]
    rfl
  refine safe_ok hnew ?_
  exact start_counted p (c.partyRand k) c.rows (h.division k) rfl rfl rfl hr.1 (by omega) k (k + 2) bound hb offline online

/-- C49, for every party that returns, with or without the offline stage and among
arbitrary peers: it first reads a number `N` of queries and announces a number `M`,
and `M` is exactly `N` plus its noise, unless `M` comes within one sample of 2^32.
Missing: in the latter case the counters may have wrapped. -/
theorem C49_returns_exact_partial (c : Chain box) (h : c.Configured) (k : Nat) (hk : k + 1 < c.parties) (offline online : Bool)
    (i : Nat) (n0 n : Net Nat Obs) (cap : Nat × Nat → Nat) (s : List Nat)
    (hp : n0.proc i = c.party k offline online) (h0 : n0.seen i = []) (hn : n0.run cap s = some n) (hfin : n.Finished i)
    (bound : Nat) (hb : ∀ key < c.rows, ((c.partyRand k).sample key).toNat ≤ bound) :
    ∃ N M rest, n.seen i = .recvCount N :: .sendCount M :: rest ∧
      (M.toNat + bound < 2 ^ 32 → M.toNat = N.toNat + c.noise k) := by
  obtain ⟨h1, -⟩ := Safe.net s n0 n (by rw [h0, hp]; exact party_counted h k hk offline online bound hb) hn
  rw [hfin] at h1
  obtain ⟨N, M, rest, h2, h3, h4⟩ := h1
  refine ⟨N, M, rest, h2, fun hM => ?_⟩
  have := h4 hM
  have := N.isLt
  omega

/-- C49 beyond 32 bits: a party that is told a number `N` of queries which together
with its noise reaches 2^32 never returns, in no schedule, whatever its peers send,
with or without the offline stage.  (`bound` as in `C49_violated_runs_past_the_end`.) -/
theorem C49_violated_never_returns (c : Chain box) (h : c.Configured) (k : Nat) (hk : k + 1 < c.parties) (offline online : Bool)
    (i : Nat) (n0 n : Net Nat Obs) (cap : Nat × Nat → Nat) (s : List Nat)
    (hp : n0.proc i = c.party k offline online) (h0 : n0.seen i = []) (hn : n0.run cap s = some n)
    (bound : Nat) (hb : ∀ key < c.rows, ((c.partyRand k).sample key).toNat ≤ bound)
    (N : BitVec 32) (rest : List Obs) (hN : n.seen i = .recvCount N :: rest)
    (hover : 2 ^ 32 ≤ N.toNat + c.noise k) (h32 : (N.toNat + c.noise k) % 2 ^ 32 + bound < 2 ^ 32) : ¬ n.Finished i := by
  intro hfin
  obtain ⟨h1, -⟩ := Safe.net s n0 n (by rw [h0, hp]; exact party_counted h k hk offline online bound hb) hn
  rw [hfin] at h1
  obtain ⟨N', M, rest', h2, h3, h4⟩ := h1
  rw [hN] at h2
  obtain ⟨e, -⟩ := List.cons.inj h2
  obtain rfl := Obs.recvCount.inj e
  have := h4 (by rw [h3]; exact h32)
  have := N.isLt
  omega

/-- A chain whose parties draw 2^30 noise queries for each of the four rows. -/
def overflowChain : Chain toyBox := { exampleChain with
  partyRand := fun k => { exampleChain.partyRand k with sample := fun _ => BitVec.ofNat 32 (2 ^ 30) } }

theorem overflowChain_configured : overflowChain.Configured := by
  have h := exampleChain_valid
  exact ⟨h.parties, h.rows, h.keys, h.pairs, h.division⟩

/-- The witness with the offline stage: 2^32 noise queries and no input are announced
as 0, and the party runs past the end of its shuffler. -/
theorem C49_violated_offline_witness : overflowChain.Configured ∧ overflowChain.noise 1 = 2 ^ 32 ∧
    ∃ t, feed [0, 0, 0, 0, 1] (overflowChain.party 1 true true) = some (t, .error .ub) ∧
      countsRead t = [0] ∧ countsSent t = [0] := by
  refine ⟨overflowChain_configured, by decide +kernel, ?_⟩
  have h1 : (feed [0, 0, 0, 0, 1] (overflowChain.party 1 true true)).map (fun x => (outcome x, countsRead x.1, countsSent x.1)) =
      some (some .ub, [0], [0]) := by decide +kernel
  cases hf : feed [0, 0, 0, 0, 1] (overflowChain.party 1 true true) with
  | none => rw [hf] at h1; cases h1
  | some x =>
    obtain ⟨t, r⟩ := x
    rw [hf] at h1
    simp only [Option.map_some, Option.some.injEq, Prod.mk.injEq] at h1
    obtain ⟨h1, h2, h3⟩ := h1
    cases r with
    | ok a => cases h1
    | error e =>
      obtain rfl := Option.some.inj h1
      exact ⟨t, rfl, h2, h3⟩

/-- `C49_violated_never_returns` is about runs that exist: the party has been told 0. -/
example : ∃ n rest, (⟨fun _ => overflowChain.party 1 true true, fun _ => [0, 0, 0, 0, 1], fun _ => []⟩ : Net Nat Obs).run (fun _ => 9)
      (List.replicate 5 5) = some n ∧ n.seen 5 = .recvCount 0 :: rest ∧
    (∀ key < overflowChain.rows, ((overflowChain.partyRand 1).sample key).toNat ≤ 2 ^ 30) ∧
    2 ^ 32 ≤ (0 : BitVec 32).toNat + overflowChain.noise 1 ∧
    ((0 : BitVec 32).toNat + overflowChain.noise 1) % 2 ^ 32 + 2 ^ 30 < 2 ^ 32 := by
  have h1 : ((⟨fun _ => overflowChain.party 1 true true, fun _ => [0, 0, 0, 0, 1], fun _ => []⟩ : Net Nat Obs).run (fun _ => 9)
      (List.replicate 5 5)).map (fun n => ((n.seen 5).length, countsRead (n.seen 5))) = some (1, [0]) := by decide +kernel
  generalize (⟨fun _ => overflowChain.party 1 true true, fun _ => [0, 0, 0, 0, 1], fun _ => []⟩ : Net Nat Obs).run (fun _ => 9)
      (List.replicate 5 5) = x at h1 ⊢
  cases x with
  | none => cases h1
  | some n =>
    simp only [Option.map_some, Option.some.injEq, Prod.mk.injEq] at h1
    obtain ⟨h1, h2⟩ := h1
    match hs : n.seen 5, h1 with
    | [o], _ =>
      rw [hs] at h2
      have ho : o = .recvCount 0 := by
        cases o <;> simp [countsRead] at h2
        rw [h2]; rfl
      exact ⟨n, [], rfl, by rw [hs, ho], by decide +kernel, by decide +kernel, by decide +kernel⟩

/-- `C49_returns_exact_partial` applies to the parties of a complete run. -/
example : ∃ s n, (exampleChain.net true true).run (fun _ => 1) s = some n ∧ n.Finished 1 ∧ (exampleChain.net true true).seen 1 = [] ∧
    (exampleChain.net true true).proc 1 = exampleChain.party 0 true true ∧
    (∀ key < exampleChain.rows, ((exampleChain.partyRand 0).sample key).toNat ≤ 1) := by
  obtain ⟨s, n, h1, h2, -⟩ := Chain.complete_run exampleChain_valid true true (fun _ => 1) (fun _ => Nat.one_pos)
  exact ⟨s, n, h1, h2 1, rfl, rfl, by decide +kernel⟩

end DPPIR.Props
