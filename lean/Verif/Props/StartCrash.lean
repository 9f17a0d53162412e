import Verif.Props.Loops
import Verif.Proofs.JointLinks
import Verif.Props.StartCausal

/-!
# C55 for deployments started from the command line
-/

namespace DPPIR.Props
open DPPIR.Config DPPIR.Noise DPPIR.Protocol DPPIR.Onion DPPIR.Main DPPIR.Spec

variable {box : SealedBox}

/-- **C55.** A deployment with one server per party, started from the command line with a
usable configuration file; its connections exist.  Whatever processes crash, and whatever
they sent last is lost: the client asks for its own rows in order and gets these rows in
order, all of them if it returns.  The only abnormal ends are the crashes, and the backend
looks up rows of the database only. -/
theorem C55_one_server (w : World box) (hw : w.Sane) (c : Config) (d : Dist) (h : Usable w c d) (hS : c.serverCount.toNat = 1)
    (file : String → Option (List Byte)) (path stage : String) (hpath : path ≠ "") (hst : stage = "online" ∨ stage = "all")
    (hc : readFile (file path) = .ok c) (N : Nat) (hN : w.SamplesUpTo d N) (q : Nat)
    (hq : q + (c.partyCount.toNat - 1) * (c.dbSize.toNat * N) < 2 ^ 32)
    (cap : Nat × Nat → Nat) (hcap : ∀ x, 0 < cap x) (n : PNet Nat Obs Unit)
    (hn : PNet.CrashReach cap (PNet.start (launch w file path stage c.partyCount.toNat q)) n)
    (asked : List Nat) (hasked : asked = (List.range q).map fun j => (w.clientRand 0).row j % c.dbSize.toNat)
    (db : Database) (hdb : Database.new c.dbSize.toNat = .ok db) :
    wants (n.seen 0) <+: asked ∧ (results (n.seen 0)).map Except.ok <+: asked.map db.lookup ∧
    (n.Returned 0 () → wants (n.seen 0) = asked ∧ (results (n.seen 0)).map Except.ok = asked.map db.lookup) ∧
    (∀ i e, n.proc i = .fault e → e = .exception) ∧ ∀ row ∈ lookups (n.seen c.partyCount.toNat), row < c.dbSize.toNat := by
  rw [launch_eq w c d h hN hS file path stage hpath hst hc q (by omega)] at hn
  have e : (List.range q).map (chainOf w c d q).wanted = asked := by
    rw [hasked]
    exact List.map_congr_left fun j _ => chain_wanted h q j
  obtain ⟨a1, a2, a3, a4, a5⟩ := C55_results_loops _ (chain_valid hw h hN hq) (stage == "all") cap hcap n hn db hdb
  change wants (n.seen 0) <+: (List.range q).map (chainOf w c d q).wanted at a1
  change (results (n.seen 0)).map Except.ok <+: ((List.range q).map (chainOf w c d q).wanted).map db.lookup at a2
  rw [e] at a1 a2
  refine ⟨a1, a2, fun hr => ?_, a4, a5⟩
  obtain ⟨b1, b2⟩ := a3 hr
  have b1' : wants (n.seen 0) = asked := b1.trans e
  exact ⟨b1', by rw [b2, b1']⟩

/-- **C55.** The same for every client of a deployment with 2 to 254 servers per party. -/
theorem C55_many_servers (w : World box) (hw : w.Sane) (c : Config) (d : Dist) (h : Usable w c d)
    (hS : 2 ≤ c.serverCount.toNat ∧ c.serverCount.toNat ≤ 254) (hrows : c.serverCount.toNat ≤ c.dbSize.toNat)
    (hshare : (c.serverCount.toNat - 1) * ((c.dbSize.toNat + c.serverCount.toNat - 1) / c.serverCount.toNat) ≤ c.dbSize.toNat)
    (file : String → Option (List Byte)) (path stage : String) (hpath : path ≠ "") (hst : stage = "online" ∨ stage = "all")
    (hc : readFile (file path) = .ok c) (N : Nat) (hN : w.SamplesUpTo d N) (q : Nat → Nat)
    (hall : stage = "all" → w.sampling = false ∧ ∃ q0, ∀ s < c.serverCount.toNat, q s = q0)
    (hq : ((List.range c.serverCount.toNat).map q).sum + (c.partyCount.toNat - 1) * (c.dbSize.toNat * N) < 2 ^ 32)
    (cap : Node × Node → Nat) (n : PNet Node Obs Unit)
    (hn : PNet.CrashReach cap (PNet.start (launchMany w file path stage c.partyCount.toNat c.serverCount.toNat q)) n)
    (asked : Nat → List Nat)
    (hasked : ∀ s, asked s = (List.range (q s)).map fun j => (w.clientRand s).row j % c.dbSize.toNat)
    (db : Database) (hdb : Database.new c.dbSize.toNat = .ok db) :
    (∀ s < c.serverCount.toNat, wants (n.seen (0, s)) <+: asked s ∧
      (results (n.seen (0, s))).map Except.ok <+: (asked s).map db.lookup ∧
      (n.Returned (0, s) () → wants (n.seen (0, s)) = asked s ∧
        (results (n.seen (0, s))).map Except.ok = (asked s).map db.lookup)) ∧
    (∀ i e, n.proc i = .fault e → e = .exception) ∧
    ∀ s < c.serverCount.toNat, ∀ row ∈ lookups (n.seen (c.partyCount.toNat, s)), row < c.dbSize.toNat := by
  have hqs : ∀ s < c.serverCount.toNat, q s < 2 ^ 32 := fun s hs => by
    have := List.single_le_sum (l := (List.range c.serverCount.toNat).map q) (by simp) (q s) (List.mem_map_of_mem (List.mem_range.2 hs))
    omega
  rw [launchMany_eq w c d h hN (by omega) file path stage hpath hst hc q hqs] at hn
  have hv := grid_valid hw h hN (q := q) hS hrows hshare hq
  have hd : (stage == "all") = true → (gridOf w c d q).DistinctTags := fun e => by
    obtain ⟨e1, e2⟩ := hall (by simpa using e)
    exact Grid.distinct_even hv e2 (grid_even e1 _)
  obtain ⟨a1, a2, a3⟩ := C55_results_loops_parallel _ hv (stage == "all") hd cap n hn db hdb
  refine ⟨fun s hs => ?_, a2, a3⟩
  have e : (List.range (q s)).map ((gridOf w c d q).wanted s) = asked s := by
    rw [hasked]
    exact List.map_congr_left fun j _ => grid_wanted h q s j
  obtain ⟨b1, b2, b3⟩ := a1 s hs
  change wants (n.seen (0, s)) <+: (List.range (q s)).map ((gridOf w c d q).wanted s) at b1
  change (results (n.seen (0, s))).map Except.ok <+: ((List.range (q s)).map ((gridOf w c d q).wanted s)).map db.lookup at b2
  rw [e] at b1 b2
  refine ⟨b1, b2, fun hr => ?_⟩
  obtain ⟨k1, k2⟩ := b3 hr
  have k1' : wants (n.seen (0, s)) = asked s := k1.trans e
  exact ⟨k1', by rw [k2, k1']⟩

/-- **C55.** For any processes, in particular those that `main` starts: when some crash, all
of them have made the calls that they make in some run without crashes, and the others are
where they are in that run. -/
theorem C55_nothing_new_any {ι : Type} [DecidableEq ι] (prog : ι → PProg ι Unit) (cap : ι × ι → Nat) (n : PNet ι Obs Unit)
    (hn : PNet.CrashReach cap (PNet.start prog) n) :
    ∃ m, PNet.Reach cap (PNet.start prog) m ∧ n.seen = m.seen ∧ ∀ i, ¬ n.Faulted i → n.proc i = m.proc i := by
  obtain ⟨m, hm, hl⟩ := hn.like
  exact ⟨m, hm, hl.seen, hl.proc⟩

private theorem crash_of {ι : Type} [DecidableEq ι] {cap : ι × ι → Nat} {n₀ n : PNet ι Obs Unit} (hn : PNet.Reach cap n₀ n) :
    PNet.CrashReach cap n₀ n := by
  induction hn with
  | refl => exact .refl
  | step _ s ih => exact ih.step (.step _ s)

private theorem crashed {ι : Type} [DecidableEq ι] {cap : ι × ι → Nat} {n₀ n : PNet ι Obs Unit} (hn : PNet.Reach cap n₀ n)
    {i j : ι} (hij : j ≠ i) (hr : n.Returned j ()) :
    ∃ m, PNet.CrashReach cap n₀ m ∧ m.Faulted i ∧ m.Returned j () ∧ m.seen = n.seen := by
  refine ⟨_, (crash_of hn).step (.crash i), ⟨.exception, by simp⟩, ?_, rfl⟩
  show Function.update n.proc i (.fault .exception) j = .done ()
  rw [Function.update_of_ne hij]
  exact hr

private theorem crash_trans {ι : Type} [DecidableEq ι] {cap : ι × ι → Nat} {n₀ n m : PNet ι Obs Unit} (hn : PNet.CrashReach cap n₀ n)
    (hm : PNet.CrashReach cap n m) : PNet.CrashReach cap n₀ m := by
  induction hm with
  | refl => exact hn
  | step _ s ih => exact ih.step s

namespace Example

/-- One server per party and ten queries, both stages: party 2 may crash late enough for
the client to return, so that it has got all its results. -/
example : ∃ (cap : Nat × Nat → Nat) (n : PNet Nat Obs Unit) (db : Database),
    PNet.CrashReach cap (PNet.start (launch (privateWorld false) (fun _ => some (privateFile 1)) "f" "all" 3 10)) n ∧
    n.Faulted 2 ∧ n.Returned 0 () ∧ Database.new 5 = .ok db ∧
    (results (n.seen 0)).map Except.ok = ((List.range 10).map fun j => ((privateWorld false).clientRand 0).row j % 5).map db.lookup := by
  obtain ⟨d, N, hu, hN, hN2, hf, e1, e2, e3, hn⟩ := private_samples 1 (Or.inl rfl)
  have hq : 10 + ((privateConfig 1).partyCount.toNat - 1) * ((privateConfig 1).dbSize.toNat * N) < 2 ^ 32 := by
    rw [e1, e3]; omega
  have ha := C61_one_server (privateWorld false) (privateWorld_sane false) (privateConfig 1) d hu e2
    (fun _ => some (privateFile 1)) "f" "all" (by decide) (.inr rfl) hf N hN 10 hq
  obtain ⟨h1, h2⟩ := ha (fun _ => 1) (fun _ _ _ => Nat.one_pos)
  obtain ⟨n, hn1, hstuck⟩ := PNet.exists_end h2
  have hret := (((h1 n hn1).2.1 (fun _ _ _ => le_rfl)).resolve_left hstuck).1
  obtain ⟨m, hm, hf2, hr0, -⟩ := crashed hn1 (i := 2) (j := 0) (by decide) (hret 0)
  obtain ⟨db, hdb⟩ : ∃ db, Database.new (privateConfig 1).dbSize.toNat = .ok db := by rw [e3]; exact ⟨_, rfl⟩
  obtain ⟨-, -, k, -⟩ := C55_one_server (privateWorld false) (privateWorld_sane false) (privateConfig 1) d hu e2
    (fun _ => some (privateFile 1)) "f" "all" (by decide) (.inr rfl) hf N hN 10 hq (fun _ => 1) (fun _ => Nat.one_pos) m hm _ rfl db hdb
  have k2 := (k hr0).2
  rw [e3] at k2 hdb
  rw [e1] at hm
  exact ⟨_, m, db, hm, hf2, hr0, hdb, k2⟩

/-- The processes of the example, when any of them crash. -/
example (n : PNet Nat Obs Unit)
    (hn : PNet.CrashReach (fun _ => 1) (PNet.start (launch (privateWorld false) (fun _ => some (privateFile 1)) "f" "all" 3 10)) n) :
    ∃ m, PNet.Reach (fun _ => 1) (PNet.start (launch (privateWorld false) (fun _ => some (privateFile 1)) "f" "all" 3 10)) m ∧ n.seen = m.seen := by
  obtain ⟨m, h1, h2, -⟩ := C55_nothing_new_any _ _ n hn
  exact ⟨m, h1, h2⟩

/-- Two servers per party, ten queries by each client: server 1 of party 1 crashes before
it does anything; whatever happens then, client 0 gets right rows only. -/
example : ∃ (cap : Node × Node → Nat) (n : PNet Node Obs Unit),
    PNet.CrashReach cap (PNet.start (launchMany (privateWorld false) (fun _ => some (privateFile 2)) "f" "all" 3 2 fun _ => 10)) n ∧
    n.Faulted (1, 1) ∧ ∀ m db, PNet.CrashReach cap n m → Database.new 5 = .ok db →
    (results (m.seen (0, 0))).map Except.ok <+: ((List.range 10).map fun j => ((privateWorld false).clientRand 0).row j % 5).map db.lookup := by
  obtain ⟨d, N, hu, hN, hN2, hf, e1, e2, e3, hn⟩ := private_samples 2 (Or.inr rfl)
  have hq : ((List.range (privateConfig 2).serverCount.toNat).map fun _ => 10).sum +
      ((privateConfig 2).partyCount.toNat - 1) * ((privateConfig 2).dbSize.toNat * N) < 2 ^ 32 := by
    rw [e1, e2, e3, show ((List.range 2).map fun _ => 10).sum = 20 from rfl]; omega
  have hshare : ((privateConfig 2).serverCount.toNat - 1) * (((privateConfig 2).dbSize.toNat + (privateConfig 2).serverCount.toNat - 1) /
      (privateConfig 2).serverCount.toNat) ≤ (privateConfig 2).dbSize.toNat := by rw [e2, e3]; decide
  refine ⟨fun _ => 1, _, PNet.CrashReach.refl.step (.crash (1, 1)), ⟨.exception, by simp⟩, fun m db hm hdb => ?_⟩
  have hm' := crash_trans (PNet.CrashReach.refl.step (.crash (1, 1))) hm
  rw [← e1, ← e2] at hm'
  rw [← e3] at hdb
  have k := ((C55_many_servers (privateWorld false) (privateWorld_sane false) (privateConfig 2) d hu (by omega) (by omega) hshare
    (fun _ => some (privateFile 2)) "f" "all" (by decide) (.inr rfl) hf N hN (fun _ => 10) (fun _ => ⟨rfl, 10, fun _ _ => rfl⟩) hq
    (fun _ => 1) m hm' _ (fun _ => rfl) db hdb).1 0 (by omega)).2.1
  rw [e3] at k
  exact k

end Example
end DPPIR.Props
