import Verif.Props.Loops
import Verif.Proofs.JointLinks
import Verif.Props.StartCausal

/-!
# C56 and C57 for clients started from the command line
-/

namespace DPPIR.Props
open DPPIR.Config DPPIR.Noise DPPIR.Protocol DPPIR.Onion DPPIR.Main DPPIR.Spec

variable {box : SealedBox}

private theorem chain_configured {w : World box} (hw : w.Sane) {c : Config} {d : Dist} (h : Usable w c d) (q : Nat) :
    (chainOf w c d q).Configured where
  parties := ⟨h.parties.1, by have := c.partyCount.isLt; show c.partyCount.toNat ≤ 255; omega⟩
  rows := h.rows
  keys := pkeys_eq h
  pairs k hk := h.pairs _ (partyOf_mem (by have := h.parties.2; have : k < c.partyCount.toNat := hk; omega))
  division _ := hw.division

private theorem grid_configured {w : World box} {c : Config} {d : Dist} (h : Usable w c d)
    (hS : 2 ≤ c.serverCount.toNat ∧ c.serverCount.toNat ≤ 254) (q : Nat → Nat) : (gridOf w c d q).Configured where
  parties := ⟨h.parties.1, by have := c.partyCount.isLt; show c.partyCount.toNat ≤ 255; omega⟩
  servers := hS
  rows := h.rows
  keys := pkeys_eq h
  pairs k hk := h.pairs _ (partyOf_mem (by have := h.parties.2; have : k < c.partyCount.toNat := hk; omega))

private theorem run_one {w : World box} {c : Config} {d : Dist} (h : Usable w c d) (hS : c.serverCount.toNat = 1)
    {file : String → Option (List Byte)} {path stage : String} (hpath : path ≠ "") (hst : stage = "online" ∨ stage = "all")
    (hc : readFile (file path) = .ok c) {q : Nat} (hq : q < 2 ^ 32) :
    w.run (fun l _ => l) file (clientFlags path stage 0 q) = (chainOf w c d q).clientLoops (stage == "all") true := by
  have hP := h.parties
  rw [run_of w c _ (main_client hpath hst hc (by omega) (by omega)) (by simp) hc, start_client w c _ (toNat8 (by omega)) (toNat32 hq)]
  rfl

private theorem run_many {w : World box} {c : Config} {d : Dist} (h : Usable w c d)
    {file : String → Option (List Byte)} {path stage : String} (hpath : path ≠ "") (hst : stage = "online" ∨ stage = "all")
    (hc : readFile (file path) = .ok c) {q s : Nat} (hs : s < c.serverCount.toNat) (hq : q < 2 ^ 32) :
    w.run Prod.mk file (clientFlags path stage s q) = (gridOf w c d (fun _ => q)).clientLoops s (stage == "all") true := by
  have hP := h.parties
  have hS8 := c.serverCount.isLt
  rw [run_of w c _ (main_client hpath hst hc hs (by omega)) (by simp) hc, start_client w c _ (toNat8 (by omega)) (toNat32 hq)]
  rfl

/-- **C57.** A client started from the command line with a usable configuration file for
one server per party, among any processes: it asks for its own rows in order, all its
results except possibly the last one are right, and if it returns all are. -/
theorem C57_one_server (w : World box) (hw : w.Sane) (c : Config) (d : Dist) (h : Usable w c d) (hS : c.serverCount.toNat = 1)
    (file : String → Option (List Byte)) (path stage : String) (hpath : path ≠ "") (hst : stage = "online" ∨ stage = "all")
    (hc : readFile (file path) = .ok c) (q : Nat) (hq : q < 2 ^ 32)
    (i : Nat) (n0 n : PNet Nat Obs Unit) (cap : Nat × Nat → Nat)
    (hp : n0.proc i = w.run (fun l _ => l) file (clientFlags path stage 0 q)) (h0 : n0.seen i = []) (hn : PNet.Reach cap n0 n)
    (asked : List Nat) (hasked : asked = (List.range q).map fun j => (w.clientRand 0).row j % c.dbSize.toNat)
    (db : Database) (hdb : Database.new c.dbSize.toNat = .ok db) :
    wants (n.seen i) <+: asked ∧ (results (n.seen i)).length ≤ (wants (n.seen i)).length ∧
    (results (n.seen i)).dropLast.map Except.ok <+: asked.map db.lookup ∧
    (n.Returned i () → wants (n.seen i) = asked ∧ (results (n.seen i)).map Except.ok = asked.map db.lookup) := by
  rw [run_one h hS hpath hst hc hq] at hp
  have e : (List.range q).map (chainOf w c d q).wanted = asked := by
    rw [hasked]
    exact List.map_congr_left fun j _ => chain_wanted h q j
  obtain ⟨a1, a2, a3, a4⟩ := C57_client_never_wrong_loops _ (chain_configured hw h q) hq (stage == "all") true i n0 n cap hp h0 hn db hdb
  change wants (n.seen i) <+: (List.range q).map (chainOf w c d q).wanted at a1
  change (results (n.seen i)).dropLast.map Except.ok <+: ((List.range q).map (chainOf w c d q).wanted).map db.lookup at a3
  rw [e] at a1 a3
  refine ⟨a1, a2, a3, fun hr => ?_⟩
  obtain ⟨b1, b2⟩ := a4 hr rfl
  have b1' : wants (n.seen i) = asked := b1.trans e
  exact ⟨b1', by rw [b2, b1']⟩

/-- **C57.** The same for client `s` of a deployment with 2 to 254 servers per party. -/
theorem C57_many_servers (w : World box) (c : Config) (d : Dist) (h : Usable w c d)
    (hS : 2 ≤ c.serverCount.toNat ∧ c.serverCount.toNat ≤ 254)
    (file : String → Option (List Byte)) (path stage : String) (hpath : path ≠ "") (hst : stage = "online" ∨ stage = "all")
    (hc : readFile (file path) = .ok c) (s : Nat) (hs : s < c.serverCount.toNat) (q : Nat) (hq : q < 2 ^ 32)
    (i : Node) (n0 n : PNet Node Obs Unit) (cap : Node × Node → Nat)
    (hp : n0.proc i = w.run Prod.mk file (clientFlags path stage s q)) (h0 : n0.seen i = []) (hn : PNet.Reach cap n0 n)
    (asked : List Nat) (hasked : asked = (List.range q).map fun j => (w.clientRand s).row j % c.dbSize.toNat)
    (db : Database) (hdb : Database.new c.dbSize.toNat = .ok db) :
    wants (n.seen i) <+: asked ∧ (results (n.seen i)).length ≤ (wants (n.seen i)).length ∧
    (results (n.seen i)).dropLast.map Except.ok <+: asked.map db.lookup ∧
    (n.Returned i () → wants (n.seen i) = asked ∧ (results (n.seen i)).map Except.ok = asked.map db.lookup) := by
  rw [run_many h hpath hst hc hs hq] at hp
  have e : (List.range q).map ((gridOf w c d (fun _ => q)).wanted s) = asked := by
    rw [hasked]
    exact List.map_congr_left fun j _ => grid_wanted h (fun _ => q) s j
  obtain ⟨a1, a2, a3, a4⟩ := C57_client_never_wrong_loops_parallel _ (grid_configured h hS (fun _ => q)) s hq (stage == "all") true i n0 n cap hp h0 hn db hdb
  change wants (n.seen i) <+: (List.range q).map ((gridOf w c d (fun _ => q)).wanted s) at a1
  change (results (n.seen i)).dropLast.map Except.ok <+: ((List.range q).map ((gridOf w c d (fun _ => q)).wanted s)).map db.lookup at a3
  rw [e] at a1 a3
  refine ⟨a1, a2, a3, fun hr => ?_⟩
  obtain ⟨b1, b2⟩ := a4 hr rfl
  have b1' : wants (n.seen i) = asked := b1.trans e
  exact ⟨b1', by rw [b2, b1']⟩

/-- **C56.** A client started from the command line never runs into undefined behaviour,
whatever the other processes do: if it stops abnormally, it is at an assertion. -/
theorem C56_client_one_server (w : World box) (hw : w.Sane) (c : Config) (d : Dist) (h : Usable w c d) (hS : c.serverCount.toNat = 1)
    (file : String → Option (List Byte)) (path stage : String) (hpath : path ≠ "") (hst : stage = "online" ∨ stage = "all")
    (hc : readFile (file path) = .ok c) (q : Nat) (hq : q < 2 ^ 32)
    (i : Nat) (n0 n : PNet Nat Obs Unit) (cap : Nat × Nat → Nat)
    (hp : n0.proc i = w.run (fun l _ => l) file (clientFlags path stage 0 q)) (h0 : n0.seen i = []) (hn : PNet.Reach cap n0 n)
    (e : Fault) (he : n.proc i = .fault e) : e = .assertFail := by
  rw [run_one h hS hpath hst hc hq] at hp
  exact C56_client_loops _ (chain_configured hw h q) hq (stage == "all") true i n0 n cap hp h0 hn e he

/-- **C56.** The same for client `s` of a deployment with 2 to 254 servers per party. -/
theorem C56_client_many_servers (w : World box) (c : Config) (d : Dist) (h : Usable w c d)
    (hS : 2 ≤ c.serverCount.toNat ∧ c.serverCount.toNat ≤ 254)
    (file : String → Option (List Byte)) (path stage : String) (hpath : path ≠ "") (hst : stage = "online" ∨ stage = "all")
    (hc : readFile (file path) = .ok c) (s : Nat) (hs : s < c.serverCount.toNat) (q : Nat) (hq : q < 2 ^ 32)
    (i : Node) (n0 n : PNet Node Obs Unit) (cap : Node × Node → Nat)
    (hp : n0.proc i = w.run Prod.mk file (clientFlags path stage s q)) (h0 : n0.seen i = []) (hn : PNet.Reach cap n0 n)
    (e : Fault) (he : n.proc i = .fault e) : e = .assertFail := by
  rw [run_many h hpath hst hc hs hq] at hp
  exact C56_client_loops_parallel _ (grid_configured h hS (fun _ => q)) s hq (stage == "all") true i n0 n cap hp h0 hn e he

private theorem proc_updated {ι : Type} [DecidableEq ι] (other : ι → PProg ι Unit) (i : ι) (p : PProg ι Unit) :
    (PNet.start (Function.update other i p)).proc i = p ∧ (PNet.start (Function.update other i p)).seen i = [] :=
  ⟨Function.update_self .., rfl⟩

private theorem proc_client (w : World box) (file : String → Option (List Byte)) (path stage : String) (P q : Nat) :
    (PNet.start (launch w file path stage P q)).proc 0 = w.run (fun l _ => l) file (clientFlags path stage 0 q) ∧
    (PNet.start (launch w file path stage P q)).seen 0 = [] :=
  ⟨by show launch w file path stage P q 0 = _; rw [launch, if_pos rfl], rfl⟩

namespace Example

/-- One server per party and ten queries, both stages, among the processes it should run
with: some run ends with the client returning, so that all its results are right. -/
example : ∃ (cap : Nat × Nat → Nat) (n : PNet Nat Obs Unit) (db : Database),
    PNet.Reach cap (PNet.start (launch (privateWorld false) (fun _ => some (privateFile 1)) "f" "all" 3 10)) n ∧
    n.Returned 0 () ∧ Database.new 5 = .ok db ∧
    wants (n.seen 0) = ((List.range 10).map fun j => ((privateWorld false).clientRand 0).row j % 5) ∧
    (results (n.seen 0)).map Except.ok = ((List.range 10).map fun j => ((privateWorld false).clientRand 0).row j % 5).map db.lookup := by
  obtain ⟨d, N, hu, hN, hN2, hf, e1, e2, e3, hn⟩ := private_samples 1 (Or.inl rfl)
  have hq : 10 + ((privateConfig 1).partyCount.toNat - 1) * ((privateConfig 1).dbSize.toNat * N) < 2 ^ 32 := by
    rw [e1, e3]; omega
  have ha := C61_one_server (privateWorld false) (privateWorld_sane false) (privateConfig 1) d hu e2
    (fun _ => some (privateFile 1)) "f" "all" (by decide) (.inr rfl) hf N hN 10 hq
  obtain ⟨h1, h2⟩ := ha (fun _ => 1) (fun _ _ _ => Nat.one_pos)
  obtain ⟨n, hn1, hstuck⟩ := PNet.exists_end h2
  have hret := (((h1 n hn1).2.1 (fun _ _ _ => le_rfl)).resolve_left hstuck).1
  obtain ⟨db, hdb⟩ : ∃ db, Database.new (privateConfig 1).dbSize.toNat = .ok db := by rw [e3]; exact ⟨_, rfl⟩
  obtain ⟨-, -, -, k⟩ := C57_one_server (privateWorld false) (privateWorld_sane false) (privateConfig 1) d hu e2
    (fun _ => some (privateFile 1)) "f" "all" (by decide) (.inr rfl) hf 10 (by norm_num) 0
    (PNet.start (launch (privateWorld false) (fun _ => some (privateFile 1)) "f" "all" (privateConfig 1).partyCount.toNat 10)) n (fun _ => 1)
    (proc_client ..).1 (proc_client ..).2 hn1 _ rfl db hdb
  obtain ⟨k1, k2⟩ := k (hret 0)
  rw [e3] at k1 k2 hdb
  rw [e1] at hn1
  exact ⟨_, n, db, hn1, hret 0, hdb, k1, k2⟩

/-- Two servers per party, client 1 with ten queries, among any other processes. -/
example (other : Node → PProg Node Unit) (cap : Node × Node → Nat) (n : PNet Node Obs Unit)
    (hn : PNet.Reach cap (PNet.start (Function.update other (0, 1)
      ((privateWorld false).run Prod.mk (fun _ => some (privateFile 2)) (clientFlags "f" "all" 1 10)))) n) :
    wants (n.seen (0, 1)) <+: ((List.range 10).map fun j => ((privateWorld false).clientRand 1).row j % 5) ∧
    ∀ e, n.proc (0, 1) = .fault e → e = .assertFail := by
  obtain ⟨d, N, hu, hN, hN2, hf, e1, e2, e3, -⟩ := private_samples 2 (Or.inr rfl)
  obtain ⟨db, hdb⟩ : ∃ db, Database.new (privateConfig 2).dbSize.toNat = .ok db := by rw [e3]; exact ⟨_, rfl⟩
  have k := (C57_many_servers (privateWorld false) (privateConfig 2) d hu (by omega)
    (fun _ => some (privateFile 2)) "f" "all" (by decide) (.inr rfl) hf 1 (by omega) 10 (by norm_num) (0, 1) (PNet.start (Function.update other (0, 1)
      ((privateWorld false).run Prod.mk (fun _ => some (privateFile 2)) (clientFlags "f" "all" 1 10)))) n cap
    (proc_updated ..).1 (proc_updated ..).2 hn _ rfl db hdb).1
  rw [e3] at k
  exact ⟨k, C56_client_many_servers (privateWorld false) (privateConfig 2) d hu (by omega)
    (fun _ => some (privateFile 2)) "f" "all" (by decide) (.inr rfl) hf 1 (by omega) 10 (by norm_num) (0, 1) (PNet.start (Function.update other (0, 1)
      ((privateWorld false).run Prod.mk (fun _ => some (privateFile 2)) (clientFlags "f" "all" 1 10)))) n cap
    (proc_updated ..).1 (proc_updated ..).2 hn⟩

/-- One server per party, among any other processes. -/
example (other : Nat → PProg Nat Unit) (cap : Nat × Nat → Nat) (n : PNet Nat Obs Unit)
    (hn : PNet.Reach cap (PNet.start (Function.update other 0
      ((privateWorld false).run (fun l _ => l) (fun _ => some (privateFile 1)) (clientFlags "f" "all" 0 10)))) n) :
    ∀ e, n.proc 0 = .fault e → e = .assertFail := by
  obtain ⟨d, N, hu, hN, hN2, hf, e1, e2, e3, -⟩ := private_samples 1 (Or.inl rfl)
  exact C56_client_one_server (privateWorld false) (privateWorld_sane false) (privateConfig 1) d hu e2
    (fun _ => some (privateFile 1)) "f" "all" (by decide) (.inr rfl) hf 10 (by norm_num) 0 (PNet.start (Function.update other 0
      ((privateWorld false).run (fun l _ => l) (fun _ => some (privateFile 1)) (clientFlags "f" "all" 0 10)))) n cap
    (proc_updated ..).1 (proc_updated ..).2 hn

end Example
end DPPIR.Props
