import Verif.Props.ForeignLoops
import Verif.Props.StartHiding

/-!
# C76 for deployments started from the command line
-/

namespace DPPIR.Props
open DPPIR.Config DPPIR.Noise DPPIR.Protocol DPPIR.Onion DPPIR.Main DPPIR.Spec

variable {box : SealedBox}

/-- **C76** is false of a deployment that is started from the command line with a usable
configuration file for one server per party.  Let the client alone be started with another
file, which differs in the number of rows, so that one of its queries is for a row that the
backend does not have.  Then, whatever the schedule and the capacities: the backend never
returns; no other process stops abnormally; and a run goes on, but not forever, until the
backend has run into undefined behaviour, by a look-up outside of its database. -/
theorem C76_violated_one_server (w : World box) (hw : w.Sane) (c : Config) (d : Dist) (h : Usable w c d) (hS : c.serverCount.toNat = 1)
    (file : String → Option (List Byte)) (path path' stage : String) (hpath : path ≠ "") (hpath' : path' ≠ "")
    (hst : stage = "online" ∨ stage = "all") (hc : readFile (file path) = .ok c)
    (rows : BitVec 32) (hrows : c.dbSize.toNat ≤ rows.toNat ∧ rows.toNat ≤ 2 ^ 31 - 1) (hc' : readFile (file path') = .ok { c with dbSize := rows })
    (N : Nat) (hN : w.SamplesUpTo d N) (q : Nat) (hq : q + (c.partyCount.toNat - 1) * (c.dbSize.toNat * N) < 2 ^ 32)
    (j : Nat) (hj : j < q) (hout : c.dbSize.toNat ≤ (w.clientRand 0).row j % rows.toNat)
    (cap : Nat × Nat → Nat) (hcap : ∀ x, 0 < cap x) (start : PNet Nat Obs Unit)
    (hstart : start = PNet.start (Function.update (launch w file path stage c.partyCount.toNat q) 0
      (w.run (fun l _ => l) file (clientFlags path' stage 0 q)))) :
    (∀ n, PNet.Reach cap start n →
      ¬ n.Returned c.partyCount.toNat () ∧ (∀ i, i ≠ c.partyCount.toNat → ¬ n.Faulted i) ∧
      (n.CanStep cap ∨ n.proc c.partyCount.toNat = .fault .ub) ∧
      (n.proc c.partyCount.toNat = .fault .ub → ∃ row ∈ lookups (n.seen c.partyCount.toNat), c.dbSize.toNat ≤ row)) ∧
    ∀ f : Nat → PNet Nat Obs Unit, f 0 = start → ¬ ∀ k, ∃ i, PNet.Step cap i (f k) (f (k + 1)) := by
  have h' : Usable w { c with dbSize := rows } d := ⟨h.parties, h.servers, ⟨Nat.le_trans h.rows.1 hrows.1, hrows.2⟩, h.pairs, h.noise⟩
  have e := congrFun (launch_eq w { c with dbSize := rows } d h' hN hS file path' stage hpath' hst hc' q (by omega)) 0
  have e : w.run (fun l _ => l) file (clientFlags path' stage 0 q) = (chainOf w { c with dbSize := rows } d q).clientLoops (stage == "all") true := by
    unfold launch Chain.progLoops at e
    rw [if_pos rfl, if_pos rfl] at e
    exact e
  rw [e, launch_eq w c d h hN hS file path stage hpath hst hc q (by omega)] at hstart
  have k := C76_violated_loops (chainOf w c d q) (chain_valid hw h hN hq) rows.toNat hrows.1 hrows.2 (stage == "all") j hj
    (by rw [← chain_wanted h' q j] at hout; exact hout) cap hcap
  rw [show (chainOf w c d q).netLoopsWithClient rows.toNat (stage == "all") true = start from hstart.symm] at k
  exact k

namespace Example

/-- The configuration of the example with one server per party, but with 1000 rows. -/
def biggerFile : List Byte := match serialize { privateConfig 1 with dbSize := 1000 } with
  | .ok data => data
  | .error _ => []

theorem bigger_read : readFile (some biggerFile) = .ok { privateConfig 1 with dbSize := 1000 } := by
  refine C32_round_trip { privateConfig 1 with dbSize := 1000 } ?_ _ ?_ (by decide +kernel)
  · show ∀ p ∈ (privateConfig 1).parties, ∀ s ∈ p.servers, (0 : Byte) ∉ s.ip
    decide +kernel
  · have h : (serialize { privateConfig 1 with dbSize := 1000 }).isOk = true := by decide +kernel
    show serialize _ = .ok biggerFile
    unfold biggerFile
    revert h
    cases serialize { privateConfig 1 with dbSize := 1000 }
    · intro h; cases h
    · intro _; rfl

/-- Five rows, and a client that is started with a file that says that there are 1000: its
second query is for row 7, and some run ends in undefined behaviour. -/
example : ∃ n, PNet.Reach (fun _ => 1) (PNet.start (Function.update
      (launch (privateWorld false) (fun p => some (if p = "f" then privateFile 1 else biggerFile)) "f" "all" 3 10) 0
      ((privateWorld false).run (fun l _ => l) (fun p => some (if p = "f" then privateFile 1 else biggerFile)) (clientFlags "g" "all" 0 10)))) n ∧
    n.proc 3 = .fault .ub := by
  obtain ⟨d, N, hu, hN, hN2, hf, e1, e2, e3, hn⟩ := private_samples 1 (Or.inl rfl)
  have hq : 10 + ((privateConfig 1).partyCount.toNat - 1) * ((privateConfig 1).dbSize.toNat * N) < 2 ^ 32 := by
    rw [e1, e3]; omega
  obtain ⟨h1, h2⟩ := C76_violated_one_server (privateWorld false) (privateWorld_sane false) (privateConfig 1) d hu e2
    (fun p => some (if p = "f" then privateFile 1 else biggerFile)) "f" "g" "all" (by decide) (by decide) (.inr rfl)
    (by rw [if_pos rfl]; exact hf) 1000 (by rw [e3]; decide) (by rw [if_neg (by decide)]; exact bigger_read) N hN 10 hq
    1 (by decide) (by rw [e3]; decide) (fun _ => 1) (fun _ => Nat.one_pos) _ rfl
  obtain ⟨n, hn1, hstuck⟩ := PNet.exists_end fun ⟨f, e, hf⟩ => h2 f e hf
  have k := (h1 n hn1).2.2.1.resolve_left hstuck
  rw [e1] at k hn1
  exact ⟨n, hn1, k⟩

end Example
end DPPIR.Props
