import Verif.Proofs.InstallGrid
import Verif.Props.HostileGridBad
import Verif.Props.Install

/-!
# Bad ciphers are never installed, several servers per party

As in `Install`, the server is process `i` of a network whose other processes, siblings
included, and queues are arbitrary.
-/

namespace DPPIR.Props
open DPPIR Proc Onion Spec Protocol PNet

variable {box : SealedBox}

theorem pnet_of_safe {pk : box.PKey} {sk : box.SKey} {F : List Obs → Fault → Prop} {i : Node} {n0 n : PNet Node Obs Unit}
    {cap : Node × Node → Nat} (hp : PProc.Safe (Justified pk sk) F (n0.proc i) (fun _ h => AllIn h) []) (h0 : n0.seen i = [])
    (hn : Reach cap n0 n) :
    OnlyOpened pk sk (n.seen i) ∧
      ∀ m ∈ ciphersRead (n.seen i), box.openMsg pk sk m = none →
        ¬ n.Returned i () ∧ (stores (n.seen i)).length < (ciphersRead (n.seen i)).length ∧ ∀ e, n.proc i = .fault e → F (n.seen i) e := by
  obtain ⟨h1, t, h2, h3⟩ := PProc.Safe.net (by rw [h0]; exact hp) hn
  rw [h0, List.nil_append] at h2
  have hj : ∀ a o b, n.seen i = a ++ o :: b → Justified pk sk a o := by
    rw [h2]
    simpa [h0] using h3
  refine ⟨onlyOpened hj, ?_⟩
  rintro m hm hbad
  obtain ⟨j, hlt, rfl⟩ := List.mem_iff_getElem.1 hm
  have hle := justified_bad hj (List.getElem?_eq_getElem hlt) hbad
  refine ⟨?_, by omega, ?_⟩
  · intro hf
    rw [show n.proc i = .done () from hf] at h1
    have : (stores (n.seen i)).length = (ciphersRead (n.seen i)).length := h1
    omega
  · intro e he
    rw [he] at h1
    exact h1

/-- **C09.** A server of a party with several servers: what it installs comes from ciphers
that opened; after receiving one that does not open it sends nothing to the previous or
next party any more and never returns.  (Abnormal ends due to its siblings are the subject
of `C56`.) -/
theorem C09_party_parallel (g : Grid box) (k s : Nat) (offline online : Bool) (i : Node) (n0 n : PNet Node Obs Unit)
    (cap : Node × Node → Nat) (hp : n0.proc i = g.party k s offline online) (h0 : n0.seen i = []) (hn : Reach cap n0 n) :
    OnlyOpened (g.pkey k) (g.skey k) (n.seen i) ∧
      ((∃ m ∈ ciphersRead (n.seen i), box.openMsg (g.pkey k) (g.skey k) m = none) → ¬ n.Returned i ()) := by
  obtain ⟨h1, h2⟩ := pnet_of_safe (by rw [hp]; exact grid_party_safe g k s offline online) h0 hn
  exact ⟨h1, fun ⟨m, hm, hbad⟩ => (h2 m hm hbad).1⟩

/-- **C09.** A server of a backend with several servers.  Here the only way to stop is the
failed assertion. -/
theorem C09_backend_parallel (g : Grid box) (s : Nat) (offline online : Bool) (i : Node) (n0 n : PNet Node Obs Unit)
    (cap : Node × Node → Nat) (hp : n0.proc i = g.backend s offline online) (h0 : n0.seen i = []) (hn : Reach cap n0 n) :
    OnlyOpened (g.pkey (g.parties - 1)) (g.skey (g.parties - 1)) (n.seen i) ∧
      ((∃ m ∈ ciphersRead (n.seen i), box.openMsg (g.pkey (g.parties - 1)) (g.skey (g.parties - 1)) m = none) →
        ¬ n.Returned i () ∧ ∀ e, n.proc i = .fault e → e = .assertFail) := by
  obtain ⟨h1, h2⟩ := pnet_of_safe (by rw [hp]; exact grid_backend_safe g s offline online) h0 hn
  refine ⟨h1, fun ⟨m, hm, hbad⟩ => ?_⟩
  obtain ⟨a, b, c⟩ := h2 m hm hbad
  exact ⟨a, fun e he => c e he (by omega)⟩

/-- As `summary`, for programs that poll. -/
def psummary (pk : toyBox.PKey) (sk : toyBox.SKey) (x : List Obs × Except Fault Unit × (Node → List Byte)) : Bool × Nat × List Bool :=
  summary pk sk (x.1, x.2.1)

/-- Non-vacuity of C09 with several servers: a server of the backend that expects two
ciphers, gets one that opens and one with the header of another key, installs the first
and stops at the second. -/
example : (PProc.feed (3, 0) (fun j => if j = (2, 0) then
      [2, 0, 0, 0] ++ List.replicate 48 3 ++ List.replicate 76 1 ++ List.replicate 124 0 else []) (exampleGrid.backend 0 true true)).map
    (psummary (exampleGrid.pkey 2) (exampleGrid.skey 2)) = some (true, 1, [true, false]) := by
  decide +kernel

/-- The same for a server of a party, three ciphers of which the second does not open; its
sibling has none and announces no noise for it. -/
example : (PProc.feed (2, 0) (fun j => if j = (1, 0) then
      [3, 0, 0, 0] ++ List.replicate 48 2 ++ List.replicate 200 1 ++ List.replicate 248 0 ++ List.replicate 248 2
      else if j = (2, 1) then [0, 0, 0, 0] ++ [1, 1] ++ [0, 0, 0, 0] else if j = (3, 0) then [1] else []) (exampleGrid.party 1 0 true true)).map
    (psummary (exampleGrid.pkey 1) (exampleGrid.skey 1)) = some (true, 1, [true, false, true]) := by
  decide +kernel

end DPPIR.Props
