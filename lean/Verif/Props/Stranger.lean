import Verif.Proofs.Stranger
import Verif.Props.Connect

/-!
# C65: connection set-up when others connect as well
-/

namespace DPPIR.Props
open DPPIR.Config DPPIR.Connect
open DPPIR.Protocol (Node)

variable {H : Type} [DecidableEq H]

/-- **C65**, the part that holds. Whatever the other processes do, inside or outside the
deployment (occupy ports, connect, declare ids), a process of the deployment stops during
set-up only at an assertion, and if it comes up, it has made the connections to the next
party and the higher siblings itself. -/
theorem C65_among_strangers_partial (h : Hosts H) (c : Config) (hc : Consistent c) (hP : 0 < c.partyCount.toNat)
    (others : Node → CProc Node (Addr H) (Wiring Node)) (i : Node) (hi : i.1 ≤ c.partyCount.toNat) (hs : i.2 < c.serverCount.toNat)
    (n : CNet Node (Addr H) (Wiring Node)) (hr : CNet.Reach (among h c others i) n) :
    (∀ e, n.proc i = .fault e → e = .assertFail) ∧ ∀ w, n.Returned i w → SelfWired c i w := by
  have h0 : ((among h c others i).proc i).All i (· = Fault.assertFail) (SelfWired c i) := by
    show (Function.update others i (setup h c i) i).All _ _ _
    rw [Function.update_self]
    refine setup_all (fun e => e = Fault.assertFail) rfl hP ?_ hi hs
    intro k t hk ht
    obtain ⟨v, p, h1, h2⟩ := config_complete hc k t hk ht
    exact ⟨_, _, h1, h2⟩
  have h1 := hr.all h0
  refine ⟨fun e he => ?_, fun w hw => ?_⟩
  · rw [he] at h1; exact h1
  · rw [CNet.Returned] at hw
    rw [hw] at h1; exact h1

/-- A process that connects to an address and is content. -/
def stranger (a : Addr H) : CProc Node (Addr H) (Wiring Node) := do
  let x ← connectTo a
  return { next := some x }

/-- A process that connects to an address and declares an id. -/
def impostor (a : Addr H) (id : Byte) : CProc Node (Addr H) (Wiring Node) := do
  let x ← connectTo a
  CProc.send x id (CProc.done { next := some x })

/-- **C65** fails. Any process that can reach the port of a server, and connects first,
takes the place of the client or of the previous party: whatever happens afterwards, the
server serves that process. -/
theorem C65_violated_first_come (h : Hosts H) (c : Config) (k s : Nat) (v : ServerConfig) (hk : k < c.partyCount.toNat)
    (hs : s < c.serverCount.toNat) (hv : At c k s v) (z : Node) (hz : c.serverCount.toNat ≤ z.2) :
    ∃ n, CNet.Reach (CNet.start (Function.update (setup h c) z (stranger (h.here (k + 1, s) v.port)))) n ∧
      ∀ n', CNet.Reach n n' → ∀ w, n'.Returned (k + 1, s) w → w.back = some ⟨(z, 0), true⟩ := by
  obtain ⟨f, e, hf⟩ := setup_back (h := h) hk hs hv
  have hne : (k + 1, s) ≠ z := by
    rintro rfl
    simp only at hz
    omega
  let a := h.here (k + 1, s) v.port
  let n0 : CNet Node (Addr H) (Wiring Node) := CNet.start (Function.update (setup h c) z (stranger a))
  have p0 : n0.proc (k + 1, s) = .listen a 1 (.accept a f) := by
    show Function.update (setup h c) z _ (k + 1, s) = _
    rw [Function.update_of_ne hne, e]
  have s1 := CNet.Step.listen p0 (show n0.listener a = none from rfl)
  have p1 : (Function.update n0.proc (k + 1, s) (.accept a f)) z = .connect a (fun x => .done { next := some x }) := by
    rw [Function.update_of_ne hne.symm]
    show Function.update (setup h c) z _ z = _
    rw [Function.update_self]
    rfl
  have s2 := CNet.Step.connect (i := z) (n := ⟨Function.update n0.proc (k + 1, s) (.accept a f), Function.update n0.listener a (some ((k + 1, s), 1)), n0.pending, n0.dials, n0.chan⟩)
    (j := (k + 1, s)) (b := 1) p1 (Function.update_self ..) (show 0 < 1 by omega)
  refine ⟨_, .step (.step (.step .refl s1) s2) (CNet.Step.accept (i := (k + 1, s)) (a := a) (k := f) (c := (z, 0)) ?_ ?_), ?_⟩
  · show Function.update (Function.update n0.proc (k + 1, s) (.accept a f)) z _ (k + 1, s) = _
    rw [Function.update_of_ne hne, Function.update_self]
  · show (z, 0) ∈ Function.update n0.pending a _ a
    rw [Function.update_self]
    exact List.mem_append_right _ List.mem_cons_self
  · intro n' hr w hw
    have h0 := hr.all (i := (k + 1, s)) (F := fun _ => True) (D := fun w => w.back = some ⟨(z, 0), true⟩) (by
      simp only [Function.update_self]
      exact hf _)
    rw [CNet.Returned] at hw
    rw [hw] at h0
    exact h0

/-- One machine. -/
def oneHost : Hosts Unit := ⟨fun _ => (), fun _ _ => ()⟩

/-- A deployment of one party with one server. -/
def single : Config :=
  { dbSize := 10, epsilon := 0, delta := 0, partyCount := 1, serverCount := 1
    parties := [⟨0, [⟨0, 7000, 7100, []⟩], fun _ => 0, fun _ => 0⟩] }

/-- A deployment of one party with three servers. -/
def three : Config :=
  { dbSize := 10, epsilon := 0, delta := 0, partyCount := 1, serverCount := 3
    parties := [⟨0, [⟨0, 7000, 7100, []⟩, ⟨1, 7001, 7101, []⟩, ⟨2, 7002, 7102, []⟩], fun _ => 0, fun _ => 0⟩] }

/-- **C65** fails. A stranger connects before the client does. All processes come up, but
the server holds the stranger's connection, and the client one that is never accepted. -/
theorem C65_violated_client_unserved :
    ∃ n, CNet.Reach (CNet.start (Function.update (setup oneHost single) (0, 1) (stranger ((), 7000)))) n ∧
      (∀ i, ∃ w, n.Returned i w) ∧
      (∃ w, n.Returned (1, 0) w ∧ w.back = some ⟨((0, 1), 0), true⟩) ∧
      (∃ w, n.Returned (0, 0) w ∧ w.next = some ⟨((0, 0), 0), false⟩) ∧
      n.pending ((), 7000) = [((0, 0), 0)] := by
  refine ⟨_, CNet.exec_reach [(1, 0), (0, 1), (1, 0), (0, 0)] _, ?_, ⟨_, rfl, rfl⟩, ⟨_, rfl, rfl⟩, rfl⟩
  rintro ⟨k, s⟩
  by_cases hm : (k, s) ∈ [(1, 0), (0, 1), (1, 0), ((0, 0) : Node)]
  · simp only [List.mem_cons, List.not_mem_nil, or_false] at hm
    rcases hm with h | h | h | h <;> rw [h] <;> exact ⟨_, rfl⟩
  · refine ⟨{}, ?_⟩
    rw [CNet.Returned, CNet.exec_other _ _ hm]
    simp only [List.mem_cons, List.not_mem_nil, or_false, not_or, Prod.mk.injEq] at hm
    show Function.update (setup oneHost single) (0, 1) _ (k, s) = _
    rw [Function.update_of_ne (by simp only [ne_eq, Prod.mk.injEq]; exact hm.2.1)]
    have e1 : single.serverCount.toNat = 1 := rfl
    have e2 : single.partyCount.toNat = 1 := rfl
    simp only [setup, e1, e2]
    split
    · rw [if_neg (by omega), if_neg (by omega), if_neg (by omega)]
    · rfl

/-- A run of this deployment with a stranger that connects to the port at which server 2
expects its siblings, before server 0 does. -/
def threeRun : CNet Node (Addr Unit) (Wiring Node) :=
  CNet.exec (CNet.start (Function.update (setup oneHost three) (0, 3) (impostor ((), 7102) 1)))
    [(1, 0), (1, 1), (1, 2), (0, 0), (0, 1), (0, 2), (1, 0), (1, 1), (1, 2), (1, 1), (1, 2), (0, 3), (1, 2), (0, 3), (1, 0),
      (1, 0), (1, 1), (1, 1), (1, 1), (1, 1), (1, 2), (1, 2), (1, 2), (1, 0), (1, 0), (1, 0)]

/-- **C65** fails. A stranger declares the id of server 1 to server 2. All processes come
up, but server 2 has no connection with server 0. -/
theorem C65_violated_sibling_missing :
    ∃ n, CNet.Reach (CNet.start (Function.update (setup oneHost three) (0, 3) (impostor ((), 7102) 1))) n ∧
      (∀ i, ∃ w, n.Returned i w) ∧
      (∃ w, n.Returned (1, 2) w ∧ w.sib 0 = none) ∧
      (∃ w, n.Returned (1, 0) w ∧ w.sib 2 = some ⟨((1, 0), 1), false⟩) ∧
      n.pending ((), 7102) = [((1, 0), 1)] := by
  refine ⟨threeRun, CNet.exec_reach _ _, ?_, ?_, ?_, by decide +kernel⟩
  rotate_left
  · obtain ⟨w, h1, h2⟩ := CNet.returned_of (n := threeRun) (P := fun w => w.sib 0 = none) (i := (1, 2)) (by decide +kernel)
    exact ⟨w, h1, of_decide_eq_true h2⟩
  · obtain ⟨w, h1, h2⟩ := CNet.returned_of (n := threeRun) (P := fun w => w.sib 2 = some ⟨((1, 0), 1), false⟩) (i := (1, 0))
      (by decide +kernel)
    exact ⟨w, h1, of_decide_eq_true h2⟩
  rintro ⟨k, s⟩
  by_cases hm : (k, s) ∈ [(1, 0), (1, 1), (1, 2), (0, 0), (0, 1), (0, 2), ((0, 3) : Node)]
  · simp only [List.mem_cons, List.not_mem_nil, or_false] at hm
    rcases hm with h | h | h | h | h | h | h <;> rw [h]
    all_goals
      refine (CNet.returned_of (n := threeRun) (P := fun _ => true) ?_).imp fun w h => h.1
      decide +kernel
  · refine ⟨{}, ?_⟩
    simp only [List.mem_cons, List.not_mem_nil, or_false, not_or] at hm
    rw [CNet.Returned, threeRun, CNet.exec_other _ _ (by simp only [List.mem_cons, List.not_mem_nil, or_false, not_or]; tauto)]
    show Function.update (setup oneHost three) (0, 3) _ (k, s) = _
    rw [Function.update_of_ne hm.2.2.2.2.2.2]
    simp only [Prod.mk.injEq] at hm
    have e1 : three.serverCount.toNat = 3 := rfl
    have e2 : three.partyCount.toNat = 1 := rfl
    simp only [setup, e1, e2]
    split
    · rw [if_neg (by omega), if_neg (by omega), if_neg (by omega)]
    · rfl

/-- The hypotheses of the theorem above are met by server 2 in that run: it comes up. -/
example : ∃ n, CNet.Reach (among oneHost three (Function.update (setup oneHost three) (0, 3) (impostor ((), 7102) 1)) (1, 2)) n ∧
    ∃ w, n.Returned (1, 2) w ∧ SelfWired three (1, 2) w := by
  have e : among oneHost three (Function.update (setup oneHost three) (0, 3) (impostor ((), 7102) 1)) (1, 2)
      = CNet.start (Function.update (setup oneHost three) (0, 3) (impostor ((), 7102) 1)) := by
    rw [among, Function.update_eq_self_iff.mpr]
    rw [Function.update_of_ne (by decide)]
  obtain ⟨n, hr, hall, -⟩ := C65_violated_sibling_missing
  obtain ⟨w, hw⟩ := hall (1, 2)
  rw [← e] at hr
  exact ⟨n, hr, w, hw, (C65_among_strangers_partial oneHost three ⟨rfl, by decide⟩ (by decide) _ (1, 2) (by decide) (by decide) n hr).2 w hw⟩

/-- A process of the deployment that stops: someone else listens at its port. -/
example : ∃ n, CNet.Reach (among oneHost single (fun _ => .listen ((), 7000) 1 (.done {})) (1, 0)) n ∧
    n.proc (1, 0) = .fault .assertFail := by
  refine ⟨_, .step (.step .refl (CNet.Step.listen (i := (0, 1)) (a := ((), 7000)) (b := 1) (k := .done {}) ?_ rfl))
    (CNet.Step.inUse (i := (1, 0)) (a := ((), 7000)) (b := 1) rfl ?_), ?_⟩
  · rfl
  · simp [Function.update_self]
  · simp only [Function.update_self]

end DPPIR.Props
