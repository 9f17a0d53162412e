import Verif.Proofs.Feeding
import Verif.Props.HostileGrid

/-!
# C56 fails for servers of parallel parties and backends
-/

namespace DPPIR.Props
open DPPIR Onion Spec Protocol

/-- A network in which process `i` runs `p` and the other processes have sent `input` to it. -/
def besieged (i : Node) (p : PProg Node Unit) (input : Node → List Byte) : PNet Node Obs Unit where
  proc := Function.update (fun _ => .done ()) i p
  chan := fun c => if c.2 = i then input c.1 else []
  seen := fun _ => []

/-- Whether a fed process ended with undefined behaviour, having read everything from the
first of the given processes. -/
def diesHaving (x : Option (List Obs × Except Fault Unit × (Node → List Byte))) (j : Node) : Bool :=
  match x with
  | some (_, .error .ub, l) => (l j).isEmpty
  | _ => false

theorem besieged_proc (i : Node) (p : PProg Node Unit) (input : Node → List Byte) : (besieged i p input).proc i = p := by
  simp only [besieged, Function.update_self]

theorem besieged_dies {i : Node} {p : PProg Node Unit} {input : Node → List Byte} {j : Node}
    (h : diesHaving (PProc.feed i input p) j = true) :
    ∃ (n0 n : PNet Node Obs Unit) (cap : Node × Node → Nat) (heard : Node → List Byte), n0.proc i = p ∧ n0.seen i = [] ∧
      PNet.Hears cap i n0 n heard ∧ n.proc i = .fault .ub ∧ heard j = input j := by
  cases hf : PProc.feed i input p with
  | none => rw [hf] at h; cases h
  | some x =>
    obtain ⟨t, r, l⟩ := x
    rw [hf] at h
    match r, h with
    | .error .ub, h =>
      obtain ⟨N, hN⟩ := PProc.feed_hears i p input (besieged i p input) t _ l hf (besieged_proc i p input) (fun j => if_pos rfl)
      obtain ⟨n, L, h1, h2, -, h4⟩ := hN (fun _ => N) (fun _ => le_refl _) _ _ .refl
      refine ⟨_, n, _, L, besieged_proc i p input, rfl, h1, h2, ?_⟩
      have := h4 j
      rw [List.isEmpty_iff.1 h, List.append_nil, List.nil_append] at this
      exact this

/-- What reaches server 0 of the first party: its client sends one query, its sibling
announces that it has no messages, and then that one of them is noise for this server. -/
def wrongNoise : Node → List Byte := fun j =>
  if j = (0, 0) then [1, 0, 0, 0] ++ List.replicate 12 0
  else if j = (1, 1) then [0, 0, 0, 0] ++ [1, 0, 0, 0] ++ [1, 1, 1]
  else if j = (2, 0) then [1] ++ List.replicate 52 1 else []

/-- **C56 fails for parties with several servers.** A sibling that announces more noise
than messages leads to undefined behaviour, however small the numbers are. -/
theorem C56_violated_party_parallel : exampleGrid.Configured ∧
    ∃ (n0 n : PNet Node Obs Unit) (cap : Node × Node → Nat) (heard : Node → List Byte),
      n0.proc (1, 0) = exampleGrid.party 0 0 false true ∧ n0.seen (1, 0) = [] ∧ PNet.Hears cap (1, 0) n0 n heard ∧
      n.proc (1, 0) = .fault .ub ∧ numberAt 0 (heard (1, 1)) = 0 ∧ noiseTold false 0 (heard (1, 1)) = 1 := by
  have h := exampleGrid_valid
  refine ⟨⟨h.parties, h.servers, ⟨by decide, h.rows.2⟩, h.keys, h.pairs⟩, ?_⟩
  obtain ⟨n0, n, cap, heard, h1, h2, h3, h4, h5⟩ := besieged_dies (i := (1, 0)) (p := exampleGrid.party 0 0 false true)
    (input := wrongNoise) (j := (1, 1)) (by decide +kernel)
  refine ⟨n0, n, cap, heard, h1, h2, h3, h4, ?_⟩
  rw [h5]
  decide

/-- What reaches server 0 of the backend: one query, for a key that is too large. -/
def wrongKey : Node → List Byte := fun j => if j = (2, 0) then [1, 0, 0, 0] ++ List.replicate 12 9 else []

/-- **C56 fails for backends with several servers.** One query for a key outside of the
database is undefined behaviour. -/
theorem C56_violated_backend_parallel : exampleGrid.Configured ∧
    ∃ (n0 n : PNet Node Obs Unit) (cap : Node × Node → Nat) (heard : Node → List Byte),
      n0.proc (3, 0) = exampleGrid.backend 0 false true ∧ n0.seen (3, 0) = [] ∧ PNet.Hears cap (3, 0) n0 n heard ∧
      n.proc (3, 0) = .fault .ub ∧ heard (2, 0) = [1, 0, 0, 0] ++ List.replicate 12 9 ∧ OutOfRange exampleGrid.rows (n.seen (3, 0)) := by
  have h := exampleGrid_valid
  have hc : exampleGrid.Configured := ⟨h.parties, h.servers, ⟨by decide, h.rows.2⟩, h.keys, h.pairs⟩
  obtain ⟨n0, n, cap, heard, h1, h2, h3, h4, h5⟩ := besieged_dies (i := (3, 0)) (p := exampleGrid.backend 0 false true)
    (input := wrongKey) (j := (2, 0)) (by decide +kernel)
  refine ⟨hc, n0, n, cap, heard, h1, h2, h3, h4, h5, ?_⟩
  rcases C56_backend_parallel_partial exampleGrid hc 0 (by decide) false true _ n0 n cap heard h1 h2 h3 _ h4 with e | e | e | ⟨e, -⟩
  · cases e
  · cases e
  · exact e
  · cases e

end DPPIR.Props
