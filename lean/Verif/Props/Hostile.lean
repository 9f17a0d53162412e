import Verif.Proofs.HostileEnds
import Verif.Proofs.HostileClient
import Verif.Props.Install

/-!
# Processes among arbitrary peers

Each process is process `i` of a network whose other processes and queues are
arbitrary, so it may be sent any bytes at any time.
-/

namespace DPPIR.Props
open DPPIR Proc Onion Spec Protocol

variable {box : SealedBox}

/-- **C56, for parties.** A party stops by a failed assertion or an exception, unless a
number of queries it was told does not fit the counters, or it was sent a query with a
tag it has no secret for.
Missing: in these two cases it may run into undefined behaviour instead, see
`C56_violated_party`. -/
theorem C56_party_partial (c : Chain box) (h : c.Configured) (k : Nat) (hk : k + 1 < c.parties) (offline online : Bool)
    (i : Nat) (n0 n : Net Nat Obs) (cap : Nat × Nat → Nat) (s : List Nat)
    (hp : n0.proc i = c.party k offline online) (h0 : n0.seen i = []) (hn : n0.run cap s = some n)
    (e : Fault) (he : n.proc i = .fault e) :
    e = .assertFail ∨ e = .exception ∨ TooMany (c.noise k) (n.seen i) ∨ (offline = true ∧ UnknownTag (n.seen i)) := by
  obtain ⟨h1, -⟩ := Safe.net (Q := fun _ _ => True) s n0 n (by rw [h0, hp]; exact party_hostile h k hk offline online) hn
  rw [he] at h1
  exact h1

/-- **C56, for the backend.** The backend stops by a failed assertion or an exception,
unless it was sent a query with a tag it has no secret for, or looked up a key outside
of the database.
Missing: in these two cases it may run into undefined behaviour instead, see
`C56_violated_backend`. -/
theorem C56_backend_partial (c : Chain box) (h : c.Configured) (offline online : Bool)
    (i : Nat) (n0 n : Net Nat Obs) (cap : Nat × Nat → Nat) (s : List Nat)
    (hp : n0.proc i = c.backend offline online) (h0 : n0.seen i = []) (hn : n0.run cap s = some n)
    (e : Fault) (he : n.proc i = .fault e) :
    e = .assertFail ∨ e = .exception ∨ (offline = true ∧ UnknownTag (n.seen i)) ∨ OutOfRange c.rows (n.seen i) := by
  obtain ⟨h1, -⟩ := Safe.net (Q := fun _ _ => True) s n0 n (by rw [h0, hp]; exact backend_hostile h.parties.1 offline online) hn
  rw [he] at h1
  exact h1

/-- **C56, for the client.** The client stops by a failed assertion only. -/
theorem C56_client (c : Chain box) (h : c.Configured) (hc : c.count < 2 ^ 32) (offline online : Bool)
    (i : Nat) (n0 n : Net Nat Obs) (cap : Nat × Nat → Nat) (s : List Nat)
    (hp : n0.proc i = c.client offline online) (h0 : n0.seen i = []) (hn : n0.run cap s = some n)
    (e : Fault) (he : n.proc i = .fault e) : e = .assertFail := by
  obtain ⟨h1, -⟩ := Safe.net s n0 n (by rw [h0, hp]; exact client_hostile h hc offline online) hn
  rw [he] at h1
  exact h1

/-- How a fed process ended. -/
def outcome (x : List Obs × Except Fault Unit) : Option Fault := match x.2 with | .ok _ => none | .error e => some e

/-- **C56 fails for parties.** One query with a tag for which no secret was installed is
undefined behaviour. -/
theorem C56_violated_party : exampleChain.Configured ∧ ∃ input t, feed input (exampleChain.party 1 true true) = some (t, .error .ub) ∧
    ¬ TooMany (exampleChain.noise 1) t ∧ UnknownTag t := by
  have h := exampleChain_valid
  refine ⟨⟨h.parties, h.rows, h.keys, h.pairs, h.division⟩,
    [1, 0, 0, 0] ++ [1] ++ List.replicate 48 2 ++ List.replicate 200 1 ++ [1] ++ List.replicate 12 0, ?_⟩
  have h1 : (feed ([1, 0, 0, 0] ++ [1] ++ List.replicate 48 2 ++ List.replicate 200 1 ++ [1] ++ List.replicate 12 0)
      (exampleChain.party 1 true true)).map (fun x => (outcome x, countsRead x.1, (queriesRead x.1).map Query.tag,
        (stores x.1).map OfflineSecret.tag)) = some (some .ub, [1], [0], [72340172838076673]) := by decide +kernel
  cases hf : feed ([1, 0, 0, 0] ++ [1] ++ List.replicate 48 2 ++ List.replicate 200 1 ++ [1] ++ List.replicate 12 0)
      (exampleChain.party 1 true true) with
  | none => rw [hf] at h1; cases h1
  | some x =>
    obtain ⟨t, r⟩ := x
    rw [hf] at h1
    simp only [Option.map_some, Option.some.injEq, Prod.mk.injEq] at h1
    obtain ⟨h1, h2, h3, h4⟩ := h1
    cases r with
    | ok a => cases h1
    | error e =>
      obtain rfl := Option.some.inj h1
      refine ⟨t, rfl, ?_, ?_⟩
      · rintro ⟨n, hn, hle⟩
        rw [h2] at hn
        rw [List.mem_singleton.1 hn] at hle
        revert hle
        decide
      · cases hq : queriesRead t with
        | nil => rw [hq] at h3; cases h3
        | cons q l =>
          rw [hq, List.map_cons] at h3
          refine ⟨q, by rw [hq]; exact List.mem_cons_self, ?_⟩
          rw [h4, (List.cons.inj h3).1]
          decide

/-- **C56 fails for backends.** One query with a tag for which no secret was installed
is undefined behaviour; and so is one whose tally reconstructs to a key outside of the
database. -/
theorem C56_violated_backend : exampleChain.Configured ∧
    (∃ input t, feed input (exampleChain.backend true true) = some (t, .error .ub) ∧ UnknownTag t) ∧
    (∃ input t, feed input (exampleChain.backend false true) = some (t, .error .ub) ∧ OutOfRange exampleChain.rows t) := by
  have h := exampleChain_valid
  refine ⟨⟨h.parties, h.rows, h.keys, h.pairs, h.division⟩, ⟨[1, 0, 0, 0] ++ List.replicate 48 3 ++ List.replicate 76 1 ++ List.replicate 12 0, ?_⟩,
    ⟨[1, 0, 0, 0] ++ List.replicate 12 9, ?_⟩⟩
  · have h1 : (feed ([1, 0, 0, 0] ++ List.replicate 48 3 ++ List.replicate 76 1 ++ List.replicate 12 0)
        (exampleChain.backend true true)).map (fun x => (outcome x, (queriesRead x.1).map Query.tag,
          (stores x.1).map OfflineSecret.tag)) = some (some .ub, [0], [72340172838076673]) := by decide +kernel
    cases hf : feed ([1, 0, 0, 0] ++ List.replicate 48 3 ++ List.replicate 76 1 ++ List.replicate 12 0) (exampleChain.backend true true) with
    | none => rw [hf] at h1; cases h1
    | some x =>
      obtain ⟨t, r⟩ := x
      rw [hf] at h1
      simp only [Option.map_some, Option.some.injEq, Prod.mk.injEq] at h1
      obtain ⟨h1, h3, h4⟩ := h1
      cases r with
      | ok a => cases h1
      | error e =>
        obtain rfl := Option.some.inj h1
        refine ⟨t, rfl, ?_⟩
        cases hq : queriesRead t with
        | nil => rw [hq] at h3; cases h3
        | cons q l =>
          rw [hq, List.map_cons] at h3
          refine ⟨q, by rw [hq]; exact List.mem_cons_self, ?_⟩
          rw [h4, (List.cons.inj h3).1]
          decide
  · have h1 : (feed ([1, 0, 0, 0] ++ List.replicate 12 9) (exampleChain.backend false true)).map (fun x => (outcome x, match x.1.getLast? with
        | some (.lookup k) => k | _ => 0)) = some (some .ub, 151587081) := by decide +kernel
    cases hf : feed ([1, 0, 0, 0] ++ List.replicate 12 9) (exampleChain.backend false true) with
    | none => rw [hf] at h1; cases h1
    | some x =>
      obtain ⟨t, r⟩ := x
      rw [hf] at h1
      simp only [Option.map_some, Option.some.injEq, Prod.mk.injEq] at h1
      obtain ⟨h1, h3⟩ := h1
      cases r with
      | ok a => cases h1
      | error e =>
        obtain rfl := Option.some.inj h1
        refine ⟨t, rfl, ?_⟩
        cases hl : t.getLast? with
        | none => rw [hl] at h3; cases h3
        | some o =>
          rw [hl] at h3
          obtain ⟨t', rfl⟩ := List.getLast?_eq_some_iff.1 hl
          cases o <;> first | (cases h3; done) | skip
          rename_i key
          refine ⟨t', key, rfl, ?_⟩
          rw [show key = 151587081 from h3]
          decide

/-- **C57.** Whatever the servers send, the client asks for its own keys, in order; of
the results it reports only the last can be wrong; and if it returns, none is. -/
theorem C57_client_never_wrong (c : Chain box) (h : c.Configured) (hc : c.count < 2 ^ 32) (offline online : Bool)
    (i : Nat) (n0 n : Net Nat Obs) (cap : Nat × Nat → Nat) (s : List Nat)
    (hp : n0.proc i = c.client offline online) (h0 : n0.seen i = []) (hn : n0.run cap s = some n)
    (d : Database) (hd : Database.new c.rows = .ok d) :
    wants (n.seen i) <+: (List.range c.count).map c.wanted ∧
    (results (n.seen i)).length ≤ (wants (n.seen i)).length ∧
    (results (n.seen i)).dropLast.map Except.ok <+: ((List.range c.count).map c.wanted).map d.lookup ∧
    (n.Finished i → online = true → wants (n.seen i) = (List.range c.count).map c.wanted ∧
      (results (n.seen i)).map Except.ok = (wants (n.seen i)).map d.lookup) := by
  obtain ⟨h1, t, h2, h3⟩ := Safe.net s n0 n (by rw [h0, hp]; exact client_hostile h hc offline online) hn
  rw [h0, List.nil_append] at h2
  rw [h2] at h1 ⊢
  rw [database_new] at hd
  obtain rfl := Except.ok.inj hd
  have hrow : (c.keys'.map Database.row).map Except.ok = c.keys'.map ({ size := c.rows, rows := (List.range c.rows).map Database.row } : Database).lookup := by
    rw [List.map_map]
    refine List.map_congr_left (fun k hk => ?_)
    obtain ⟨j, -, rfl⟩ := List.mem_map.1 hk
    have hlt : c.wanted j < c.rows := by
      have := h.rows
      unfold Chain.wanted
      split
      · omega
      · exact Nat.mod_lt _ (by omega)
    unfold Database.lookup
    symm
    refine rd_eq_ok.2 ?_
    simp [hlt]
  obtain ⟨k1, k2, k3, k4⟩ := clientI_record (t := t) (fun a o b hab => by simpa [h0] using h3 a o b hab)
  refine ⟨k1, ?_, ?_, ?_⟩
  · by_cases hr : results t = []
    · rw [hr]; exact Nat.zero_le _
    · rw [k2 hr]; exact k4
  · have := k3.map (Except.ok (ε := Fault))
    rw [hrow] at this
    exact this
  · intro hf ho
    rw [show n.proc i = .done () from hf] at h1
    obtain ⟨m1, m2⟩ := h1 ho
    refine ⟨m1, ?_⟩
    rw [m2, m1]
    exact hrow

/-- Non-vacuity of C56 and C57: a client fed with zeros instead of responses reports
one result, which is wrong, and stops; fed with its own two rows in clear (the masks of
the simulated mode are 0) it returns with both. -/
example : (feed ([1] ++ List.replicate 1000 0) (exampleChain.client false true)).map (fun x => (outcome x, wants x.1,
      (results x.1).length)) = some (some .assertFail, [3, 2], 1) ∧
    (feed ([1] ++ (Database.row 3).encode ++ (Database.row 2).encode) (exampleChain.client false true)).map (fun x => (outcome x, wants x.1,
      (results x.1).map Response.value)) = some (none, [3, 2], [(Database.row 3).value, (Database.row 2).value]) := by
  decide +kernel

end DPPIR.Props
