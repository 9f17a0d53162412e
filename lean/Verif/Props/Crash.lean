import Verif.Proofs.Crash
import Verif.Props.Chain
import Verif.Props.Grid

/-!
# C55: crashes of processes
-/

namespace DPPIR.Props
open DPPIR Proc Onion Spec Protocol

variable {box : SealedBox}

/-- **C55.** Whatever processes crash and whenever they do, the calls made are those of
some run without crashes; a process that has returned has returned in that run, too, and
a process stops abnormally only if it crashes itself or would have stopped there anyway. -/
theorem C55_nothing_new (c : Chain box) (offline online : Bool) (cap : Nat × Nat → Nat) (n : Net Nat Obs)
    (hn : Net.CrashReach cap (c.net offline online) n) :
    ∃ s m, (c.net offline online).run cap s = some m ∧ n.seen = m.seen ∧ (∀ i, n.Finished i → m.Finished i) ∧
      ∀ i e, n.proc i = .fault e → e = .exception ∨ m.Faulted i := by
  obtain ⟨s, m, hm, hl⟩ := hn.like
  refine ⟨s, m, hm, hl.seen, fun i hi => ?_, fun i e he => (hl.fault i e he).imp_right (fun h => ⟨e, h⟩)⟩
  have hnf : ¬ n.Faulted i := by
    rintro ⟨e, he⟩
    rw [show n.proc i = .done () from hi] at he
    cases he
  exact (hl.proc i hnf).symm.trans hi

/-- **C55.** The same with several servers per party. -/
theorem C55_nothing_new_parallel (g : Grid box) (offline online : Bool) (cap : Node × Node → Nat) (n : PNet Node Obs Unit)
    (hn : PNet.CrashReach cap (g.net offline online) n) :
    ∃ m, PNet.Reach cap (g.net offline online) m ∧ n.seen = m.seen ∧ (∀ i, n.Returned i () → m.Returned i ()) ∧
      ∀ i e, n.proc i = .fault e → e = .exception ∨ m.Faulted i := by
  obtain ⟨m, hm, hl⟩ := hn.like
  refine ⟨m, hm, hl.seen, fun i hi => ?_, fun i e he => (hl.fault i e he).imp_right (fun h => ⟨e, h⟩)⟩
  have hnf : ¬ n.Faulted i := by
    rintro ⟨e, he⟩
    rw [show n.proc i = .done () from hi] at he
    cases he
  exact (hl.proc i hnf).symm.trans hi

/-- **C55.** Whatever processes crash, the client never gets a wrong row: its responses
are the rows of its keys, in order, and if it returns it has got all.  No process runs
into undefined behaviour or a failing assertion, the backend looks up rows of the database
only. -/
theorem C55_results (c : Chain box) (h : c.Valid) (offline : Bool) (cap : Nat × Nat → Nat) (hcap : ∀ x, 0 < cap x)
    (n : Net Nat Obs) (hn : Net.CrashReach cap (c.net offline true) n) (d : Database) (hd : Database.new c.rows = .ok d) :
    wants (n.seen 0) <+: (List.range c.count).map c.wanted ∧
    (results (n.seen 0)).map Except.ok <+: ((List.range c.count).map c.wanted).map d.lookup ∧
    (n.Finished 0 → wants (n.seen 0) = (List.range c.count).map c.wanted ∧
      (results (n.seen 0)).map Except.ok = (wants (n.seen 0)).map d.lookup) ∧
    (∀ i e, n.proc i = .fault e → e = .exception) ∧ ∀ key ∈ lookups (n.seen c.parties), key < c.rows := by
  obtain ⟨s, m, hm, h1, h2, h3⟩ := C55_nothing_new c offline true cap n hn
  obtain ⟨N, hN⟩ := serves c h offline cap hcap
  obtain ⟨-, a2, -, a4, a5⟩ := hN s m hm
  obtain ⟨b1, b2⟩ := a5 d hd
  rw [h1]
  refine ⟨a4, b1, fun hf => b2 (h2 0 hf), fun i e he => (h3 i e he).resolve_right (a2 i), ?_⟩
  exact C40_lookups_in_range c h offline cap hcap s m hm

/-- **C55.** The same with several servers per party. -/
theorem C55_results_parallel (g : Grid box) (h : g.Valid) (offline : Bool) (ht : offline = true → g.DistinctTags)
    (cap : Node × Node → Nat) (n : PNet Node Obs Unit) (hn : PNet.CrashReach cap (g.net offline true) n)
    (d : Database) (hd : Database.new g.rows = .ok d) :
    (∀ s < g.servers, wants (n.seen (0, s)) <+: (List.range (g.count s)).map (g.wanted s) ∧
      (results (n.seen (0, s))).map Except.ok <+: ((List.range (g.count s)).map (g.wanted s)).map d.lookup ∧
      (n.Returned (0, s) () → wants (n.seen (0, s)) = (List.range (g.count s)).map (g.wanted s) ∧
        (results (n.seen (0, s))).map Except.ok = (wants (n.seen (0, s))).map d.lookup)) ∧
    (∀ i e, n.proc i = .fault e → e = .exception) ∧ ∀ s < g.servers, ∀ key ∈ lookups (n.seen (g.parties, s)), key < g.rows := by
  obtain ⟨m, hm, h1, h2, h3⟩ := C55_nothing_new_parallel g offline true cap n hn
  have hs : g.Serves offline := by
    cases offline with
    | true => exact C44_distinct_tags g h (ht rfl)
    | false => exact C44_online_only g h
  obtain ⟨a1, -, a3⟩ := (hs cap).1 m hm
  rw [h1]
  refine ⟨fun s hs => ?_, fun i e he => (h3 i e he).resolve_right (a1 i), fun s hs => ?_⟩
  · obtain ⟨b1, b2, b3⟩ := a3 s hs d hd
    exact ⟨b1, b2, fun hr => b3 (h2 _ hr)⟩
  · exact C53_lookups_in_range g h offline ht cap m hm s hs

/-- **C55.** A `read` from a sibling that returns no bytes, because the sibling has
closed the connection, changes nothing: no message is handled, nothing is counted. -/
theorem C55_end_of_stream {ι σ τ : Type} (X : Exchange ι) (hd : Handlers ι σ τ) (source : Nat) (found : Bool) (x : XState σ)
    (hleft : (x.left source).length < X.unit) (hcount : x.readCount < 2 ^ 32)
    (src : ι) (len : Nat) (k : List Byte → PProg ι (Bool × XState σ))
    (hk : XState.readFrom X hd source (found, x) = .read src len k) : k [] = .done (true, x) := by
  cases hr : rd x.received source with
  | error e =>
    simp only [XState.readFrom, hr, PProc.lift, Proc.lift, PProc.ofProc, Bind.bind, PProc.bind, reduceCtorEq] at hk
  | ok got =>
    simp only [XState.readFrom, hr, PProc.lift, Proc.lift, PProc.ofProc, Bind.bind, PProc.bind] at hk
    by_cases hrem : wrap32 (X.counts source + 2 ^ 32 - got) > 0
    · have hz : (x.left source).length / X.unit = 0 := Nat.div_eq_of_lt hleft
      have hne : got ≠ X.counts source := by
        rintro rfl
        simp [wrap32] at hrem
      have hrc : wrap32 (x.readCount + 2 ^ 32) = x.readCount := by
        simp only [wrap32, Nat.add_mod_right]
        exact Nat.mod_eq_of_lt hcount
      rw [if_pos hrem] at hk
      generalize (if Sockets.bufferSize / X.unit * X.unit - (x.left source).length <
          wrap64 (wrap32 (X.counts source + 2 ^ 32 - got) * X.unit + 2 ^ 64 - (x.left source).length) then
            Sockets.bufferSize / X.unit * X.unit - (x.left source).length
          else wrap64 (wrap32 (X.counts source + 2 ^ 32 - got) * X.unit + 2 ^ 64 - (x.left source).length)) = L at hk
      by_cases hl : L = 0
      · simp only [PProc.readCall, hl, if_true, PProc.bind, List.append_nil, hz, Protocol.chunks, deliver, PProc.ofProc, hr, pure,
          reduceCtorEq] at hk
      · simp only [PProc.readCall, if_neg hl, PProc.bind, PProc.read.injEq] at hk
        obtain ⟨-, -, rfl⟩ := hk
        simp only [List.append_nil, hz, Protocol.chunks, deliver, PProc.ofProc, PProc.bind, hr, hne, if_false,
          Nat.zero_mul, List.drop_zero, Function.update_eq_self, Nat.sub_zero, hrc, pure]
    · simp only [if_neg hrem, pure, reduceCtorEq] at hk

/-- In `exampleChain` the party in the middle may crash at the start and also after the client has got its rows. -/
example : (∃ n, Net.CrashReach (fun _ => 1) (exampleChain.net true true) n ∧ n.Faulted 1 ∧ ¬ n.Finished 0) ∧
    ∃ n, Net.CrashReach (fun _ => 1) (exampleChain.net true true) n ∧ n.Faulted 1 ∧ n.Finished 0 ∧
      results (n.seen 0) = [Database.row 3, Database.row 2] := by
  have hrun : ∀ (cap : Nat × Nat → Nat) (n₀ : Net Nat Obs) (s : List Nat) (n m : Net Nat Obs), Net.CrashReach cap n₀ n →
      n.run cap s = some m → Net.CrashReach cap n₀ m := by
    intro cap n₀ s
    induction s with
    | nil => intro n m h hr; cases hr; exact h
    | cons i s ih =>
      intro n m h hr
      simp only [Net.run] at hr
      cases hs : n.step cap i with
      | none => simp [hs] at hr
      | some n' =>
        rw [hs] at hr
        exact ih n' m (h.step (.step i hs)) hr
  constructor
  · have hr := (Net.CrashReach.refl (cap := fun _ => 1) (n := exampleChain.net true true)).step (.crash 1)
    refine ⟨_, hr, ⟨.exception, by simp⟩, fun hf => ?_⟩
    obtain ⟨d, hd⟩ : ∃ d, Database.new exampleChain.rows = .ok d := ⟨_, rfl⟩
    have := ((C55_results exampleChain exampleChain_valid true _ (fun _ => Nat.one_pos) _ hr d hd).2.2.1 hf).1
    exact absurd this (by decide)
  · obtain ⟨s, n, h1, h2, -, h4⟩ := Chain.complete_run exampleChain_valid true true (fun _ => 1) (fun _ => Nat.one_pos)
    refine ⟨_, (hrun _ _ _ _ _ Net.CrashReach.refl h1).step (.crash 1), ⟨.exception, by simp⟩, ?_, ?_⟩
    · show Function.update n.proc 1 (.fault .exception) 0 = .done ()
      rw [Function.update_of_ne (by decide)]
      exact h2 0
    · show results (n.seen 0) = _
      rw [h4, Chain.results_client]
      have := congrArg (List.map Database.row) (Chain.qs_zero_keys exampleChain true)
      rw [List.map_map] at this
      exact this

/-- In `exampleGrid` one server of party 1 may crash after a client has returned. -/
example : ∃ cap n, PNet.CrashReach cap (exampleGrid.net true true) n ∧ n.Faulted (1, 1) ∧ n.Returned (0, 0) () := by
  have hd : exampleGrid.DistinctTags := Grid.distinct_even exampleGrid_valid exampleGrid_even.1 exampleGrid_even.2
  obtain ⟨cap, hc⟩ := exampleGrid.exists_roomy
  obtain ⟨n, hn, hr⟩ := Grid.complete_run exampleGrid_valid true true (fun _ => hd) hc
  have hx : PNet.CrashReach cap (exampleGrid.net true true) n := by
    clear hr
    induction hn with
    | refl => exact .refl
    | step _ s ih => exact ih.step (.step _ s)
  refine ⟨cap, _, hx.step (.crash (1, 1)), ⟨.exception, by simp⟩, ?_⟩
  show Function.update n.proc (1, 1) (.fault .exception) (0, 0) = .done ()
  rw [Function.update_of_ne (by decide)]
  exact hr _

/-- Server 0 of 2 has got 3 bytes of the second of 5 messages of 8 bytes: it asks for the
37 that are missing. -/
example (hd : Handlers Nat Unit Unit) : ∃ k, XState.readFrom
    ⟨0, 2, id, 8, fun _ => 6⟩ hd 1 (false, { st := (), received := [0, 1], left := fun _ => [1, 2, 3], readCount := 5 }) =
    .read 1 37 k := by
  simp only [XState.readFrom, rd, List.getElem?_cons_succ, List.getElem?_cons_zero, PProc.lift, Proc.lift, PProc.ofProc,
    Bind.bind, PProc.bind, show wrap32 (6 + 2 ^ 32 - 1) > 0 from by decide, if_true]
  simp only [show (if Sockets.bufferSize / 8 * 8 - [(1 : Byte), 2, 3].length <
      wrap64 (wrap32 (6 + 2 ^ 32 - 1) * 8 + 2 ^ 64 - [(1 : Byte), 2, 3].length) then
      Sockets.bufferSize / 8 * 8 - [(1 : Byte), 2, 3].length
    else wrap64 (wrap32 (6 + 2 ^ 32 - 1) * 8 + 2 ^ 64 - [(1 : Byte), 2, 3].length)) = 37 from by decide, PProc.readCall]
  exact ⟨_, rfl⟩

end DPPIR.Props
