import Verif.Proofs.Foreign

/-!
# A client that asks for rows the backend does not have: the processes
-/

namespace DPPIR.Protocol
open DPPIR Proc Onion Incremental Additive Spec Props Shuffle

variable {box : SealedBox} {ι : Type}

/-- A call of `Lookup` outside of a database with `rows` rows. -/
def Outside (rows : Nat) (o : Obs) : Prop := ∃ key, o = .lookup key ∧ rows ≤ key

section
variable {rows : Nat}

private theorem not_outside {o : Obs} (h : ∀ key, o ≠ .lookup key) : ¬ Outside rows o := fun ⟨key, e, _⟩ => h key e

theorem good_observe {o : Obs} (h : ∀ key, o ≠ .lookup key) : Dies.Good (Outside rows) (observe o : Prog ι Unit) := .obs (not_outside h) (.done _)

theorem good_readCount (src : ι) : Dies.Good (Outside rows) (readCount src) :=
  Dies.Good.bind (Dies.Good.recvBytesFrom _ _ _) fun _ => Dies.Good.bind (good_observe (by intro k h; cases h)) fun _ => .done _

theorem good_sendReady (dst : ι) : Dies.Good (Outside rows) (sendReady dst) :=
  .obs (not_outside (by intro k h; cases h)) (Dies.Good.sendBytes _ _)

theorem good_recvCipher (src : ι) (size : Nat) : Dies.Good (Outside rows) (recvCipher src size) :=
  Dies.Good.bind (Dies.Good.recvBytesFrom _ _ _) fun _ => Dies.Good.bind (good_observe (by intro k h; cases h)) fun _ => .done _

theorem good_recvQuery (src : ι) : Dies.Good (Outside rows) (recvQuery src) :=
  Dies.Good.bind (Dies.Good.recvBytesFrom _ _ _) fun _ => Dies.Good.bind (good_observe (by intro k h; cases h)) fun _ => .done _

theorem good_pushBuffered (dst : ι) (unit : Nat) (w : WBuf) (l : List Byte) : Dies.Good (Outside rows) (pushBuffered dst unit w l) := by
  unfold pushBuffered
  split
  · split
    · exact Dies.Good.bind (Dies.Good.sendBytes _ _) fun _ => .done _
    · exact .done _
  · exact .fault _

theorem good_sendResponse (dst : ι) (r : Response) (w : WBuf) : Dies.Good (Outside rows) (sendResponse dst r w) :=
  .obs (not_outside (by intro k h; cases h)) (good_pushBuffered _ _ _ _)

/-- The same computation on both sides. -/
theorem dies_same {α β γ : Type} {T : β → γ → Prop} {p : Prog ι α} (h : Dies.Good (Outside rows) p) {f : α → Prog ι β} {g : α → Prog ι γ}
    (hf : ∀ a, Dies (Outside rows) T (f a) (g a)) : Dies (Outside rows) T (p.bind f) (p.bind g) :=
  Dies.bind (Dies.Good.refl h) fun a b e => by subst e; exact hf a

end

/-- The database with `rows` rows. -/
def dbOf (rows : Nat) : Database := { size := rows, rows := (List.range rows).map Database.row }

/-- The same backend with another database. -/
def SameBackend (rows rows' : Nat) (b b' : Backend box) : Prop := b.db = dbOf rows ∧ b' = { b with db := dbOf rows' }

section
variable {rows rows' : Nat}

theorem install_dies (back : ι) (i : Nat) (b b' : Backend box) (h : SameBackend rows rows' b b') :
    Dies (Outside rows) (SameBackend rows rows') (Backend.installStep back i b) (Backend.installStep back i b') := by
  obtain ⟨h1, rfl⟩ := h
  refine dies_same (good_recvCipher _ _) fun c => ?_
  refine dies_same (Dies.Good.lift _) fun layer => ?_
  refine dies_same (Dies.Good.lift _) fun msg => ?_
  refine dies_same (good_observe (by intro k h; cases h)) fun _ => ?_
  refine dies_same (Dies.Good.lift _) fun st => ?_
  exact .done ⟨h1, rfl⟩

theorem collect_dies (back : ι) (i : Nat) (b b' : Backend box) (h : SameBackend rows rows' b b') :
    Dies (Outside rows) (SameBackend rows rows') (Backend.collectQuery back i b) (Backend.collectQuery back i b') := by
  obtain ⟨h1, rfl⟩ := h
  refine dies_same (good_recvQuery _) fun c => ?_
  refine dies_same (Dies.Good.lift _) fun qs => ?_
  exact .done ⟨h1, rfl⟩

theorem dbOf_lookup (hr : rows ≤ rows') (key : Nat) :
    (rows ≤ key ∧ (dbOf rows).lookup key = .error .ub) ∨ (key < rows ∧ (dbOf rows).lookup key = (dbOf rows').lookup key) := by
  unfold Database.lookup dbOf rd
  rcases Nat.lt_or_ge key rows with h | h
  · refine Or.inr ⟨h, ?_⟩
    simp [h, show key < rows' by omega]
  · refine Or.inl ⟨h, ?_⟩
    rw [show ((List.range rows).map Database.row)[key]? = none by simp [h]]

theorem respond_dies (hr : rows ≤ rows') (back : ι) (junk : Response) (q : Query) (s s' : Backend box × WBuf)
    (h : SameBackend rows rows' s.1 s'.1 ∧ s.2 = s'.2) :
    Dies (Outside rows) (fun s s' : Backend box × WBuf => SameBackend rows rows' s.1 s'.1 ∧ s.2 = s'.2)
      (Backend.respond back junk q s) (Backend.respond back junk q s') := by
  obtain ⟨b, w⟩ := s
  obtain ⟨b', w'⟩ := s'
  obtain ⟨⟨h1, h2⟩, h3⟩ := h
  dsimp only at h1 h2 h3
  subst h2 h3
  unfold Backend.respond
  dsimp only
  refine Dies.bind (R := fun x y : Backend box × Response => SameBackend rows rows' x.1 y.1 ∧ x.2 = y.2) ?_ ?_
  · unfold Backend.handleQuery
    refine dies_same (Dies.Good.lift _) fun share => ?_
    dsimp only
    generalize (incrementalReconstruct q.tally share).toNat = key
    rcases dbOf_lookup hr key with ⟨hk, e⟩ | ⟨hk, e⟩
    · rw [h1, e]
      exact Dies.bad ⟨key, rfl, hk⟩
    · rw [h1, e]
      refine Dies.obs (fun ⟨key', e', hk'⟩ => ?_) ?_
      · cases e'
        omega
      · refine dies_same (p := lift _) (Dies.Good.lift _) fun value => ?_
        refine dies_same (Dies.Good.lift _) fun pre => ?_
        refine dies_same (Dies.Good.lift _) fun r => ?_
        exact .done ⟨⟨rfl, rfl⟩, rfl⟩
  · rintro ⟨b, r⟩ ⟨b', r'⟩ ⟨hb, hr'⟩
    dsimp only at hb hr'
    subst hr'
    refine dies_same (good_sendResponse _ _ _) fun w => ?_
    exact .done ⟨hb, rfl⟩

theorem start_dies (hr : rows ≤ rows') (back : ι) (junk : Response) (offline online : Bool) (b b' : Backend box) (h : SameBackend rows rows' b b') :
    Dies (Outside rows) (fun _ _ => True) (b.start back junk offline online) (b'.start back junk offline online) := by
  have hon : ∀ b b' : Backend box, SameBackend rows rows' b b' → Dies (Outside rows) (fun _ _ => True)
      (if online = true then (b.startOnline back junk).bind fun _ => .done () else .done ())
      (if online = true then (b'.startOnline back junk).bind fun _ => .done () else .done ()) := by
    rintro b b' ⟨h1, rfl⟩
    cases online with
    | false => exact .done trivial
    | true =>
      refine Dies.bind (R := SameBackend rows rows') ?_ fun _ _ _ => .done trivial
      refine Dies.bind (Dies.loop (collect_dies back) _ _ _ _ ⟨h1, rfl⟩) ?_
      rintro b b' ⟨h1, rfl⟩
      refine dies_same (Dies.Good.lift _) fun qs => ?_
      refine Dies.bind (Dies.each (respond_dies hr back junk) qs (b, {}) _ ⟨⟨h1, rfl⟩, rfl⟩) ?_
      rintro ⟨b, w⟩ ⟨b', w'⟩ ⟨hb, hw⟩
      dsimp only at hb hw
      subst hw
      exact dies_same (Dies.Good.sendBytes _ _) fun _ => .done hb
  cases offline with
  | true =>
    refine Dies.bind (R := SameBackend rows rows') (p := b.startOffline back) (q := b'.startOffline back) ?_ hon
    obtain ⟨h1, rfl⟩ := h
    refine Dies.bind (R := SameBackend rows rows') (dies_same (good_readCount _) fun n => .done ⟨h1, rfl⟩) ?_
    rintro b b' ⟨h1, rfl⟩
    refine dies_same (good_sendReady _) fun _ => ?_
    refine Dies.bind (Dies.loop (install_dies back) _ _ _ _ ⟨h1, rfl⟩) fun b b' h => ?_
    refine dies_same (good_sendReady _) fun _ => ?_
    exact .done h
  | false =>
    refine Dies.bind (R := SameBackend rows rows') (p := b.simulateOffline back) (q := b'.simulateOffline back) ?_ hon
    obtain ⟨h1, rfl⟩ := h
    refine Dies.bind (R := SameBackend rows rows') (dies_same (good_readCount _) fun n => .done ⟨h1, rfl⟩) ?_
    rintro b b' ⟨h1, rfl⟩
    refine dies_same (good_sendReady _) fun _ => ?_
    exact .done ⟨h1, rfl⟩

end

theorem backend_dies (c : Chain box) {rows : Nat} (hr : c.rows ≤ rows) (offline online : Bool) :
    Dies (Outside c.rows) (fun _ _ => True) (c.backend offline online) (Chain.backend { c with rows := rows } offline online) := by
  unfold Chain.backend
  dsimp only
  rw [database_new, database_new]
  refine Dies.bind (R := fun d d' => d = dbOf c.rows ∧ d' = dbOf rows) (.done ⟨rfl, rfl⟩) ?_
  rintro d d' ⟨rfl, rfl⟩
  refine Dies.bind (R := SameBackend c.rows rows) ?_ fun b b' h => start_dies hr _ _ _ _ _ _ h
  unfold Backend.new
  by_cases hP : 2 ≤ c.parties
  · simp only [assert, hP, if_true]
    exact .done ⟨rfl, rfl⟩
  · simp only [assert, hP, if_false]
    exact .same _

end DPPIR.Protocol
