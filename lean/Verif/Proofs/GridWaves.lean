import Verif.Proofs.Grid
import Verif.Proofs.ChainRun

/-!
# The global order of a deployment with several servers per party
-/

namespace DPPIR.Protocol
open DPPIR Proc PNet

/-! ### Names -/

/-- The index of a process among the servers of level `l`. -/
def lvl (S l : Nat) (i : Node) : Option Nat := if i.1 = l ∧ i.2 < S then some i.2 else none

/-- The servers of level `l`. -/
abbrev sibs (l : Nat) : Nat → Node := fun t => (l, t)

theorem lvl_group (S l : Nat) : Group (lvl S l) (sibs l) S := by
  constructor
  · rintro ⟨a, b⟩ s
    unfold lvl
    constructor
    · intro h
      split at h
      · rename_i hc
        obtain ⟨h1, h2⟩ := hc
        have h3 : b = s := Option.some.inj h
        exact ⟨h3 ▸ h2, Prod.ext h1 h3⟩
      · cases h
    · rintro ⟨h1, h2⟩
      obtain ⟨rfl, rfl⟩ := Prod.mk.inj h2
      rw [if_pos ⟨rfl, h1⟩]
  · intro a b h
    exact (Prod.mk.inj h).2

/-! ### Blocks -/

/-- Rounds of the servers of a level. -/
def rounds (S l : Nat) (os : List (Nat → List (Nat × Byte))) : List (GSeg Node) := os.map (groupRound (lvl S l) (sibs l))

/-- The part of server `s`. -/
def rsegs (S l s : Nat) (os : List (Nat → List (Nat × Byte))) : List (Seg Node Obs) := os.map (fun o => rseg (lvl S l) (sibs l) o s)

/-- Bytes from every server of level `k` to the one of level `k + 1`. -/
def links (S k : Nat) (f : Nat → List Byte) : List (GSeg Node) :=
  (List.range S).flatMap (fun s => (f s).map (fun b => GSeg.msg (k, s) (k + 1, s) b))

/-- Bytes from every server of level `k + 1` to the one of level `k`. -/
def backLinks (S k : Nat) (f : Nat → List Byte) : List (GSeg Node) :=
  (List.range S).flatMap (fun s => (f s).map (fun b => GSeg.msg (k + 1, s) (k, s) b))

/-- Level after level, from the clients on: level `k` sends `f k`, level `k + 1` does
the rounds `B (k + 1)`. -/
def downWave (S P : Nat) (f : Nat → Nat → List Byte) (B : Nat → List (Nat → List (Nat × Byte))) : List (GSeg Node) :=
  (List.range P).flatMap (fun k => links S k (f k) ++ rounds S (k + 1) (B (k + 1)))

/-- Level after level, from the backend on: level `k + 1` sends `f k`, level `k` does
the rounds `B k`. -/
def upWave (S P : Nat) (f : Nat → Nat → List Byte) (B : Nat → List (Nat → List (Nat × Byte))) : List (GSeg Node) :=
  (List.range P).reverse.flatMap (fun k => backLinks S k (f k) ++ rounds S k (B k))

/-- Every level does the rounds `A`. -/
def inWave (S P : Nat) (A : Nat → List (Nat → List (Nat × Byte))) : List (GSeg Node) :=
  (List.range (P + 1)).flatMap (fun l => rounds S l (A l))

def sends (d : Node) (l : List Byte) : List (Seg Node Obs) := (l.map (Act.send d)).map Seg.act
def recvs (s : Node) (l : List Byte) : List (Seg Node Obs) := (l.map (Act.recv s)).map Seg.act

/-- Part of server `s` of level `i` in `downWave`. -/
def downSeg (S P i s : Nat) (f : Nat → Nat → List Byte) (B : Nat → List (Nat → List (Nat × Byte))) : List (Seg Node Obs) :=
  (if 1 ≤ i ∧ i ≤ P then recvs (i - 1, s) (f (i - 1) s) ++ rsegs S i s (B i) else []) ++
    if i < P then sends (i + 1, s) (f i s) else []

/-- Part of server `s` of level `i` in `upWave`. -/
def upSeg (S P i s : Nat) (f : Nat → Nat → List Byte) (B : Nat → List (Nat → List (Nat × Byte))) : List (Seg Node Obs) :=
  (if i < P then recvs (i + 1, s) (f i s) ++ rsegs S i s (B i) else []) ++
    if 1 ≤ i ∧ i ≤ P then sends (i - 1, s) (f (i - 1) s) else []

/-- Part of server `s` of level `i` in `inWave`. -/
def inSeg (S P i s : Nat) (A : Nat → List (Nat → List (Nat × Byte))) : List (Seg Node Obs) := if i ≤ P then rsegs S i s (A i) else []

/-! ### Projections -/

theorem pproj_append (i : Node) (G H : List (GSeg Node)) : (proj i (G ++ H) : List (Seg Node Obs)) = proj i G ++ proj i H := by
  simp [proj]

theorem pproj_msgs (i s d : Node) (l : List Byte) :
    (proj i (l.map (fun b => GSeg.msg s d b)) : List (Seg Node Obs)) = if i = s then sends d l else if i = d then recvs s l else [] := by
  induction l with
  | nil => simp [proj, sends, recvs]
  | cons b l ih =>
    have : (proj i ((b :: l).map (fun b => GSeg.msg s d b)) : List (Seg Node Obs)) =
      proj1 i (GSeg.msg s d b) ++ proj i (l.map (fun b => GSeg.msg s d b)) := rfl
    have e : (proj1 i (GSeg.msg s d b) : List (Seg Node Obs)) =
      if i = s then [.act (.send d b)] else if i = d then [.act (.recv s b)] else [] := rfl
    rw [this, ih, e]
    by_cases h : i = s
    · rw [if_pos h, if_pos h, if_pos h]
      rfl
    · rw [if_neg h, if_neg h, if_neg h]
      by_cases h : i = d
      · rw [if_pos h, if_pos h, if_pos h]
        rfl
      · rw [if_neg h, if_neg h, if_neg h]
        rfl

theorem pproj_links_aux (a d : Nat) (S i s : Nat) (f : Nat → List Byte) :
    (proj (i, s) ((List.range S).flatMap (fun s => (f s).map (fun b => GSeg.msg (a, s) (d, s) b))) : List (Seg Node Obs)) =
      if s < S then (if i = a then sends (d, s) (f s) else if i = d then recvs (a, s) (f s) else []) else [] := by
  induction S with
  | zero => simp [proj]
  | succ S ih =>
    rw [List.range_succ, List.flatMap_append, pproj_append, ih]
    simp only [List.flatMap_cons, List.flatMap_nil, List.append_nil]
    rw [pproj_msgs]
    simp only [Prod.mk.injEq]
    rcases Nat.lt_trichotomy s S with h | h | h
    · have h1 : ¬ s = S := by omega
      simp only [h1, and_false, if_false, List.append_nil, if_pos h, if_pos (show s < S + 1 by omega)]
    · subst h
      simp only [if_neg (Nat.lt_irrefl s), if_pos (Nat.lt_succ_self s), and_true, List.nil_append]
    · have h1 : ¬ s = S := by omega
      simp only [h1, and_false, if_false, List.append_nil, if_neg (show ¬ s < S by omega), if_neg (show ¬ s < S + 1 by omega)]

theorem pproj_links (S k i s : Nat) (f : Nat → List Byte) : (proj (i, s) (links S k f) : List (Seg Node Obs)) =
    if s < S then (if i = k then sends (k + 1, s) (f s) else if i = k + 1 then recvs (k, s) (f s) else []) else [] :=
  pproj_links_aux k (k + 1) S i s f

theorem pproj_backLinks (S k i s : Nat) (f : Nat → List Byte) : (proj (i, s) (backLinks S k f) : List (Seg Node Obs)) =
    if s < S then (if i = k + 1 then sends (k, s) (f s) else if i = k then recvs (k + 1, s) (f s) else []) else [] :=
  pproj_links_aux (k + 1) k S i s f

theorem pproj_rounds (S l i s : Nat) (os : List (Nat → List (Nat × Byte))) :
    (proj (i, s) (rounds S l os) : List (Seg Node Obs)) = if i = l ∧ s < S then rsegs S l s os else [] := by
  induction os with
  | nil => simp [proj, rounds, rsegs]
  | cons o os ih =>
    have : (proj (i, s) (rounds S l (o :: os)) : List (Seg Node Obs)) =
      proj1 (i, s) (groupRound (lvl S l) (sibs l) o) ++ proj (i, s) (rounds S l os) := rfl
    rw [this, ih]
    by_cases h : i = l ∧ s < S
    · obtain ⟨rfl, h⟩ := h
      rw [if_pos ⟨rfl, h⟩, if_pos ⟨rfl, h⟩]
      have := proj1_round (O := Obs) (lvl_group S i) o h
      rw [show ((i, s) : Node) = sibs i s from rfl, this]
      rfl
    · rw [if_neg h, if_neg h, proj1_round_none]
      · rfl
      · unfold lvl
        exact if_neg h

theorem pproj_out (S P i s : Nat) (hs : ¬ s < S) (f B) : (proj (i, s) (downWave S P f B) : List (Seg Node Obs)) = [] ∧
    (proj (i, s) (upWave S P f B) : List (Seg Node Obs)) = [] ∧ (proj (i, s) (inWave S P B) : List (Seg Node Obs)) = [] := by
  have key : ∀ (l : List Nat) (G : Nat → List (GSeg Node)), (∀ k, (proj (i, s) (G k) : List (Seg Node Obs)) = []) →
      (proj (i, s) (l.flatMap G) : List (Seg Node Obs)) = [] := by
    intro l G h
    induction l with
    | nil => rfl
    | cons a l ih => rw [List.flatMap_cons, pproj_append, h, ih, List.append_nil]
  refine ⟨key _ _ ?_, key _ _ ?_, key _ _ ?_⟩
  · intro k
    rw [pproj_append, pproj_links, pproj_rounds, if_neg hs, if_neg (by tauto)]
    rfl
  · intro k
    rw [pproj_append, pproj_backLinks, pproj_rounds, if_neg hs, if_neg (by tauto)]
    rfl
  · intro k
    rw [pproj_rounds, if_neg (by tauto)]

theorem pproj_down (S P i s : Nat) (hs : s < S) (f B) :
    (proj (i, s) (downWave S P f B) : List (Seg Node Obs)) = downSeg S P i s f B := by
  induction P with
  | zero =>
    rw [downSeg, if_neg (by omega), if_neg (by omega)]
    rfl
  | succ P ih =>
    have e : downWave S (P + 1) f B = downWave S P f B ++ (links S P (f P) ++ rounds S (P + 1) (B (P + 1))) := by
      simp [downWave, List.range_succ]
    rw [e, pproj_append, pproj_append, ih, pproj_links, pproj_rounds, if_pos hs]
    unfold downSeg
    rcases Nat.lt_trichotomy i P with h | h | h
    · have h1 : (1 ≤ i ∧ i ≤ P) ↔ 1 ≤ i := by omega
      have h2 : (1 ≤ i ∧ i ≤ P + 1) ↔ 1 ≤ i := by omega
      have h3 : ¬ (i = P + 1 ∧ s < S) := by omega
      simp only [h1, h2, if_pos h, if_pos (show i < P + 1 by omega), if_neg (show ¬ i = P by omega),
        if_neg (show ¬ i = P + 1 by omega), if_neg h3, List.append_nil]
    · subst h
      have h2 : (1 ≤ i ∧ i ≤ i + 1) ↔ 1 ≤ i := by omega
      have h3 : (1 ≤ i ∧ i ≤ i) ↔ 1 ≤ i := by omega
      have h4 : ¬ (i = i + 1 ∧ s < S) := by omega
      simp only [h2, h3, if_neg h4, if_pos (show i < i + 1 by omega), if_neg (Nat.lt_irrefl i), if_true, List.append_nil]
    · rw [if_neg (by omega : ¬ (1 ≤ i ∧ i ≤ P)), if_neg (by omega : ¬ i < P), if_neg (show ¬ i = P by omega),
        if_neg (show ¬ i < P + 1 by omega)]
      rcases Nat.decEq i (P + 1) with h1 | h1
      · rw [if_neg h1, if_neg (by omega), if_neg (by omega)]
        rfl
      · rw [if_pos h1, if_pos ⟨h1, hs⟩, if_pos (by omega), h1]
        simp

theorem pproj_up (S P i s : Nat) (hs : s < S) (f B) :
    (proj (i, s) (upWave S P f B) : List (Seg Node Obs)) = upSeg S P i s f B := by
  induction P with
  | zero =>
    rw [upSeg, if_neg (by omega), if_neg (by omega)]
    rfl
  | succ P ih =>
    have e : upWave S (P + 1) f B = (backLinks S P (f P) ++ rounds S P (B P)) ++ upWave S P f B := by
      simp [upWave, List.range_succ]
    rw [e, pproj_append, pproj_append, ih, pproj_backLinks, pproj_rounds, if_pos hs]
    unfold upSeg
    rcases Nat.lt_trichotomy i P with h | h | h
    · have h1 : (1 ≤ i ∧ i ≤ P) ↔ 1 ≤ i := by omega
      have h2 : (1 ≤ i ∧ i ≤ P + 1) ↔ 1 ≤ i := by omega
      have h3 : ¬ (i = P ∧ s < S) := by omega
      simp only [h1, h2, if_pos h, if_pos (show i < P + 1 by omega), if_neg (show ¬ i = P by omega),
        if_neg (show ¬ i = P + 1 by omega), if_neg h3, List.nil_append]
    · subst h
      have h2 : (1 ≤ i ∧ i ≤ i + 1) ↔ 1 ≤ i := by omega
      have h3 : (1 ≤ i ∧ i ≤ i) ↔ 1 ≤ i := by omega
      simp only [h2, h3, hs, and_true, if_pos (show i < i + 1 by omega), if_neg (Nat.lt_irrefl i), if_true, List.nil_append,
        if_neg (show ¬ i = i + 1 by omega)]
    · rw [if_neg (by omega : ¬ (i = P ∧ s < S)), if_neg (by omega : ¬ i < P), if_neg (by omega : ¬ (1 ≤ i ∧ i ≤ P)),
        if_neg (show ¬ i = P by omega), if_neg (show ¬ i < P + 1 by omega)]
      rcases Nat.decEq i (P + 1) with h1 | h1
      · rw [if_neg h1, if_neg (by omega)]
        rfl
      · rw [if_pos h1, if_pos (by omega), h1]
        simp

theorem pproj_in (S P i s : Nat) (hs : s < S) (A) : (proj (i, s) (inWave S P A) : List (Seg Node Obs)) = inSeg S P i s A := by
  have key : ∀ n, (proj (i, s) ((List.range n).flatMap (fun l => rounds S l (A l))) : List (Seg Node Obs)) =
      if i < n then rsegs S i s (A i) else [] := by
    intro n
    induction n with
    | zero => rfl
    | succ n ih =>
      rw [List.range_succ, List.flatMap_append, pproj_append, ih]
      simp only [List.flatMap_cons, List.flatMap_nil, List.append_nil]
      rw [pproj_rounds]
      rcases Nat.lt_trichotomy i n with h | h | h
      · rw [if_pos h, if_pos (show i < n + 1 by omega), if_neg (show ¬ (i = n ∧ s < S) by omega), List.append_nil]
      · subst h
        rw [if_neg (Nat.lt_irrefl i), if_pos ⟨rfl, hs⟩, if_pos (by omega), List.nil_append]
      · rw [if_neg (show ¬ i < n by omega), if_neg (show ¬ (i = n ∧ s < S) by omega), if_neg (show ¬ i < n + 1 by omega), List.append_nil]
  unfold inWave inSeg
  rw [key]
  simp only [Nat.lt_succ_iff]

/-! ### Capacities -/

theorem rounds_ok {S l : Nat} {os : List (Nat → List (Nat × Byte))} {cap : Node × Node → Nat} (ho : ∀ o ∈ os, OutsOk S o)
    (hcap : ∀ o ∈ os, ∀ s t, s < S → t < S → (toOne t (o s)).length ≤ cap ((l, s), (l, t))) :
    ∀ x ∈ rounds S l os, GSeg.Ok cap x := by
  intro x hx
  obtain ⟨o, h, rfl⟩ := List.mem_map.1 hx
  exact groupRound_ok (lvl_group S l) (ho o h) (hcap o h)

theorem links_ok {S k : Nat} {f : Nat → List Byte} {cap : Node × Node → Nat}
    (h : ∀ s < S, 0 < cap ((k, s), (k + 1, s)) ∧ 0 < cap ((k + 1, s), (k, s))) :
    (∀ x ∈ links S k f, GSeg.Ok cap x) ∧ ∀ x ∈ backLinks S k f, GSeg.Ok cap x := by
  constructor
  · intro x hx
    simp only [links, List.mem_flatMap, List.mem_map] at hx
    obtain ⟨s, hs, b, -, rfl⟩ := hx
    exact ⟨by simp, (h s (List.mem_range.1 hs)).1⟩
  · intro x hx
    simp only [backLinks, List.mem_flatMap, List.mem_map] at hx
    obtain ⟨s, hs, b, -, rfl⟩ := hx
    exact ⟨by simp, (h s (List.mem_range.1 hs)).2⟩

theorem waves_ok {S P : Nat} {f : Nat → Nat → List Byte} {B : Nat → List (Nat → List (Nat × Byte))} {cap : Node × Node → Nat}
    (h : ∀ k s, k < P → s < S → 0 < cap ((k, s), (k + 1, s)) ∧ 0 < cap ((k + 1, s), (k, s)))
    (hB : ∀ l, ∀ x ∈ rounds S l (B l), GSeg.Ok cap x) :
    (∀ x ∈ downWave S P f B, GSeg.Ok cap x) ∧ (∀ x ∈ upWave S P f B, GSeg.Ok cap x) ∧ ∀ x ∈ inWave S P B, GSeg.Ok cap x := by
  refine ⟨?_, ?_, ?_⟩
  · intro x hx
    obtain ⟨k, hk, hx⟩ := List.mem_flatMap.1 hx
    rcases List.mem_append.1 hx with hx | hx
    · exact (links_ok (fun s => h k s (by simpa using hk))).1 x hx
    · exact hB _ x hx
  · intro x hx
    obtain ⟨k, hk, hx⟩ := List.mem_flatMap.1 hx
    rcases List.mem_append.1 hx with hx | hx
    · exact (links_ok (fun s => h k s (by simpa using hk))).2 x hx
    · exact hB _ x hx
  · intro x hx
    obtain ⟨k, -, hx⟩ := List.mem_flatMap.1 hx
    exact hB _ x hx

end DPPIR.Protocol
