import Verif.Model.ParallelShuffle
import Verif.Spec.ParallelShuffle
import Verif.Proofs.Shuffle
import Mathlib.Data.List.Count
import Mathlib.Algebra.BigOperators.Group.List.Basic

namespace DPPIR.Shuffle

/-! ### Lists tabulated by a function -/

/-- `[f 0, …, f (n-1)]`. -/
def tab {α : Type} (n : Nat) (f : Nat → α) : List α := (List.range n).map f

@[simp] theorem tab_length {α : Type} (n : Nat) (f : Nat → α) : (tab n f).length = n := by simp [tab]

theorem tab_get {α : Type} (n : Nat) (f : Nat → α) (i : Nat) (h : i < n) : (tab n f)[i]? = some (f i) := by
  simp [tab, h]

theorem tab_get_none {α : Type} (n : Nat) (f : Nat → α) (i : Nat) (h : n ≤ i) : (tab n f)[i]? = none := by
  simp [tab, h]

theorem rd_tab {α : Type} (n : Nat) (f : Nat → α) (i : Nat) (h : i < n) : rd (tab n f) i = .ok (f i) :=
  rd_eq_ok.2 (tab_get n f i h)

theorem tab_congr {α : Type} (n : Nat) (f g : Nat → α) (h : ∀ i, i < n → f i = g i) : tab n f = tab n g := by
  unfold tab
  apply List.map_congr_left
  intro a ha
  exact h a (by simpa using ha)

theorem wr_tab {α : Type} (n : Nat) (f : Nat → α) (i : Nat) (v : α) (h : i < n) :
    wr (tab n f) i v = .ok (tab n (fun j => if j = i then v else f j)) := by
  rw [wr_ok (by simpa using h)]
  congr 1
  apply List.ext_getElem?
  intro j
  rw [List.getElem?_set]
  by_cases hj : j < n
  · by_cases he : i = j
    · subst he; rw [if_pos rfl, if_pos (by simpa using h), tab_get _ _ _ hj, if_pos rfl]
    · rw [if_neg he, tab_get _ _ _ hj, tab_get _ _ _ hj, if_neg (Ne.symm he)]
  · rw [if_neg (by omega), tab_get_none _ _ _ (by omega), tab_get_none _ _ _ (by omega)]

theorem replicate_eq_tab {α : Type} (n : Nat) (a : α) : List.replicate n a = tab n (fun _ => a) := by
  apply List.ext_getElem?
  intro j
  by_cases hj : j < n
  · rw [tab_get _ _ _ hj]; simp [hj]
  · rw [tab_get_none _ _ _ (by omega)]; simp [hj]

theorem incr_tab (n : Nat) (f : Nat → Nat) (i : Nat) (h : i < n) (hb : f i + 1 < 2 ^ 32) :
    incr (tab n f) i = .ok (tab n (fun j => if j = i then f i + 1 else f j)) := by
  unfold incr
  rw [rd_tab _ _ _ h]
  simp only [bind_ok]
  rw [wr_tab _ _ _ _ h]
  unfold wrap32
  rw [Nat.mod_eq_of_lt hb]

/-! ### Segments -/

/-- The list of owners of consecutive segments of the given lengths, numbered
from `k`. -/
def srcsFrom : Nat → List Nat → List Nat
  | _, [] => []
  | k, c :: cs => List.replicate c k ++ srcsFrom (k + 1) cs

@[simp] theorem srcsFrom_length (k : Nat) (l : List Nat) : (srcsFrom k l).length = l.sum := by
  induction l generalizing k with
  | nil => rfl
  | cons c cs ih => simp [srcsFrom, ih]

theorem srcsFrom_append (k : Nat) (a b : List Nat) :
    srcsFrom k (a ++ b) = srcsFrom k a ++ srcsFrom (k + a.length) b := by
  induction a generalizing k with
  | nil => simp [srcsFrom]
  | cons c cs ih =>
    simp only [List.cons_append, srcsFrom, ih, List.append_assoc, List.length_cons]
    rw [show k + 1 + cs.length = k + (cs.length + 1) by omega]

theorem srcsFrom_mem (k : Nat) (l : List Nat) (x : Nat) (h : x ∈ srcsFrom k l) :
    k ≤ x ∧ x < k + l.length := by
  induction l generalizing k with
  | nil => simp [srcsFrom] at h
  | cons c cs ih =>
    simp only [srcsFrom, List.mem_append] at h
    rcases h with h | h
    · have := List.eq_of_mem_replicate h
      subst this
      simp
    · have := ih _ h
      simp only [List.length_cons]
      omega

theorem srcs_split (l : List Nat) (s : Nat) (h : s < l.length) :
    srcsFrom 0 l = srcsFrom 0 (l.take s) ++ (List.replicate l[s] s ++ srcsFrom (s + 1) (l.drop (s + 1))) := by
  conv_lhs => rw [← List.take_append_drop s l, srcsFrom_append]
  congr 1
  rw [List.length_take, Nat.min_eq_left h.le, List.drop_eq_getElem_cons h, zero_add]
  rfl

theorem srcs_get (l : List Nat) (s idx : Nat) (h : s < l.length)
    (h1 : (l.take s).sum ≤ idx) (h2 : idx < (l.take s).sum + l[s]) :
    (srcsFrom 0 l)[idx]? = some s := by
  rw [srcs_split l s h, List.getElem?_append_right (by simpa using h1)]
  rw [List.getElem?_append_left (by simp; omega)]
  rw [srcsFrom_length, List.getElem?_replicate, if_pos (by omega)]

theorem srcs_take_count (l : List Nat) (s idx : Nat) (h : s < l.length)
    (h1 : (l.take s).sum ≤ idx) (h2 : idx ≤ (l.take s).sum + l[s]) :
    ((srcsFrom 0 l).take idx).count s = idx - (l.take s).sum := by
  rw [srcs_split l s h, List.take_append, List.count_append, List.take_append, List.count_append]
  have e1 : List.count s (List.take idx (srcsFrom 0 (List.take s l))) = 0 := by
    rw [List.count_eq_zero]
    intro hm
    have := srcsFrom_mem _ _ _ (List.mem_of_mem_take hm)
    rw [List.length_take] at this
    omega
  rw [e1]
  simp only [srcsFrom_length, List.take_replicate, List.count_replicate_self, List.length_replicate]
  have e2 : idx - (List.take s l).sum - l[s] = 0 := by omega
  rw [e2]
  simp
  omega

theorem srcs_count (l : List Nat) (s : Nat) (h : s < l.length) :
    (srcsFrom 0 l).count s = l[s] := by
  rw [srcs_split l s h, List.count_append, List.count_append]
  have e1 : List.count s (srcsFrom 0 (List.take s l)) = 0 := by
    rw [List.count_eq_zero]
    intro hm
    have := srcsFrom_mem _ _ _ hm
    rw [List.length_take] at this
    omega
  have e2 : List.count s (srcsFrom (s + 1) (List.drop (s + 1) l)) = 0 := by
    rw [List.count_eq_zero]
    intro hm
    have := srcsFrom_mem _ _ _ hm
    omega
  rw [e1, e2]; simp

theorem take_succ_sum (l : List Nat) (s : Nat) (h : s < l.length) :
    (l.take (s + 1)).sum = (l.take s).sum + l[s] := by
  rw [List.take_add_one, List.getElem?_eq_getElem h, List.sum_append]
  simp

theorem take_sum_mono (l : List Nat) {s t : Nat} (h : s ≤ t) : (l.take s).sum ≤ (l.take t).sum := by
  have : l.take s = (l.take t).take s := by rw [List.take_take, Nat.min_eq_left h]
  rw [this]
  conv_rhs => rw [← List.take_append_drop s (l.take t)]
  rw [List.sum_append]
  omega

theorem take_sum_le (l : List Nat) (s : Nat) : (l.take s).sum ≤ l.sum := by
  conv_rhs => rw [← List.take_append_drop s l]
  rw [List.sum_append]
  omega

/-- The inner while loop finds the owner of a position. -/
theorem findSegment_ok (counts : List Nat) (idx source : Nat)
    (hs : (counts.take source).sum ≤ idx) (hi : idx < counts.sum) :
    ∃ s', ∃ h : s' < counts.length, findSegment counts idx source (counts.take source).sum =
        .ok (s', (counts.take s').sum) ∧
      (counts.take s').sum ≤ idx ∧ idx < (counts.take s').sum + counts[s'] := by
  have hlt : source < counts.length := by
    by_contra hc
    rw [List.take_of_length_le (by omega)] at hs
    omega
  obtain ⟨d, hd⟩ : ∃ d, d = counts.length - source := ⟨_, rfl⟩
  induction d generalizing source with
  | zero => omega
  | succ d ih =>
    unfold findSegment
    rw [dif_pos hlt]
    by_cases hge : idx - (counts.take source).sum ≥ counts[source]
    · rw [if_pos hge, ← take_succ_sum counts source hlt]
      have hs' : (counts.take (source + 1)).sum ≤ idx := by
        rw [take_succ_sum counts source hlt]; omega
      have hlt' : source + 1 < counts.length := by
        by_contra hc
        rw [List.take_of_length_le (by omega)] at hs'
        omega
      exact ih (source + 1) hs' hlt' (by omega)
    · rw [if_neg hge]
      exact ⟨source, hlt, rfl, hs, by omega⟩

/-! ### The initial block map -/

theorem fillBlock (A : List Nat) (m sid stop : Nat) (h1 : A.length ≤ stop) (h2 : stop ≤ A.length + m) :
    forRange A.length stop (fun i map => wr map i sid) (A ++ List.replicate m 0) =
      .ok (A ++ (List.replicate (stop - A.length) sid ++ List.replicate (m - (stop - A.length)) 0)) := by
  obtain ⟨map, e1, e2⟩ := forRange_inv
    (fun i (map : List Nat) => map = A ++ (List.replicate (i - A.length) sid ++ List.replicate (m - (i - A.length)) 0))
    (fun i map => wr map i sid) A.length stop (A ++ List.replicate m 0) h1 (by simp) (by
      rintro j map hj1 hj2 rfl
      refine ⟨_, wr_ok (by simp; omega), ?_⟩
      rw [List.set_append_right _ _ (by omega), List.set_append_right _ _ (by simp)]
      congr 1
      have e : m - (j - A.length) = (m - (j + 1 - A.length)) + 1 := by omega
      rw [e, List.replicate_succ, List.length_replicate, Nat.sub_self, List.set_cons_zero,
        show j + 1 - A.length = (j - A.length) + 1 by omega, List.replicate_succ']
      simp)
  rw [e1, e2]

/-- Sizes of the output slices. -/
def slices (n total : Nat) : List Nat :=
  List.replicate (n - 1) (total / n) ++ [total - (n - 1) * (total / n)]

theorem mul_div_le' (n total : Nat) : (n - 1) * (total / n) ≤ total := by
  calc (n - 1) * (total / n) ≤ n * (total / n) := Nat.mul_le_mul_right _ (by omega)
    _ ≤ total := Nat.mul_div_le _ _

theorem blockMap_ok (n total : Nat) (hn : 0 < n) :
    blockMap n total (total / n) = .ok (srcsFrom 0 (slices n total)) := by
  have hle := mul_div_le' n total
  unfold blockMap slices
  generalize total / n = q at *
  obtain ⟨map, e1, e2⟩ := forRange_inv
    (fun sid (map : List Nat) => map = if sid < n then
        srcsFrom 0 (List.replicate sid (q)) ++ List.replicate (total - sid * (q)) 0
      else srcsFrom 0 (List.replicate (n - 1) q ++ [total - (n - 1) * q]))
    (fun sid map =>
      let start := sid * (q)
      let stop := if sid = n - 1 then total else start + q
      forRange start stop (fun i map => wr map i sid) map) 0 n (List.replicate total 0) (Nat.zero_le _)
    (by simp [hn, srcsFrom]) (by
      rintro sid map - hsid rfl
      simp only
      rw [if_pos hsid]
      have hlen : (srcsFrom 0 (List.replicate sid (q))).length = sid * (q) := by
        simp
      have hsl : sid * (q) ≤ (n - 1) * (q) := Nat.mul_le_mul_right _ (by omega)
      by_cases hlast : sid = n - 1
      · rw [if_pos hlast]
        have := fillBlock (srcsFrom 0 (List.replicate sid (q))) (total - sid * (q)) sid total
          (by omega) (by omega)
        rw [hlen] at this
        rw [this]
        refine ⟨_, rfl, ?_⟩
        rw [if_neg (by omega), Nat.sub_self]
        rw [srcsFrom_append, hlast]
        simp [srcsFrom]
      · rw [if_neg hlast]
        have hsl' : (sid + 1) * (q) ≤ (n - 1) * (q) := Nat.mul_le_mul_right _ (by omega)
        have hx : (sid + 1) * (q) = sid * (q) + q := by ring
        have := fillBlock (srcsFrom 0 (List.replicate sid (q))) (total - sid * (q)) sid
          (sid * (q) + q) (by omega) (by omega)
        rw [hlen] at this
        rw [this]
        refine ⟨_, rfl, ?_⟩
        rw [if_pos (by omega), List.replicate_succ', srcsFrom_append]
        simp only [List.length_replicate, zero_add, srcsFrom, List.append_nil, List.append_assoc]
        congr 2
        · congr 1; omega
        · congr 1; omega)
  rw [e1, e2, if_neg (Nat.lt_irrefl n)]

@[simp] theorem slices_length (n total : Nat) (hn : 0 < n) : (slices n total).length = n := by
  simp [slices]; omega

@[simp] theorem slices_sum (n total : Nat) : (slices n total).sum = total := by
  have := mul_div_le' n total
  simp [slices]; omega

theorem slices_get (n total s : Nat) (h : s < n) :
    (slices n total)[s]? = some (if s = n - 1 then total - (n - 1) * (total / n) else total / n) := by
  unfold slices
  by_cases hl : s = n - 1
  · rw [if_pos hl, List.getElem?_append_right (by simp; omega)]
    simp [hl]
  · rw [if_neg hl, List.getElem?_append_left (by simp; omega), List.getElem?_replicate, if_pos (by omega)]

/-! ### Total count -/

theorem totalCount_ok (counts : List Nat) (h : counts.sum < 2 ^ 32) :
    totalCount counts.length counts = .ok counts.sum := by
  unfold totalCount
  obtain ⟨t, e1, e2⟩ := forRange_inv
    (fun i (t : Nat) => t = (counts.take i).sum) (fun id tot => do
    let c ← rd counts id
    .ok (wrap32 (tot + c))) 0 counts.length 0 (Nat.zero_le _) (by simp) (by
      rintro j t - hj rfl
      refine ⟨_, by rw [rd_ok hj]; rfl, ?_⟩
      rw [← take_succ_sum counts j hj]
      unfold wrap32
      apply Nat.mod_eq_of_lt
      have := take_sum_le counts (j + 1)
      omega)
  rw [e1, e2, List.take_length]

/-! ### The counting loop -/

/-- Pairs (owner, destination) of all positions. -/
def pairs (counts map : List Nat) : List (Nat × Nat) := (srcsFrom 0 counts).zip map

/-- Destinations of the messages of one server, in order. -/
def destsOf (counts map : List Nat) (me : Nat) : List Nat :=
  ((pairs counts map).filter (fun p => p.1 = me)).map Prod.snd

theorem pairs_take_succ (counts map : List Nat) (idx s t : Nat)
    (h1 : (srcsFrom 0 counts)[idx]? = some s) (h2 : map[idx]? = some t) :
    (pairs counts map).take (idx + 1) = (pairs counts map).take idx ++ [(s, t)] := by
  rw [List.take_add_one]
  congr 1
  unfold pairs
  rw [(List.getElem?_zip_eq_some (z := (s, t))).2 ⟨h1, h2⟩]
  rfl

/-- What the counting loop has computed after `idx` positions. -/
def CountInv (counts map : List Nat) (me noise own : Nat) (idx : Nat) (st : CountState) : Prop :=
  let L := (pairs counts map).take idx
  st.start = (counts.take st.source).sum ∧ st.start ≤ idx ∧
  st.fromCount = tab counts.length (fun s => L.count (s, me)) ∧
  st.toCount = tab counts.length (fun t => L.count (me, t)) ∧
  st.toNoise = tab counts.length (fun t =>
    (((L.filter (fun p => p.1 = me)).map Prod.snd).take noise).count t) ∧
  st.forward.length = own ∧
  st.forward.take (L.filter (fun p => p.1 = me)).length = (L.filter (fun p => p.1 = me)).map Prod.snd

theorem countStep_inv (counts map : List Nat) (me noise idx : Nat) (st : CountState)
    (hme : me < counts.length) (hml : map.length = counts.sum) (h32 : counts.sum < 2 ^ 32)
    (hmt : ∀ t ∈ map, t < counts.length) (hidx : idx < counts.sum)
    (hinv : CountInv counts map me noise counts[me] idx st) :
    ∃ st', countStep counts map me noise idx st = .ok st' ∧
      CountInv counts map me noise counts[me] (idx + 1) st' := by
  obtain ⟨hst, hle, hfrom, hto, hnoise, hfl, hfw⟩ := hinv
  obtain ⟨src, hsrc, hfs, hs1, hs2⟩ := findSegment_ok counts idx st.source (by omega) hidx
  have hsget := srcs_get counts src idx hsrc hs1 hs2
  have hidm : idx < map.length := by omega
  have htlt : map[idx] < counts.length := hmt _ (List.getElem_mem hidm)
  have hmget : map[idx]? = some map[idx] := List.getElem?_eq_getElem hidm
  have htake := pairs_take_succ counts map idx src map[idx] hsget hmget
  have hLlen : ((pairs counts map).take idx).length = idx := by
    simp [pairs, hml]; omega
  have hcnt : ∀ p, ((pairs counts map).take idx).count p ≤ idx := by
    intro p
    calc _ ≤ ((pairs counts map).take idx).length := List.count_le_length
      _ = idx := hLlen
  rw [← hst] at hfs
  set L := (pairs counts map).take idx with hL
  set t := map[idx] with ht
  -- the from-counter
  have hfrom' : incrIf (t = me) st.fromCount src =
      Except.ok (tab counts.length (fun s => (L ++ [(src, t)]).count (s, me))) := by
    unfold incrIf
    by_cases htm : t = me
    · rw [if_pos (by simpa using htm), hfrom, incr_tab _ _ _ hsrc (by have := hcnt (src, me); omega)]
      congr 1
      apply tab_congr
      intro s _
      rw [List.count_append]
      by_cases hss : s = src
      · subst hss; rw [if_pos rfl, htm]; simp
      · rw [if_neg hss]
        have : List.count (s, me) [(src, t)] = 0 := by
          rw [List.count_eq_zero]; simp [hss]
        rw [this, Nat.add_zero]
    · rw [if_neg (by simpa using htm), hfrom]
      congr 1
      apply tab_congr
      intro s _
      rw [List.count_append]
      have : List.count (s, me) [(src, t)] = 0 := by
        rw [List.count_eq_zero]; simp [Ne.symm htm]
      rw [this, Nat.add_zero]
  unfold countStep
  rw [hfs]
  simp only [bind_ok, rd_ok hidm]
  rw [hfrom']
  simp only [bind_ok]
  by_cases hsm : src = me
  · rw [if_pos hsm]
    subst hsm
    -- own messages so far
    have hown : (L.filter (fun p => p.1 = src)).length = idx - (counts.take src).sum := by
      rw [← srcs_take_count counts src idx hsrc hs1 (by omega)]
      have : (srcsFrom 0 counts).take idx = L.map Prod.fst := by
        rw [hL, pairs, List.map_take, List.map_fst_zip (by simp [hml])]
      rw [this]
      rw [← List.countP_eq_length_filter, List.count, List.countP_map]
      rfl
    have hfilt : (L ++ [(src, t)]).filter (fun p => p.1 = src) = L.filter (fun p => p.1 = src) ++ [(src, t)] := by
      rw [List.filter_append]; simp
    have hnoise' : incrIf (idx - (counts.take src).sum < noise) st.toNoise t =
        Except.ok (tab counts.length (fun u =>
          ((((L ++ [(src, t)]).filter (fun p => p.1 = src)).map Prod.snd).take noise).count u)) := by
      rw [hfilt, List.map_append, List.take_append, List.length_map, hown]
      unfold incrIf
      by_cases hn : idx - (counts.take src).sum < noise
      · rw [if_pos (by simpa using hn), hnoise, incr_tab _ _ _ htlt]
        · congr 1
          apply tab_congr
          intro u _
          rw [List.count_append]
          have e : List.take (noise - (idx - (counts.take src).sum)) (List.map Prod.snd [(src, t)]) = [t] := by
            apply List.take_of_length_le
            simp; omega
          rw [e]
          by_cases hut : u = t
          · subst hut; rw [if_pos rfl]; simp
          · rw [if_neg hut]
            have : List.count u [t] = 0 := by rw [List.count_eq_zero]; simp [hut]
            rw [this, Nat.add_zero]
        · have h1 : (List.take noise (List.map Prod.snd (List.filter (fun p => decide (p.1 = src)) L))).count t ≤ idx := by
            calc _ ≤ (List.take noise (List.map Prod.snd (List.filter (fun p => decide (p.1 = src)) L))).length := List.count_le_length
              _ ≤ (List.map Prod.snd (List.filter (fun p => decide (p.1 = src)) L)).length := List.length_take_le' _ _
              _ ≤ L.length := by rw [List.length_map]; exact List.length_filter_le _ _
              _ = idx := hLlen
          omega
      · rw [if_neg (by simpa using hn), hnoise]
        congr 1
        apply tab_congr
        intro u _
        have e : List.take (noise - (idx - (counts.take src).sum)) (List.map Prod.snd [(src, t)]) = [] := by
          rw [show noise - (idx - (counts.take src).sum) = 0 by omega]; rfl
        rw [e, List.append_nil]
    have hto' : incr st.toCount t = Except.ok (tab counts.length (fun u => (L ++ [(src, t)]).count (src, u))) := by
      rw [hto, incr_tab _ _ _ htlt (by have := hcnt (src, t); omega)]
      congr 1
      apply tab_congr
      intro u _
      rw [List.count_append]
      by_cases hut : u = t
      · subst hut; rw [if_pos rfl]; simp
      · rw [if_neg hut]
        have : List.count (src, u) [(src, t)] = 0 := by
          rw [List.count_eq_zero]; simp [hut]
        rw [this, Nat.add_zero]
    have hkl : idx - (counts.take src).sum < st.forward.length := by omega
    rw [hnoise', hto']
    simp only [bind_ok, wr_ok hkl]
    refine ⟨_, rfl, rfl, by show (counts.take src).sum ≤ idx + 1; omega, ?_, ?_, ?_, ?_, ?_⟩
    · rw [htake]
    · rw [htake]
    · rw [htake]
    · simpa using hfl
    · show (st.forward.set (idx - (counts.take src).sum) t).take _ = _
      rw [htake, hfilt, List.length_append, List.map_append, ← hfw, hown]
      rw [List.length_singleton, List.take_add_one, List.take_set_of_le (Nat.le_refl _)]
      congr 1
      rw [List.getElem?_set_self hkl]
      rfl
  · rw [if_neg hsm]
    refine ⟨_, rfl, rfl, by show (counts.take src).sum ≤ idx + 1; omega, ?_, ?_, ?_, hfl, ?_⟩
    · rw [htake]
    · rw [htake]
      show st.toCount = _
      rw [hto]
      apply tab_congr
      intro u _
      rw [List.count_append]
      have : List.count (me, u) [(src, t)] = 0 := by
        rw [List.count_eq_zero]; simp [Ne.symm hsm]
      rw [this, Nat.add_zero]
    · rw [htake]
      show st.toNoise = _
      rw [hnoise, List.filter_append]
      simp [hsm]
    · rw [htake, List.filter_append]
      show st.forward.take _ = _
      simp only [List.filter_cons, hsm, decide_false, Bool.false_eq_true, if_false, List.filter_nil, List.append_nil]
      exact hfw

/-! ### The backward map -/

/-- Positions `i < k` of `l` holding `t`, in increasing order. -/
def posOf (l : List Nat) (t k : Nat) : List Nat := (List.range k).filter (fun i => l[i]? = some t)

theorem posOf_succ (l : List Nat) (t k : Nat) :
    posOf l t (k + 1) = posOf l t k ++ (if l[k]? = some t then [k] else []) := by
  unfold posOf
  rw [List.range_succ, List.filter_append]
  congr 1
  by_cases h : l[k]? = some t <;> simp [h]

theorem posOf_length (l : List Nat) (t k : Nat) (hk : k ≤ l.length) :
    (posOf l t k).length = (l.take k).count t := by
  induction k with
  | zero => simp [posOf]
  | succ k ih =>
    rw [posOf_succ, List.length_append, ih (by omega), List.take_add_one, List.count_append,
      List.getElem?_eq_getElem (by omega)]
    congr 1
    by_cases h : l[k]'(by omega) = t
    · simp [h]
    · simp [h]

theorem allocBackward (n : Nat) (c : Nat → Nat) :
    forRange 0 n (fun sid (p : List (List Nat) × List Nat) => do
      let count ← rd p.2 sid
      let b ← wr p.1 sid (List.replicate count 0)
      let t ← wr p.2 sid 0
      .ok (b, t)) (List.replicate n [], tab n c) =
    .ok (tab n (fun t => List.replicate (c t) 0), tab n (fun _ => 0)) := by
  obtain ⟨p, e1, e2⟩ := forRange_inv
    (fun i (p : List (List Nat) × List Nat) =>
      p = (tab n (fun t => if t < i then List.replicate (c t) 0 else []), tab n (fun t => if t < i then 0 else c t)))
    (fun sid (p : List (List Nat) × List Nat) => do
      let count ← rd p.2 sid
      let b ← wr p.1 sid (List.replicate count 0)
      let t ← wr p.2 sid 0
      .ok (b, t)) 0 n (List.replicate n [], tab n c) (Nat.zero_le _) (by simp [replicate_eq_tab]) (by
      rintro j p - hj rfl
      simp only [rd_tab _ _ _ hj, bind_ok, wr_tab _ _ _ _ hj]
      refine ⟨_, rfl, ?_⟩
      congr 1
      · apply tab_congr
        intro t _
        by_cases h1 : t = j
        · subst h1; simp
        · rw [if_neg h1]
          by_cases h2 : t < j
          · rw [if_pos h2, if_pos (by omega)]
          · rw [if_neg h2, if_neg (by omega)]
      · apply tab_congr
        intro t _
        by_cases h1 : t = j
        · subst h1; simp
        · rw [if_neg h1]
          by_cases h2 : t < j
          · rw [if_pos h2, if_pos (by omega)]
          · rw [if_neg h2, if_neg (by omega)])
  rw [e1, e2]
  congr 2
  · apply tab_congr; intro t ht; rw [if_pos ht]
  · apply tab_congr; intro t ht; rw [if_pos ht]

theorem fillBackward (n : Nat) (fwd : List Nat) (hlt : ∀ t ∈ fwd, t < n) (h32 : fwd.length < 2 ^ 32) :
    forRange 0 fwd.length (fun i (p : List (List Nat) × List Nat) => do
      let target ← rd fwd i
      let row ← rd p.1 target
      let k ← rd p.2 target
      let row ← wr row k i
      let b ← wr p.1 target row
      let t ← incr p.2 target
      .ok (b, t)) (tab n (fun t => List.replicate (fwd.count t) 0), tab n (fun _ => 0)) =
    .ok (tab n (fun t => posOf fwd t fwd.length), tab n (fun t => fwd.count t)) := by
  obtain ⟨p, e1, e2⟩ := forRange_inv
    (fun i (p : List (List Nat) × List Nat) =>
      p = (tab n (fun t => posOf fwd t i ++ List.replicate (fwd.count t - (fwd.take i).count t) 0),
        tab n (fun t => (fwd.take i).count t)))
    (fun i (p : List (List Nat) × List Nat) => do
      let target ← rd fwd i
      let row ← rd p.1 target
      let k ← rd p.2 target
      let row ← wr row k i
      let b ← wr p.1 target row
      let t ← incr p.2 target
      .ok (b, t)) 0 fwd.length (tab n (fun t => List.replicate (fwd.count t) 0), tab n (fun _ => 0))
      (Nat.zero_le _) (by simp [posOf]) (by
      rintro j p - hj rfl
      have ht := hlt _ (List.getElem_mem hj)
      have htk : ∀ u, (fwd.take (j + 1)).count u = (fwd.take j).count u + (if fwd[j] = u then 1 else 0) := by
        intro u
        rw [List.take_add_one, List.count_append, List.getElem?_eq_getElem hj]
        congr 1
        by_cases h : fwd[j] = u
        · simp [h]
        · simp [h]
      have hle : ∀ u, (fwd.take (j + 1)).count u ≤ fwd.count u :=
        fun u => List.Sublist.count_le u (List.take_sublist _ _)
      have hrow : (posOf fwd fwd[j] j ++ List.replicate (fwd.count fwd[j] - (fwd.take j).count fwd[j]) 0).length =
          fwd.count fwd[j] := by
        rw [List.length_append, posOf_length _ _ _ hj.le, List.length_replicate]
        have := hle fwd[j]
        rw [htk] at this
        omega
      have h1 := hle fwd[j]
      rw [htk, if_pos rfl] at h1
      have hcl : fwd.count fwd[j] ≤ fwd.length := List.count_le_length
      simp only [rd_ok hj, bind_ok, rd_tab _ _ _ ht]
      rw [wr_ok (by rw [hrow]; omega)]
      simp only [bind_ok, wr_tab _ _ _ _ ht]
      rw [incr_tab _ _ _ ht (by omega)]
      refine ⟨_, rfl, ?_⟩
      congr 1
      · apply tab_congr
        intro u _
        by_cases hu : u = fwd[j]
        · subst hu
          rw [if_pos rfl, htk, if_pos rfl, posOf_succ, List.getElem?_eq_getElem hj, if_pos rfl]
          rw [List.set_append_right _ _ (by rw [posOf_length _ _ _ hj.le]), posOf_length _ _ _ hj.le,
            Nat.sub_self]
          have e : fwd.count fwd[j] - (fwd.take j).count fwd[j] =
            (fwd.count fwd[j] - ((fwd.take j).count fwd[j] + 1)) + 1 := by omega
          rw [e, List.replicate_succ, List.set_cons_zero]
          simp
        · rw [if_neg hu, htk, if_neg (Ne.symm hu), posOf_succ, List.getElem?_eq_getElem hj,
            if_neg (by simpa using Ne.symm hu)]
          simp
      · apply tab_congr
        intro u _
        by_cases hu : u = fwd[j]
        · subst hu; rw [if_pos rfl, htk, if_pos rfl]
        · rw [if_neg hu, htk, if_neg (Ne.symm hu), Nat.add_zero])
  rw [e1, e2]
  congr 2
  · apply tab_congr
    intro t _
    simp
  · apply tab_congr
    intro t _
    simp

/-! ### Prefix sums -/

theorem prefixLoop (n : Nat) (f : Nat → Nat) (hn : 0 < n) (h32 : (tab n f).sum < 2 ^ 32) :
    forRange 0 (n - 1) (fun sid pref => do
      let a ← rd pref sid
      let b ← rd (tab n f) sid
      wr pref (sid + 1) (wrap32 (a + b))) (List.replicate n 0) =
    .ok (tab n (fun s => ((tab n f).take s).sum)) := by
  obtain ⟨p, e1, e2⟩ := forRange_inv
    (fun i (p : List Nat) => p = tab n (fun s => if s ≤ i then ((tab n f).take s).sum else 0))
    (fun sid pref => do
      let a ← rd pref sid
      let b ← rd (tab n f) sid
      wr pref (sid + 1) (wrap32 (a + b))) 0 (n - 1) (List.replicate n 0) (Nat.zero_le _) (by
      rw [replicate_eq_tab]
      apply tab_congr
      intro s _
      by_cases h : s ≤ 0
      · rw [if_pos h]; have : s = 0 := by omega
        subst this; simp
      · rw [if_neg h]) (by
      rintro j p - hj rfl
      have hjn : j < n := by omega
      simp only [rd_tab _ _ _ hjn, bind_ok]
      rw [wr_tab _ _ _ _ (by omega)]
      refine ⟨_, rfl, ?_⟩
      apply tab_congr
      intro s _
      have hs := take_succ_sum (tab n f) j (by simpa using hjn)
      have hg : (tab n f)[j]'(by simpa using hjn) = f j := by simp [tab]
      by_cases h1 : s = j + 1
      · subst h1
        rw [if_pos rfl, if_pos (Nat.le_refl _), if_pos (Nat.le_refl _), hs, hg]
        unfold wrap32
        apply Nat.mod_eq_of_lt
        have := take_sum_le (tab n f) (j + 1)
        rw [hs, hg] at this
        omega
      · rw [if_neg h1]
        by_cases h2 : s ≤ j
        · rw [if_pos h2, if_pos (by omega)]
        · rw [if_neg h2, if_neg (by omega)])
  rw [e1, e2]
  congr 1
  apply tab_congr
  intro s hs
  rw [if_pos (by omega)]

/-! ### Counting facts -/

theorem dests_count (L : List (Nat × Nat)) (a b : Nat) :
    ((L.filter (fun p => p.1 = a)).map Prod.snd).count b = L.count (a, b) := by
  induction L with
  | nil => rfl
  | cons p L ih =>
    obtain ⟨x, y⟩ := p
    by_cases hx : x = a
    · subst hx
      simp only [List.filter_cons, decide_true, if_true, List.map_cons]
      by_cases hy : y = b
      · subst hy; simp [ih]
      · rw [List.count_cons_of_ne hy, ih, List.count_cons_of_ne (by simp [hy])]
    · simp only [List.filter_cons, hx, decide_false, Bool.false_eq_true, if_false]
      rw [ih, List.count_cons_of_ne (by simp [hx])]

theorem sum_tab_succ (n : Nat) (f : Nat → Nat) : (tab (n + 1) f).sum = (tab n f).sum + f n := by
  simp [tab, List.range_succ]

theorem sum_tab_add (n : Nat) (f g : Nat → Nat) :
    (tab n (fun i => f i + g i)).sum = (tab n f).sum + (tab n g).sum := by
  induction n with
  | zero => simp [tab]
  | succ n ih => simp only [sum_tab_succ, ih]; omega

theorem sum_tab_indicator (n a : Nat) (ha : a < n) : (tab n (fun i => if i = a then 1 else 0)).sum = 1 := by
  induction n with
  | zero => omega
  | succ n ih =>
    rw [sum_tab_succ]
    by_cases h : a = n
    · subst h
      have : tab a (fun i => if i = a then 1 else 0) = tab a (fun _ => 0) := by
        apply tab_congr; intro i hi; rw [if_neg (by omega)]
      rw [this, if_pos rfl, ← replicate_eq_tab]; simp
    · rw [ih (by omega), if_neg (by omega)]

/-- Summing the pair counts over all owners gives the number of positions with
that destination. -/
theorem sum_count_fst (L : List (Nat × Nat)) (n b : Nat) (hL : ∀ p ∈ L, p.1 < n) :
    (tab n (fun s => L.count (s, b))).sum = (L.map Prod.snd).count b := by
  induction L with
  | nil => simp [← replicate_eq_tab]
  | cons p L ih =>
    obtain ⟨x, y⟩ := p
    have ih := ih (fun p hp => hL p (List.mem_cons_of_mem _ hp))
    have hx := hL _ List.mem_cons_self
    by_cases hy : y = b
    · subst hy
      have : tab n (fun s => List.count (s, y) ((x, y) :: L)) =
          tab n (fun s => List.count (s, y) L + (if s = x then 1 else 0)) := by
        apply tab_congr
        intro s _
        by_cases hs : s = x
        · subst hs; simp
        · rw [if_neg hs, List.count_cons_of_ne (by simp [Ne.symm hs])]; rfl
      rw [this, sum_tab_add, ih, sum_tab_indicator n x hx]
      simp
    · have : tab n (fun s => List.count (s, b) ((x, y) :: L)) = tab n (fun s => List.count (s, b) L) := by
        apply tab_congr
        intro s _
        rw [List.count_cons_of_ne (by simp [hy])]
      rw [this, ih, List.map_cons, List.count_cons_of_ne hy]

/-- Summary of `Initialize`: one common map from positions to servers decides
everything. -/
theorem pinit_spec (rand : RandGen) (seed : Int) (counts : List Nat) (hn : 0 < counts.length)
    (h32 : counts.sum < 2 ^ 32) :
    ∃ map : List Nat, map.length = counts.sum ∧
      map.Perm (srcsFrom 0 (slices counts.length counts.sum)) ∧
      ∀ (me noise : Nat) (hme : me < counts.length) (s : ParallelShuffler),
        s.seed = seed → s.serverId = me → s.serverCount = counts.length →
        ∃ s', s.initialize rand counts noise = .ok s' ∧
          s'.seed = seed ∧ s'.serverId = me ∧ s'.serverCount = counts.length ∧
          s'.sliceSize = (slices counts.length counts.sum)[me]'(by rw [slices_length _ _ hn]; exact hme) ∧
          s'.forward = destsOf counts map me ∧
          s'.forward.length = counts[me] ∧
          s'.backward = tab counts.length (fun t => posOf s'.forward t counts[me]) ∧
          s'.forwardIdx = 0 ∧
          s'.backwardIdx = tab counts.length (fun _ => 0) ∧
          s'.fromCount = tab counts.length (fun a => (pairs counts map).count (a, me)) ∧
          s'.prefixFrom = tab counts.length (fun k =>
            ((tab counts.length (fun a => (pairs counts map).count (a, me))).take k).sum) ∧
          s'.toCount = tab counts.length (fun t => (pairs counts map).count (me, t)) ∧
          s'.toNoiseCount = tab counts.length (fun t => (s'.forward.take noise).count t) ∧
          (tab counts.length (fun a => (pairs counts map).count (a, me))).sum = s'.sliceSize := by
  have hbl := blockMap_ok counts.length counts.sum hn
  have hbll : (srcsFrom 0 (slices counts.length counts.sum)).length = counts.sum := by simp
  obtain ⟨map, hsh, hperm⟩ := shuffle_perm (rand seed) (srcsFrom 0 (slices counts.length counts.sum))
    (by rw [hbll]; exact h32)
  rw [hbll] at hsh
  have hml : map.length = counts.sum := by rw [hperm.length_eq, hbll]
  have hmt : ∀ t ∈ map, t < counts.length := by
    intro t ht
    have := srcsFrom_mem _ _ _ (hperm.mem_iff.1 ht)
    rw [slices_length _ _ hn] at this
    omega
  refine ⟨map, hml, hperm, ?_⟩
  rintro me noise hme s hseed hid hcount
  have hLlen : (pairs counts map).length = counts.sum := by simp [pairs, hml]
  obtain ⟨st, hst, hinv⟩ := forRange_inv (CountInv counts map me noise counts[me])
    (countStep counts map me noise) 0 counts.sum
    { source := 0, start := 0, fromCount := List.replicate counts.length 0,
      toCount := List.replicate counts.length 0,
      toNoise := List.replicate counts.length 0, forward := List.replicate counts[me] 0 }
    (Nat.zero_le _) (by
      refine ⟨by simp, Nat.le_refl _, ?_, ?_, ?_, by simp, by simp⟩ <;> simp [replicate_eq_tab])
    (fun j st _ hj hi => countStep_inv counts map me noise j st hme hml h32 hmt hj hi)
  obtain ⟨-, -, hfrom, hto, hnoise, hfl, hfw⟩ := hinv
  have htk : (pairs counts map).take counts.sum = pairs counts map := by
    apply List.take_of_length_le; omega
  rw [htk] at hfrom hto hnoise hfw
  have hfst : (pairs counts map).map Prod.fst = srcsFrom 0 counts := by
    unfold pairs; rw [List.map_fst_zip (by simp [hml])]
  have hsnd : (pairs counts map).map Prod.snd = map := by
    unfold pairs; rw [List.map_snd_zip (by simp [hml])]
  have hownlen : ((pairs counts map).filter (fun p => p.1 = me)).length = counts[me] := by
    rw [← srcs_count counts me hme, ← hfst, ← List.countP_eq_length_filter, List.count, List.countP_map]
    rfl
  rw [hownlen] at hfw
  rw [List.take_of_length_le (by omega)] at hfw
  have hfd : st.forward = destsOf counts map me := hfw
  have hLlt : ∀ p ∈ pairs counts map, p.1 < counts.length := by
    intro p hp
    have : p.1 ∈ srcsFrom 0 counts := by rw [← hfst]; exact List.mem_map_of_mem hp
    have := srcsFrom_mem _ _ _ this
    omega
  have hfmem : ∀ t ∈ st.forward, t < counts.length := by
    intro t ht
    rw [hfd] at ht
    unfold destsOf at ht
    obtain ⟨p, hp, rfl⟩ := List.mem_map.1 ht
    apply hmt
    rw [← hsnd]
    exact List.mem_map_of_mem (List.mem_of_mem_filter hp)
  have hto2 : st.toCount = tab counts.length (fun t => st.forward.count t) := by
    rw [hto]
    apply tab_congr
    intro t _
    rw [hfd]; exact (dests_count _ _ _).symm
  have hcme : counts[me] ≤ counts.sum := by
    have := take_succ_sum counts me hme
    have := take_sum_le counts (me + 1)
    omega
  have hfb := fillBackward counts.length st.forward hfmem (by omega)
  rw [hfl] at hfb
  have hsum : (tab counts.length (fun a => (pairs counts map).count (a, me))).sum =
      (slices counts.length counts.sum)[me]'(by rw [slices_length _ _ hn]; exact hme) := by
    rw [sum_count_fst _ _ _ hLlt, hsnd, hperm.count_eq, srcs_count _ _ (by rw [slices_length _ _ hn]; exact hme)]
  have hslices : (slices counts.length counts.sum)[me]'(by rw [slices_length _ _ hn]; exact hme) ≤ counts.sum := by
    have h1 := take_succ_sum (slices counts.length counts.sum) me (by rw [slices_length _ _ hn]; exact hme)
    have h2 := take_sum_le (slices counts.length counts.sum) (me + 1)
    rw [slices_sum] at h2
    omega
  have hpl := prefixLoop counts.length (fun a => (pairs counts map).count (a, me)) hn (by rw [hsum]; omega)
  have hslice : (if me = counts.length - 1 then counts.sum - (counts.length - 1) * (counts.sum / counts.length)
      else counts.sum / counts.length) = (slices counts.length counts.sum)[me]'(by rw [slices_length _ _ hn]; exact hme) := by
    have := slices_get counts.length counts.sum me hme
    rw [List.getElem?_eq_getElem (by rw [slices_length _ _ hn]; exact hme)] at this
    exact (Option.some.inj this).symm
  refine ⟨{ s with sliceSize := (slices counts.length counts.sum)[me]'(by rw [slices_length _ _ hn]; exact hme), forward := st.forward,
                   backward := tab counts.length (fun t => posOf st.forward t counts[me]), forwardIdx := 0,
                   backwardIdx := List.replicate counts.length 0, fromCount := st.fromCount,
                   prefixFrom := tab counts.length (fun k =>
                      ((tab counts.length (fun a => (pairs counts map).count (a, me))).take k).sum),
                   toCount := tab counts.length (fun t => st.forward.count t), toNoiseCount := st.toNoise },
    ?_, hseed, hid, hcount, rfl, hfd, hfl, rfl, rfl, replicate_eq_tab _ _, hfrom, rfl, ?_, ?_, hsum⟩
  · unfold ParallelShuffler.initialize
    simp only [hcount, hid, hseed]
    rw [totalCount_ok counts h32]
    simp only [bind_ok]
    rw [if_neg (by omega), rd_ok hme]
    simp only [bind_ok]
    rw [hbl]
    simp only [bind_ok]
    rw [hsh]
    simp only [bind_ok]
    rw [hst]
    simp only [bind_ok]
    rw [hto2, allocBackward]
    simp only [bind_ok]
    rw [hfb]
    simp only [bind_ok]
    rw [hfrom, hpl]
    simp only [bind_ok]
    rw [hslice]
  · show tab counts.length (fun t => st.forward.count t) = _
    rw [← hto2, hto]
  · show st.toNoise = _
    rw [hnoise, hfw]

theorem posOf_get (l : List Nat) (t m k r : Nat) (hm : m ≤ l.length) (h : (posOf l t m)[k]? = some r) :
    Spec.IsKthOcc l t k r := by
  induction m with
  | zero => simp [posOf] at h
  | succ m ih =>
    rw [posOf_succ] at h
    by_cases hk : k < (posOf l t m).length
    · rw [List.getElem?_append_left hk] at h
      exact ih (by omega) h
    · rw [List.getElem?_append_right (by omega)] at h
      by_cases ht : l[m]? = some t
      · rw [if_pos ht] at h
        have hk0 : k - (posOf l t m).length = 0 := by
          by_contra hne
          rw [List.getElem?_eq_none (by simp; omega)] at h
          cases h
        rw [hk0] at h
        have : m = r := by simpa using h
        subst this
        refine ⟨ht, ?_⟩
        rw [← posOf_length _ _ _ (by omega)]
        omega
      · rw [if_neg ht] at h; simp at h

theorem kthOcc_unique (l : List Nat) (t k r r' : Nat) (h : Spec.IsKthOcc l t k r)
    (h' : Spec.IsKthOcc l t k r') : r = r' := by
  by_contra hne
  rcases Nat.lt_or_gt_of_ne hne with hlt | hlt
  · have h1 := h.1
    have h2 : (l.take (r + 1)).count t = k + 1 := by
      rw [List.take_add_one, List.count_append, h.2, h1]; simp
    have h3 : (l.take (r + 1)).count t ≤ (l.take r').count t :=
      List.Sublist.count_le _ (List.take_sublist_take_left (by omega))
    rw [h'.2] at h3; omega
  · have h1 := h'.1
    have h2 : (l.take (r' + 1)).count t = k + 1 := by
      rw [List.take_add_one, List.count_append, h'.2, h1]; simp
    have h3 : (l.take (r' + 1)).count t ≤ (l.take r).count t :=
      List.Sublist.count_le _ (List.take_sublist_take_left (by omega))
    rw [h.2] at h3; omega

theorem shuffleCalls_ok (k : Nat) (s : ParallelShuffler) (hk : s.forwardIdx + k ≤ s.forward.length)
    (h32 : s.forward.length < 2 ^ 32) :
    Spec.shuffleCalls k s = .ok ((s.forward.drop s.forwardIdx).take k, { s with forwardIdx := s.forwardIdx + k }) := by
  induction k generalizing s with
  | zero => simp [Spec.shuffleCalls]
  | succ k ih =>
    unfold Spec.shuffleCalls ParallelShuffler.shuffleOne
    rw [rd_ok (by omega)]
    simp only [bind_ok]
    have hw : wrap32 (s.forwardIdx + 1) = s.forwardIdx + 1 := by
      unfold wrap32; apply Nat.mod_eq_of_lt; omega
    rw [hw, ih _ (by simp; omega) (by simpa using h32)]
    simp only [bind_ok]
    rw [List.drop_eq_getElem_cons (show s.forwardIdx < s.forward.length by omega), List.take_succ_cons]
    rw [Nat.add_assoc, Nat.add_comm 1 k]

theorem deshuffleCalls_inv (n : Nat) (rows : Nat → List Nat) (ts : List Nat) (done : List Nat)
    (s : ParallelShuffler) (hb : s.backward = tab n rows) (hi : s.backwardIdx = tab n (fun t => done.count t))
    (hr : ∀ t, (rows t).length < 2 ^ 32) (hts : ∀ t ∈ ts, t < n)
    (hc : ∀ t, (done ++ ts).count t ≤ (rows t).length) :
    ∃ rs s', Spec.deshuffleCalls ts s = .ok (rs, s') ∧ rs.length = ts.length ∧
      s'.backwardIdx = tab n (fun t => (done ++ ts).count t) ∧ s'.backward = s.backward ∧
      ∀ j t r, ts[j]? = some t → rs[j]? = some r → (rows t)[(done ++ ts.take j).count t]? = some r := by
  induction ts generalizing s done with
  | nil =>
    refine ⟨[], s, rfl, rfl, by simpa using hi, rfl, ?_⟩
    intro j t r h; simp at h
  | cons t ts ih =>
    have ht := hts t List.mem_cons_self
    have hct := hc t
    rw [List.count_append, List.count_cons_self] at hct
    have hrt := hr t
    unfold Spec.deshuffleCalls ParallelShuffler.deshuffleOne
    rw [hb, hi]
    simp only [rd_tab _ _ _ ht, bind_ok]
    rw [rd_ok (by omega)]
    simp only [bind_ok, wr_tab _ _ _ _ ht]
    obtain ⟨rs, s', e1, e2, e3, e4, e5⟩ := ih (done ++ [t])
      { s with backwardIdx := tab n (fun u => if u = t then wrap32 (done.count t + 1) else done.count u) }
      hb (by
        apply tab_congr
        intro u _
        rw [List.count_append]
        by_cases hu : u = t
        · subst hu
          rw [if_pos rfl]
          unfold wrap32
          rw [Nat.mod_eq_of_lt (by omega)]
          simp
        · rw [if_neg hu]
          simp [List.count_singleton, Ne.symm hu])
      (fun u hu => hts u (List.mem_cons_of_mem _ hu)) (by simpa using hc)
    rw [← hb]
    rw [e1]
    simp only [bind_ok]
    refine ⟨_, _, rfl, by simp [e2], by simpa using e3, by rw [e4], ?_⟩
    intro j u r hju hjr
    cases j with
    | zero =>
      simp at hju hjr
      subst hju
      simp only [List.take_zero, List.append_nil]
      rw [← hjr]
      simp
    | succ j =>
      simp only [List.getElem?_cons_succ] at hju hjr
      have := e5 j u r hju hjr
      simpa using this

theorem findSource_ok (n : Nat) (f : Nat → Nat) (idx id : Nat) (h1 : 1 ≤ id) (hid : id ≤ n) (hidx : idx < (tab n f).sum)
    (hlow : ((tab n f).take (id - 1)).sum ≤ idx) :
    ∃ s, findSourceLoop (tab n (fun s => ((tab n f).take s).sum)) n idx id = .ok s ∧ s < n ∧
      ((tab n f).take s).sum ≤ idx ∧ idx < ((tab n f).take s).sum + f s := by
  induction hm : n - id generalizing id with
  | zero =>
    have : id = n := by omega
    subst this
    unfold findSourceLoop
    rw [if_neg (by omega)]
    refine ⟨id - 1, rfl, by omega, hlow, ?_⟩
    have h2 := take_succ_sum (tab id f) (id - 1) (by simp; omega)
    rw [show id - 1 + 1 = id by omega, List.take_of_length_le (by simp)] at h2
    have : (tab id f)[id - 1]'(by simp; omega) = f (id - 1) := by simp [tab]
    omega
  | succ m ih =>
    unfold findSourceLoop
    rw [if_pos (by omega), rd_tab _ _ _ (by omega)]
    simp only [bind_ok]
    by_cases hgt : ((tab n f).take id).sum > idx
    · rw [if_pos hgt]
      refine ⟨id - 1, rfl, by omega, hlow, ?_⟩
      have h2 := take_succ_sum (tab n f) (id - 1) (by simp; omega)
      rw [show id - 1 + 1 = id by omega] at h2
      have : (tab n f)[id - 1]'(by simp; omega) = f (id - 1) := by simp [tab]
      omega
    · rw [if_neg hgt]
      exact ih (id + 1) (by omega) (by omega) (by simpa using Nat.le_of_not_lt hgt) (by omega)

end DPPIR.Shuffle
