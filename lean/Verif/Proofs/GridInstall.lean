import Verif.Proofs.GridTags
import Verif.Proofs.Deadlock

/-!
# The offline stage ends everywhere before a client sends its first query

With several servers per party: a client goes on when the first party says so, each
server of a party says so when its siblings have heard the same from the party below.
-/

namespace DPPIR.PNet
open DPPIR Proc

variable {ι O α : Type}

theorem Later.split {A B l : List (Seg ι O)} (h : Later (A ++ B) l) : (∃ A', l = A' ++ B) ∨ Later B l := by
  generalize hl : A ++ B = l0 at h
  induction h with
  | refl => exact .inl ⟨A, hl.symm⟩
  | @drop l' x h ih =>
    rcases ih with ⟨A', h1⟩ | h1
    · cases A' with
      | nil =>
        rw [List.nil_append] at h1
        exact .inr (by rw [← h1]; exact .drop (.refl _))
      | cons y A' => exact .inl ⟨A', (List.cons.inj h1).2⟩
    · exact .inr (.drop h1)
  | @shrink l' os os' is is' av av' h h2 h3 ih =>
    rcases ih with ⟨A', h1⟩ | h1
    · cases A' with
      | nil =>
        rw [List.nil_append] at h1
        exact .inr (by rw [← h1]; exact .shrink (.refl _) h2 h3)
      | cons y A' => exact .inl ⟨.xchg os' is' av' :: A', congrArg (_ :: ·) (List.cons.inj h1).2⟩
    · exact .inr (.shrink h1 h2 h3)

theorem Later.obs {l l' : List (Seg ι O)} (h : Later l l') : segObs l' <:+ segObs l := by
  induction h with
  | refl => exact List.suffix_refl _
  | drop h ih => exact (List.suffix_append _ _).trans (by simpa only [segObs_cons] using ih)
  | shrink h h1 h2 ih => simpa only [segObs_cons, Seg.obsv] using ih

variable [DecidableEq ι]

theorem Later.sent {l l' : List (Seg ι O)} (h : Later l l') (d : ι) : (segSent d l').length ≤ (segSent d l).length := by
  induction h with
  | refl => exact le_refl _
  | drop h ih =>
    simp only [segSent_cons, List.length_append] at ih
    omega
  | shrink h h1 h2 ih =>
    simp only [segSent_cons, List.length_append, Seg.sent] at ih ⊢
    have := (h1.sublist.filterMap (fun o => if o.1 = d then some o.2 else none)).length_le
    omega

theorem Later.rcvd {l l' : List (Seg ι O)} (h : Later l l') (d : ι) : (segRcvd d l').length ≤ (segRcvd d l).length := by
  induction h with
  | refl => exact le_refl _
  | drop h ih =>
    simp only [segRcvd_cons, List.length_append] at ih
    omega
  | shrink h h1 h2 ih =>
    simp only [segRcvd_cons, List.length_append, Seg.rcvd] at ih ⊢
    have := (h2 d).length_le
    omega

/-- Nothing that was observed is forgotten. -/
theorem Reach.seen_prefix {cap : ι × ι → Nat} {n m : PNet ι O α} (h : Reach cap n m) (i : ι) : n.seen i <+: m.seen i := by
  induction h with
  | refl => exact List.prefix_refl _
  | @step m m' j h s ih =>
    refine ih.trans ?_
    cases s with
    | obs h1 =>
      by_cases hij : i = j
      · subst hij
        simp
      · simp [Function.update_of_ne hij]
    | _ => exact List.prefix_refl _

/-- One who has got so far that they have fewer bytes to read than another one has to
send at some point: that other one is past that point. -/
theorem Inv.past {Q : ι → α → Prop} {G : List (GSeg ι)} {os : ι → List O} {n : PNet ι O α} {L L' : ι → List (Seg ι O)}
    (h : Inv Q G os n L') (hl : ∀ j, Later (L j) (L' j)) {i j : ι} {B Bj : List (Seg ι O)} (hj : Later Bj (L' j))
    (hi : B <:+ L i) (hlt : (segRcvd i Bj).length < (segSent j B).length) : Later B (L' i) := by
  obtain ⟨A, hA⟩ := hi
  have h0 := hl i
  rw [← hA] at h0
  rcases h0.split with ⟨A', h1⟩ | h1
  · have h2 := congrArg List.length (h.chan i j)
    have h3 := hj.rcvd i
    rw [h1, segSent_append, List.length_append, List.length_append] at h2
    omega
  · exact h1

end DPPIR.PNet

namespace DPPIR.Protocol
open DPPIR Proc PNet Onion Spec Props Shuffle

variable {box : SealedBox}

namespace Grid

/-- What a server sends in the online stage is what the other one reads. -/
theorem on_match {g : Grid box} (h : g.Valid) (offline online : Bool) (i j s t : Nat) (hs : s < g.servers) (ht : t < g.servers) :
    segSent (j, t) (g.commOn offline online i s) = segRcvd (i, s) (g.commOn offline online j t) := by
  obtain ⟨cap, hc⟩ := exists_roomy g
  have hG := script_ok h hc offline online
  have h1 := proj_match (O := Obs) (if online then downWave g.servers g.parties (g.queryB offline) (g.queryRs offline) ++
    upWave g.servers g.parties (g.respB offline) (g.backRs offline) else []) (fun x hx => hG x (by
      unfold script
      exact List.mem_append_right _ hx)) (i, s) (j, t)
  have h2 : ∀ i s, s < g.servers → (proj (i, s) (if online then downWave g.servers g.parties (g.queryB offline) (g.queryRs offline) ++
    upWave g.servers g.parties (g.respB offline) (g.backRs offline) else []) : List (Seg Node Obs)) = g.commOn offline online i s := by
    intro i s hs
    unfold commOn
    cases online
    · rfl
    · simp [pproj_append, pproj_down _ _ _ _ hs, pproj_up _ _ _ _ hs]
  rwa [h2 i s hs, h2 j t ht] at h1

theorem wait_sent (g : Grid box) (i s t : Nat) (ht : t < g.servers) (hst : t ≠ s) :
    Seg.sent (i, t) (rseg (lvl g.servers i) (sibs i) g.wait s : Seg Node Obs) = [1] := by
  have := bytesTo_sib (lvl_group g.servers i).inj (g.wait s) t
  show bytesTo (sibs i t) _ = _
  rw [this]
  unfold wait
  rw [toOne_cast, if_pos ⟨ht, hst⟩]
  rfl

theorem wait_rcvd (g : Grid box) (i j s t : Nat) (hij : i ≠ j) :
    Seg.rcvd (j, t) (rseg (lvl g.servers i) (sibs i) g.wait s : Seg Node Obs) = [] := by
  show roundIns (lvl g.servers i) g.wait s (j, t) = []
  unfold roundIns lvl
  rw [if_neg (by rintro ⟨h, -⟩; exact hij h.symm)]

theorem wait_sent_other (g : Grid box) (i j s t : Nat) (hij : i ≠ j) :
    Seg.sent (j, t) (rseg (lvl g.servers i) (sibs i) g.wait s : Seg Node Obs) = [] := by
  show List.filterMap _ _ = []
  rw [List.filterMap_eq_nil_iff]
  intro o ho
  rw [List.mem_map] at ho
  obtain ⟨x, -, rfl⟩ := ho
  rw [if_neg (by intro e; exact hij (congrArg Prod.fst e))]

theorem stores_app (a b : List Obs) : stores (a ++ b) = stores a ++ stores b := List.filterMap_append ..

theorem stores_client_on (g : Grid box) (i s : Nat) : stores (g.obsOn true i s) = [] := by
  unfold obsOn stores
  split
  · parts
  · split
    · parts
    · split
      · parts
      · rfl

theorem queriesSent_off (g : Grid box) (s : Nat) : queriesSent (g.obsOff true 0 s) = [] := by
  unfold obsOff queriesSent
  rw [if_pos rfl]
  parts

/-- When a server is past its offline stage, all servers of its level and of the levels
below have made all stores. -/
theorem installed_below {g : Grid box} (h : g.Valid) (hd : g.DistinctTags) (cap : Node × Node → Nat) (n : PNet Node Obs Unit)
    (hn : Reach cap (g.net true true) n) (j s : Nat) (hs : s < g.servers) (hq : ¬ n.seen (j, s) <+: g.obsOff true j s) (k t : Nat)
    (hk : k < g.parties) (ht : t < g.servers) (hj : j ≤ k + 1) : stores (n.seen (k + 1, t)) = (g.tickets k t).map Ticket.head := by
  have key : ∀ i : Node, ∃ pre post, PProc.Does (fun _ => True) (g.prog true true i) (pre ++ post) ∧
      segComm (pre ++ post) = proj i (g.script true true) ∧ (i.2 < g.servers → g.Does true true i.1 i.2 pre post) := by
    rintro ⟨i, s⟩
    by_cases hs : s < g.servers
    · obtain ⟨pre, post, h1⟩ := proc_does h true true (fun _ => hd) i s hs
      exact ⟨pre, post, h1.runs, by rw [proj_script g true true i s hs, segComm_append, h1.commPre, h1.commPost], fun _ => h1⟩
    · refine ⟨[], [], ?_, (proj_script_out g true true i s hs).symm, fun h => absurd h hs⟩
      unfold prog
      rw [if_neg hs]
      exact .done trivial
  choose pre post h1 h2 h3 using key
  obtain ⟨cap', hc'⟩ := exists_roomy g
  obtain ⟨L, hI, hl⟩ := (Inv.start (script_ok h hc' true true) h1 h2).reach_later hn
  have hs3 : ∀ i s, s < g.servers → g.Does true true i s (pre (i, s)) (post (i, s)) := fun i s hs => h3 (i, s) hs
  -- online bytes
  have hon : ∀ i j s t, s < g.servers → t < g.servers → (segSent (j, t) (post (i, s))).length = (segRcvd (i, s) (post (j, t))).length := by
    intro i j s t hs ht
    rw [segSent_of_comm (hs3 i s hs).commPost, segRcvd_of_comm (hs3 j t ht).commPost, on_match h true true i j s t hs ht]
  -- how the offline stage ends
  have htail : ∀ i s, s < g.servers → 0 < i → i ≤ g.parties → g.endSegs i s ++ post (i, s) <:+ pre (i, s) ++ post (i, s) := by
    intro i s hs h0 hi
    obtain ⟨A, hA⟩ := (hs3 i s hs).tail rfl h0 hi
    exact ⟨A, by rw [← hA, List.append_assoc]⟩
  have hS : ∀ i s, s < g.servers → 0 < i → i ≤ g.parties → (aSendReady (i - 1, s)).map Seg.act ++ post (i, s) <:+ pre (i, s) ++ post (i, s) := by
    intro i s hs h0 hi
    refine List.IsSuffix.trans ?_ (htail i s hs h0 hi)
    unfold endSegs
    rw [List.append_assoc, List.cons_append]
    exact (List.suffix_cons _ _).trans (List.suffix_append _ _)
  have hR : ∀ i s, s < g.servers → 0 < i → i ≤ g.parties → rseg (lvl g.servers i) (sibs i) g.wait s ::
      ((aSendReady (i - 1, s)).map Seg.act ++ post (i, s)) <:+ pre (i, s) ++ post (i, s) := by
    intro i s hs h0 hi
    refine List.IsSuffix.trans ?_ (htail i s hs h0 hi)
    unfold endSegs
    rw [List.append_assoc, List.cons_append]
    exact List.suffix_append _ _
  -- the server is past its offline stage
  have hpast : Later (post (j, s)) (L (j, s)) := by
    rcases (hl (j, s)).split with ⟨A', h4⟩ | h4
    · have h5 := hI.seen (j, s)
      rw [h4, segObs_append, segObs_append, ← List.append_assoc] at h5
      have h6 := List.append_cancel_right h5
      rw [(hs3 j s hs).obsPre] at h6
      exact absurd ⟨_, h6⟩ hq
    · exact h4
  -- siblings
  have hsib : ∀ i s t, s < g.servers → t < g.servers → 0 < i → i ≤ g.parties →
      Later ((aSendReady (i - 1, s)).map Seg.act ++ post (i, s)) (L (i, s)) →
      Later (rseg (lvl g.servers i) (sibs i) g.wait t :: ((aSendReady (i - 1, t)).map Seg.act ++ post (i, t))) (L (i, t)) := by
    intro i s t hs ht h0 hi hp
    by_cases hst : s = t
    · subst hst
      exact (Later.drop (.refl _)).trans hp
    · refine hI.past hl hp (hR i t ht h0 hi) ?_
      have := hon i i t s ht hs
      have e : (i - 1, t) ≠ (i, s) := by simp; omega
      have e1 : ((i - 1, t) : Node) ≠ (i, t) := by simp; omega
      rw [segSent_cons, wait_sent g i t s hs hst]
      simp only [segRcvd_append, segSent_append, aSendReady, List.map_cons, List.map_nil, segRcvd_cons, segSent_cons, segSent_nil, segRcvd_nil,
        Seg.sent, Seg.rcvd, List.nil_append, List.append_nil, List.length_append, List.length_cons, List.length_nil]
      omega
  -- the level below
  have hdown : ∀ i t, t < g.servers → 0 < i → i < g.parties →
      Later (rseg (lvl g.servers i) (sibs i) g.wait t :: ((aSendReady (i - 1, t)).map Seg.act ++ post (i, t))) (L (i, t)) →
      Later ((aSendReady (i + 1 - 1, t)).map Seg.act ++ post (i + 1, t)) (L (i + 1, t)) := by
    intro i t ht h0 hi hp
    refine hI.past hl hp (hS (i + 1) t ht (by omega) (by omega)) ?_
    have := hon (i + 1) i t t ht ht
    rw [segRcvd_cons, wait_rcvd g i (i + 1) t t (by omega)]
    simp only [segRcvd_append, segSent_append, aSendReady, List.map_cons, List.map_nil, segRcvd_cons, segSent_cons, segSent_nil, segRcvd_nil,
      Seg.sent, Seg.rcvd, List.nil_append, List.append_nil, List.length_append, List.length_cons, List.length_nil, Nat.add_sub_cancel, if_true]
    omega
  have hall : ∀ k, k < g.parties → j ≤ k + 1 → ∀ t, t < g.servers → Later (rseg (lvl g.servers (k + 1)) (sibs (k + 1)) g.wait t ::
      ((aSendReady (k + 1 - 1, t)).map Seg.act ++ post (k + 1, t))) (L (k + 1, t)) := by
    intro k
    induction k with
    | zero =>
      intro hk hj t ht
      by_cases hj0 : j = 0
      · subst hj0
        refine hsib 1 s t hs ht (by omega) (by omega) (hI.past hl hpast (hS 1 s hs (by omega) (by omega)) ?_)
        have := hon 1 0 s s hs hs
        simp only [segSent_append, aSendReady, List.map_cons, List.map_nil, segSent_cons, segSent_nil,
          Seg.sent, List.nil_append, List.append_nil, List.length_append, List.length_cons, List.length_nil, Nat.sub_self, if_true]
        omega
      · obtain rfl : j = 0 + 1 := by omega
        exact hsib _ s t hs ht (by omega) (by omega) ((Later.drop (Later.drop (.refl _))).trans hpast)
    | succ k ih =>
      intro hk hj t ht
      by_cases hj0 : j = k + 1 + 1
      · subst hj0
        exact hsib _ s t hs ht (by omega) (by omega) ((Later.drop (Later.drop (.refl _))).trans hpast)
      · exact hsib (k + 2) t t ht ht (by omega) (by omega) (hdown (k + 1) t ht (by omega) (by omega) (ih (by omega) (by omega) t ht))
  have h8 := (hall k hk hj t ht).obs
  have h9 := hI.seen (k + 1, t)
  have h10 : stores (segObs (L (k + 1, t))) = [] := by
    obtain ⟨A, hA⟩ := h8
    have e : stores (segObs (rseg (lvl g.servers (k + 1)) (sibs (k + 1)) g.wait t ::
      ((aSendReady (k + 1 - 1, t)).map Seg.act ++ post (k + 1, t)))) = [] := by
      rw [segObs_cons, segObs_append, (hs3 (k + 1) t ht).obsPost, if_pos rfl, stores_app, stores_app, stores_client_on]
      rfl
    rw [← hA, stores_app] at e
    exact (List.append_eq_nil_iff.1 e).2
  have h11 := congrArg stores h9
  rw [stores_app, h10, List.append_nil, segObs_append, (hs3 (k + 1) t ht).obsPre, (hs3 (k + 1) t ht).obsPost] at h11
  rw [h11]
  exact g.stores_pos t true k hk

/-- When a client has sent a query, all stores have been made. -/
theorem installed {g : Grid box} (h : g.Valid) (hd : g.DistinctTags) (cap : Node × Node → Nat) (n : PNet Node Obs Unit)
    (hn : Reach cap (g.net true true) n) (s : Nat) (hs : s < g.servers) (hq : queriesSent (n.seen (0, s)) ≠ []) (k t : Nat)
    (hk : k < g.parties) (ht : t < g.servers) : stores (n.seen (k + 1, t)) = (g.tickets k t).map Ticket.head := by
  refine installed_below h hd cap n hn 0 s hs (fun hp => ?_) k t hk ht (by omega)
  have h7 := Chain.queriesSent_prefix hp
  rw [queriesSent_off] at h7
  exact absurd (List.prefix_nil.1 h7) hq

end Grid
end DPPIR.Protocol
