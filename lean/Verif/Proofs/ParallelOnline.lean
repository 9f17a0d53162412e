import Verif.Proofs.DeshuffleRun

/-!
# The online stage of a parallel party
-/

namespace DPPIR.Protocol
open DPPIR Proc PNet Onion Shuffle Spec Additive

variable {box : SealedBox} {ι : Type} [DecidableEq ι]

/-! ## Responses from the next party -/

theorem findSource_at (S : Nat) (cnt : Nat → Nat) {s j : Nat} (hs : s < S) (hj : j < cnt s) :
    findSourceLoop (tab S (preSum cnt)) S (preSum cnt s + j) 1 = .ok s := by
  have hlt : preSum cnt s + j < preSum cnt S := by
    have := preSum_mono cnt (show s + 1 ≤ S by omega)
    rw [preSum_succ] at this
    omega
  obtain ⟨s', h1, h2, h3, h4⟩ := findSource_ok S cnt (preSum cnt s + j) 1 (le_refl _) (by omega) hlt (by simp)
  have e : tab S (fun s => ((tab S cnt).take s).sum) = tab S (preSum cnt) := by
    apply tab_congr
    intro i hi
    rw [tab_take _ _ _ (by omega)]
    rfl
  rw [e] at h1
  rw [tab_take _ _ _ (by omega)] at h3 h4
  change preSum cnt s' ≤ _ at h3
  change _ < preSum cnt s' + _ at h4
  have := preSum_inj cnt (s := s) (s' := s') (j := j) (j' := preSum cnt s + j - preSum cnt s') hj (by omega) (by omega)
  rw [h1, this.1]

theorem parallelCollectResponses_ok (p : ParallelParty box) (next : ι) (S : Nat) (hS : 0 < S) (cnt nz : Nat → Nat)
    (all : Nat → List Response) (hall : ∀ s, s < S → (all s).length = cnt s) (hnz : ∀ s, s < S → nz s ≤ cnt s)
    (h32 : preSum cnt S < 2 ^ 32) (hpre : p.pshuffler.prefixFrom = tab S (preSum cnt)) (hpc : p.pshuffler.serverCount = S)
    (hnf : p.noiseFrom = tab S nz) (hnp : p.noisePrefix = tab S (fun s => preSum nz (s + 1))) (hcount : p.serverCount = S)
    (hsc : p.shuffledCount = preSum cnt S) (F B : List Nat) (hF : IsShuffler F B (preSum cnt S)) (hB : p.shuffler.backward = B) :
    Runs (p.collectResponses next) ((pick B ((List.range S).flatMap all)).flatMap (fun r => aRecvResponse next r)) { p with
      shuffler := p.shuffler.finishBackward
      inResponses := { ptr := (List.range S).flatMap (fun s => (all s).drop (nz s))
                       capacity := ((List.range S).flatMap (fun s => (all s).drop (nz s))).length
                       right := 0 } } := by
  have hcl : ((List.range S).flatMap all).length = preSum cnt S := by
    rw [concat_length]; exact preSum_congr hall
  have hbl := hF.back
  have hrl : ∀ s, s < S → ((all s).drop (nz s)).length = cnt s - nz s := by
    intro s hs; rw [List.length_drop, hall s hs]
  have hout : ((List.range S).flatMap (fun s => (all s).drop (nz s))).length = preSum (fun s => cnt s - nz s) S := by
    rw [concat_length]; exact preSum_congr hrl
  have hsplit : ∀ n, n ≤ S → preSum cnt n = preSum nz n + preSum (fun s => cnt s - nz s) n := by
    intro n hn
    rw [← preSum_add]
    exact preSum_congr (fun i hi => by have := hnz i (by omega); omega)
  have hpk : pick B ((List.range S).flatMap all) = B.map (fun i => ((List.range S).flatMap all).getD i ⟨0, fun _ => 0⟩) := by
    refine pick_eq_getD _ _ _ ?_
    intro i hi
    obtain ⟨j, hj⟩ := List.getElem?_of_mem hi
    rw [hcl]
    exact (hF.lt ((hF.inv _ _).2 hj)).1
  rw [hpk]
  unfold ParallelParty.collectResponses
  have hn0 : rd p.noisePrefix (p.serverCount - 1) = .ok (preSum nz S) := by
    rw [hcount, hnp, rd_tab _ _ _ (by omega), Nat.sub_add_cancel hS]
  refine Runs.bind' (Runs.lift hn0) ?_ rfl
  have hcap : wrap32 (p.shuffledCount + 2 ^ 32 - preSum nz S) = preSum (fun s => cnt s - nz s) S := by
    have := hsplit S (le_refl _)
    rw [hsc, show preSum cnt S + 2 ^ 32 - preSum nz S = preSum (fun s => cnt s - nz s) S + 2 ^ 32 by omega]
    unfold wrap32
    rw [Nat.add_mod_right, Nat.mod_eq_of_lt (by omega)]
  rw [hcap, ← hout]
  generalize hN : ((List.range S).flatMap (fun s => (all s).drop (nz s))).length = N at *
  obtain ⟨p', h1, ptr', rfl, h2, h3⟩ := Runs.loop_list (fun j (p' : ParallelParty box) => ∃ ptr', p' = { p with
        inResponses := { ptr := ptr', capacity := N, right := 0 } } ∧ ptr'.length = N ∧
        ∀ i s c, i < j → s < S → nz s + c < cnt s → B[i]? = some (preSum cnt s + (nz s + c)) →
          ptr'[preSum (fun s => cnt s - nz s) s + c]? = (all s)[nz s + c]?)
    (ParallelParty.collectResponse next) (fun r => aRecvResponse next r)
    (B.map (fun i => ((List.range S).flatMap all).getD i ⟨0, fun _ => 0⟩)) 0
    { p with inResponses := Batch.initialize N ⟨0, fun _ => 0⟩ }
    ⟨List.replicate N ⟨0, fun _ => 0⟩, by simp only [Batch.initialize], by simp, by
      intro i s c hi; omega⟩ (by
      rintro j p' hj ⟨ptr', rfl, g1, g2⟩
      rw [List.length_map] at hj
      have hBj : B[j]? = some B[j] := List.getElem?_eq_getElem hj
      have hlt := (hF.lt ((hF.inv _ _).2 hBj)).1
      have htg : p.shuffler.deshuffle (0 + j) = .ok B[j] := by
        rw [Nat.zero_add]
        unfold LocalShuffler.deshuffle
        rw [hB]
        exact rd_ok hj
      obtain ⟨s, k, hs, hk, hBk⟩ := preSum_find cnt S B[j] hlt
      rw [List.getElem_map]
      rw [hBk] at htg hBj ⊢
      have hsrc : p.pshuffler.findSourceOf (preSum cnt s + k) = .ok s := by
        unfold ParallelShuffler.findSourceOf
        rw [hpre, hpc, findSource_at S cnt hs hk]
      have hst : p.pshuffler.prefixCountFrom s = .ok (preSum cnt s) := by
        unfold ParallelShuffler.prefixCountFrom
        rw [hpre, rd_tab _ _ _ hs]
      have hnfs : rd p.noiseFrom s = .ok (nz s) := by rw [hnf, rd_tab _ _ _ hs]
      have hnps : rd p.noisePrefix s = .ok (preSum nz (s + 1)) := by rw [hnp, rd_tab _ _ _ hs]
      have hm := preSum_mono cnt (show s + 1 ≤ S by omega)
      rw [preSum_succ] at hm
      have hns := hnz s hs
      have hel : ((List.range S).flatMap all).getD (preSum cnt s + k) ⟨0, fun _ => 0⟩ = (all s).getD k ⟨0, fun _ => 0⟩ := by
        have := concat_get S all s k hs (by rw [hall s hs]; exact hk)
        rw [preSum_congr (fun i hi => hall i (by omega))] at this
        rw [List.getD_eq_getElem?_getD, this, List.getD_eq_getElem?_getD]
      rw [hel]
      by_cases hc : nz s ≤ k
      · obtain ⟨c, rfl⟩ := Nat.exists_eq_add_of_le hc
        have e1 := hsplit s (by omega)
        have e2 := hsplit (s + 1) (by omega)
        have e3 := preSum_succ nz s
        have hle : preSum (fun s => cnt s - nz s) s + c < N := by
          have := preSum_mono (fun s => cnt s - nz s) (show s + 1 ≤ S by omega)
          rw [preSum_succ] at this
          omega
        refine ⟨{ p with inResponses := { ptr := ptr'.set (preSum (fun s => cnt s - nz s) s + c) ((all s).getD (nz s + c) ⟨0, fun _ => 0⟩)
                                          capacity := N
                                          right := 0 } }, ?_, _, rfl, by simpa using g1, ?_⟩
        · unfold ParallelParty.collectResponse
          refine Runs.bind' (runs_recvResponse next _) (Runs.bind' (Runs.lift htg) (Runs.bind' (Runs.lift hsrc) (Runs.bind' (Runs.lift hst)
            (Runs.bind' (Runs.lift hnfs) ?_ rfl) rfl) rfl) rfl) (List.append_nil _).symm
          rw [wrap32_of_lt (show preSum cnt s + nz s < 2 ^ 32 by omega), if_pos (by omega)]
          refine Runs.bind' (Runs.lift hnps) ?_ rfl
          have hi : wrap32 (preSum cnt s + (nz s + c) + 2 ^ 32 - preSum nz (s + 1)) = preSum (fun s => cnt s - nz s) s + c := by
            rw [show preSum cnt s + (nz s + c) + 2 ^ 32 - preSum nz (s + 1) = preSum (fun s => cnt s - nz s) s + c + 2 ^ 32 by omega]
            unfold wrap32
            rw [Nat.add_mod_right, Nat.mod_eq_of_lt (by omega)]
          rw [hi]
          refine Runs.bind' (Runs.lift ?_) (Runs.done _) rfl
          unfold Batch.set
          simp only
          rw [wr_ok (by omega), bind_ok]
        · intro i s' c' hi hs' hc' hb'
          by_cases e : i = j
          · subst e
            rw [hBj] at hb'
            have := preSum_inj cnt (s := s) (s' := s') hk hc' (Option.some.inj hb')
            obtain ⟨rfl, hcc⟩ := this
            have : c = c' := by omega
            subst this
            rw [List.getElem?_set_self (by omega), List.getD_eq_getElem?_getD,
              List.getElem?_eq_getElem (by rw [hall s hs]; exact hk)]
            rfl
          · have : preSum (fun s => cnt s - nz s) s + c ≠ preSum (fun s => cnt s - nz s) s' + c' := by
              intro h
              obtain ⟨rfl, rfl⟩ := preSum_inj (fun s => cnt s - nz s) (s := s) (s' := s') (show c < cnt s - nz s by omega)
                (show c' < cnt s' - nz s' by omega) h
              have h4 := (hF.inv _ _).2 hBj
              have h5 := (hF.inv _ _).2 hb'
              rw [h4] at h5
              exact e (Option.some.inj h5).symm
            rw [List.getElem?_set_ne this]
            exact g2 i s' c' (by omega) hs' hc' hb'
      · refine ⟨{ p with inResponses := { ptr := ptr', capacity := N, right := 0 } }, ?_, ptr', rfl, g1, ?_⟩
        · unfold ParallelParty.collectResponse
          refine Runs.bind' (runs_recvResponse next _) (Runs.bind' (Runs.lift htg) (Runs.bind' (Runs.lift hsrc) (Runs.bind' (Runs.lift hst)
            (Runs.bind' (Runs.lift hnfs) ?_ rfl) rfl) rfl) rfl) (List.append_nil _).symm
          rw [wrap32_of_lt (show preSum cnt s + nz s < 2 ^ 32 by omega), if_neg (by omega)]
          exact Runs.done _
        · intro i s' c' hi hs' hc' hb'
          by_cases e : i = j
          · subst e
            rw [hBj] at hb'
            have := preSum_inj cnt (s := s) (s' := s') hk hc' (Option.some.inj hb')
            obtain ⟨rfl, hcc⟩ := this
            omega
          · exact g2 i s' c' (by omega) hs' hc' hb')
  rw [List.length_map, hbl] at h3
  rw [List.length_map, hbl, ← hsc] at h1
  have hptr : ptr' = (List.range S).flatMap (fun s => (all s).drop (nz s)) := by
    apply List.ext_getElem?
    intro i
    by_cases hi : i < N
    · obtain ⟨s, c, hs, hc, rfl⟩ := preSum_find (fun s => cnt s - nz s) S i (by omega)
      have hm := preSum_mono cnt (show s + 1 ≤ S by omega)
      rw [preSum_succ] at hm
      obtain ⟨f, hf, hf2⟩ := hF.get (i := preSum cnt s + (nz s + c)) (by omega)
      rw [h3 f s c hf2 hs (by omega) ((hF.inv _ _).1 hf)]
      have := concat_get S (fun s => (all s).drop (nz s)) s c hs (by rw [hrl s hs]; exact hc)
      rw [preSum_congr (fun i hi => hrl i (by omega))] at this
      rw [this, List.getElem?_drop]
    · rw [List.getElem?_eq_none (by omega), List.getElem?_eq_none (by omega)]
  refine Runs.bind' h1 ?_ (List.append_nil _).symm
  rw [hptr]
  exact Runs.done _

end DPPIR.Protocol
