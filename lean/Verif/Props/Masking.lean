import Verif.Proofs.Additive
import Mathlib.Logic.Function.Basic

/-!
# C05, C06: masking of responses
-/

namespace DPPIR.Props
open DPPIR.Additive

/-- **C05.** For `n ≥ 1` shares (any number a vector can hold), whatever bytes
the generator draws: `n` shares are returned, and applying all of them to any
response, in any order, gives back that response. -/
theorem C05_masking_roundtrip (rng : Nat → Preshare) (n : Nat) (h1 : 1 ≤ n) (h2 : n < 2 ^ 57) :
    ∃ shares, generateAdditiveSecretShares rng n = .ok shares ∧ shares.length = n ∧
      ∀ (order : List Preshare), order.Perm shares → ∀ r : Response,
        order.foldlM additiveReconstruct r = .ok r := by
  refine ⟨_, generate_ok rng n h1 h2, by simp; omega, ?_⟩
  intro order hp r
  generalize (List.range (n - 1)).map rng = draws at hp
  rw [reconstruct_all_ok, bxAll_perm hp, bxAll_append, bxAll_zero draws (Response.mem r)]
  have : ∀ a s : Preshare, bxAll [s] a = bx a s := fun _ _ => rfl
  rw [this, bx_cancel, ofMem_mem]

/-- **C05.** Every byte of value and signature is processed, and the destination
may be the tally itself or any other response. -/
theorem C05_reconstruct_bytes (r target : Response) (share : Preshare) :
    ∃ out, additiveReconstruct r share = .ok out ∧ additiveReconstructInto r share target = .ok out ∧
      ∀ i : Fin 52, out.encode[i]? = (do
        let a ← r.encode[i]?
        pure (a ^^^ share i)) := by
  refine ⟨_, additiveReconstruct_ok r share, additiveReconstructInto_ok r share target, ?_⟩
  intro i
  have h : Response.mem (Response.ofMem (bx (Response.mem r) share)) i = Response.mem r i ^^^ share i := by
    rw [mem_ofMem]; rfl
  generalize hout : Response.ofMem (bx (Response.mem r) share) = out at h
  unfold Response.mem arrayOf at h
  have hl1 : (i : Nat) < out.encode.length := by simp
  have hl2 : (i : Nat) < r.encode.length := by simp
  have g1 : out.encode[i]? = some (out.encode[(i : Nat)]'hl1) := by simp
  have g2 : r.encode[i]? = some (r.encode[(i : Nat)]'hl2) := by simp
  rw [g1, g2]
  show _ = some _
  congr 1
  rw [List.getD_eq_getElem _ _ hl1, List.getD_eq_getElem _ _ hl2] at h
  exact h

/-- **C05.** With `n = 0` the loop bound underflows and the call does not
return. -/
theorem C05_no_shares_does_not_return (rng : Nat → Preshare) :
    ∀ shares, generateAdditiveSecretShares rng 0 ≠ .ok shares := by
  intro shares h
  have : generateAdditiveSecretShares rng 0 = .error .exception := by
    unfold generateAdditiveSecretShares
    simp only
    rw [if_pos (by decide)]
  rw [this] at h
  cases h

/-- Non-vacuity of C05: three shares, applied in reverse order. -/
example : (1 ≤ 3 ∧ 3 < 2 ^ 57) ∧
    (∃ shares, generateAdditiveSecretShares (fun i j => BitVec.ofNat 8 (17 * i + j + 1)) 3 = .ok shares ∧
      shares.reverse.Perm shares ∧ shares.reverse ≠ shares) := by
  refine ⟨by decide, _, generate_ok _ 3 (by decide) (by decide), List.reverse_perm _, ?_⟩
  intro h
  have := congrArg (fun l => (l.map (fun f : Preshare => f 0))) h
  revert this
  decide

/-- **C06.** Any `n-1` of the `n` shares are jointly uniform: whichever position
`k` is left out, every assignment `others` of the remaining `n-1` shares comes
from exactly one choice of the `n-1` random draws. -/
theorem C06_shares_jointly_uniform (n k : Nat) (h1 : 2 ≤ n) (h2 : n < 2 ^ 57) (hk : k < n)
    (others : List Preshare) (hl : others.length = n - 1) :
    ∃! draws : List Preshare, draws.length = n - 1 ∧
      ∃ shares, generateAdditiveSecretShares (fun i => draws.getD i 0) n = .ok shares ∧
        shares.eraseIdx k = others := by
  have hz : (fun _ => 0 : Preshare) = 0 := rfl
  -- shares as a function of the draws
  have hsh : ∀ draws : List Preshare, draws.length = n - 1 →
      generateAdditiveSecretShares (fun i => draws.getD i 0) n = .ok (draws ++ [bxAll draws (fun _ => 0)]) := by
    intro draws hd
    rw [generate_ok _ n (by omega) h2]
    have : (List.range (n - 1)).map (fun i => draws.getD i 0) = draws := by
      apply List.ext_getElem
      · simp [hd]
      · intro i h3 h4
        simp [h4]
    rw [this]
  by_cases hlast : k = n - 1
  · refine ⟨others, ⟨hl, _, hsh others hl, ?_⟩, ?_⟩
    · rw [hlast, ← hl]
      simp [List.eraseIdx_append_of_length_le]
    · rintro d ⟨hd, sh, hg, he⟩
      rw [hsh d hd] at hg
      have := Except.ok.inj hg
      subst this
      rw [hlast, ← hd] at he
      simpa [List.eraseIdx_append_of_length_le] using he
  · have hk' : k < n - 1 := by omega
    -- others = front ++ back ++ [acc]
    obtain ⟨body, acc, hbody⟩ : ∃ body acc, others = body ++ [acc] := by
      refine ⟨others.dropLast, others.getLast (by intro h; rw [h] at hl; simp at hl; omega), ?_⟩
      exact (List.dropLast_append_getLast _).symm
    have hbl : body.length = n - 2 := by
      have := hl; rw [hbody] at this; simp at this; omega
    let v : Preshare := bx acc (bxAll body (fun _ => 0))
    -- the missing draw is determined
    have hins : ∀ w : Preshare, bxAll (body.insertIdx k w) (fun _ => 0) = bx (bxAll body (fun _ => 0)) w := by
      intro w
      have hp : (body.insertIdx k w).Perm (w :: body) := List.perm_insertIdx w body (by omega)
      rw [bxAll_perm hp]
      show bxAll body (bx _ w) = _
      rw [bxAll_zero, zero_bx, bx_comm]
    refine ⟨body.insertIdx k v, ⟨?_, _, hsh _ ?_, ?_⟩, ?_⟩
    · rw [List.length_insertIdx_of_le_length (by omega)]; omega
    · rw [List.length_insertIdx_of_le_length (by omega)]; omega
    · rw [List.eraseIdx_append_of_lt_length (by rw [List.length_insertIdx_of_le_length (by omega)]; omega),
        List.eraseIdx_insertIdx_self, hins, hbody]
      congr 2
      show bx _ (bx acc _) = acc
      rw [bx_comm, bx_cancel]
    · rintro d ⟨hd, sh, hg, he⟩
      rw [hsh d hd] at hg
      have := Except.ok.inj hg
      subst this
      rw [List.eraseIdx_append_of_lt_length (by omega), hbody] at he
      have he1 := List.append_inj_left' he rfl
      have he2 := List.append_inj_right' he rfl
      have hdk : d = body.insertIdx k (d[k]'(by omega)) := by
        rw [← he1, List.insertIdx_eraseIdx_getElem (by omega)]
      have hacc : bxAll d (fun _ => 0) = acc := by simpa using he2
      rw [hdk] at hacc
      rw [hins] at hacc
      rw [hdk]
      congr 1
      show _ = bx acc _
      rw [← hacc, bx_comm, ← bx_assoc, bx_self, zero_bx]

/-- **C06.** What travels back on a hop: the response masked by the shares of the
parties `j, …, n-1` for some `1 ≤ j < n`.  Fix the response, a party `k < j`
whose share is not known, and all other random draws.  As the draw for party `k`
varies, the masked response takes every value exactly once; so it is uniform and
says nothing about the response. -/
theorem C06_masked_response_uniform (rng : Nat → Preshare) (n j k : Nat) (h2 : n < 2 ^ 57)
    (hkj : k < j) (hjn : j < n) (r seen : Response) :
    ∃! d : Preshare, ∃ shares,
      generateAdditiveSecretShares (Function.update rng k d) n = .ok shares ∧
      (shares.drop j).foldlM additiveReconstruct r = .ok seen := by
  have hn : 1 ≤ n := by omega
  -- value of the mask
  let rest : Preshare := bxAll (((List.range j).eraseIdx k).map rng) (fun _ => 0)
  have hmask : ∀ d : Preshare, ∀ shares,
      generateAdditiveSecretShares (Function.update rng k d) n = .ok shares →
      (shares.drop j).foldlM additiveReconstruct r =
        .ok (Response.ofMem (bx (Response.mem r) (bx d rest))) := by
    intro d shares hg
    rw [generate_ok _ n hn h2] at hg
    have := Except.ok.inj hg
    subst this
    rw [reconstruct_all_ok]
    congr 2
    rw [bxAll_zero]
    congr 1
    -- drop j of (draws ++ [xor of all]) has the XOR of the first j draws
    set f := Function.update rng k d with hf
    have hsplit : (List.range (n - 1)).map f = ((List.range j).map f) ++ ((List.range (n - 1)).map f).drop j := by
      conv_lhs => rw [← List.take_append_drop j ((List.range (n - 1)).map f)]
      congr 1
      rw [← List.map_take, List.take_range, Nat.min_eq_left (by omega)]
    have hdrop : ((List.range (n - 1)).map f ++ [bxAll ((List.range (n - 1)).map f) (fun _ => 0)]).drop j =
        ((List.range (n - 1)).map f).drop j ++ [bxAll ((List.range (n - 1)).map f) (fun _ => 0)] := by
      rw [List.drop_append_of_le_length (by simp; omega)]
    rw [hdrop]
    set tl := ((List.range (n - 1)).map f).drop j with htl
    rw [hsplit, bxAll_append, bxAll_append, bxAll_zero tl (bxAll _ _)]
    show bx (bxAll tl _) (bx _ (bxAll tl _)) = _
    rw [bx_comm, bx_cancel]
    have hperm : ((List.range j).map f).Perm (d :: ((List.range j).eraseIdx k).map rng) := by
      have hk1 : k < (List.range j).length := by simpa using hkj
      have : (List.range j).Perm ((List.range j)[k] :: (List.range j).eraseIdx k) :=
        (List.getElem_cons_eraseIdx_perm hk1).symm
      have h3 := this.map f
      rw [List.map_cons, List.getElem_range] at h3
      have e1 : f k = d := by simp [hf]
      have e2 : ((List.range j).eraseIdx k).map f = ((List.range j).eraseIdx k).map rng := by
        apply List.map_congr_left
        intro a ha
        have hne : a ≠ k := by
          intro hak
          subst hak
          have hnd : (List.range j).Nodup := List.nodup_range
          have h4 := (List.getElem_cons_eraseIdx_perm hk1).nodup_iff.2 hnd
          rw [List.getElem_range] at h4
          exact (List.nodup_cons.1 h4).1 ha
        simp [hf, hne]
      rw [e1, e2] at h3
      exact h3
    rw [bxAll_perm hperm]
    show bxAll _ (bx _ d) = _
    rw [bxAll_zero, zero_bx]
  refine ⟨bx (bx (Response.mem r) (Response.mem seen)) rest, ⟨_, generate_ok _ n hn h2, ?_⟩, ?_⟩
  · rw [hmask _ _ (generate_ok _ n hn h2), bx_cancel, ← bx_assoc, bx_self, zero_bx, ofMem_mem]
  · rintro d ⟨sh, hg, hr⟩
    rw [hmask d sh hg] at hr
    have := Except.ok.inj hr
    subst this
    rw [mem_ofMem, ← bx_assoc (Response.mem r), bx_self, zero_bx, bx_cancel]

/-- Non-vacuity of C06: 4 parties; hop before party 2; party 1 is honest. -/
example : (4 < 2 ^ 57 ∧ 1 < 2 ∧ 2 < 4) ∧ 2 ≤ 4 ∧
    ([fun _ => 1, fun _ => 2, fun _ => 3] : List Preshare).length = 4 - 1 := by decide

end DPPIR.Props
