import Verif.Proofs.Config
import Verif.Model.GenConfig

/-!
# What the generator of configurations returns
-/

namespace DPPIR.Config

/-- Fill loop over a list. -/
theorem fill {α : Type} (n : Nat) (d : α) (g : Nat → Res α) (f : Nat → α) (hg : ∀ j < n, g j = .ok (f j)) :
    forRange 0 n (fun j l => do let v ← g j; wr l j v) (List.replicate n d) = .ok ((List.range n).map f) := by
  obtain ⟨l, h1, h2, h3⟩ := forRange_inv (fun j (l : List α) => l.length = n ∧ ∀ k < j, l[k]? = some (f k))
    (fun j l => do let v ← g j; wr l j v) 0 n (List.replicate n d) (by omega) ⟨by simp, by simp⟩ (by
      rintro j l - hj ⟨hl, hk⟩
      refine ⟨l.set j (f j), by rw [hg j hj, bind_ok, wr_ok (by omega)], by simpa using hl, ?_⟩
      intro k hk2
      by_cases h : k = j
      · subst h; rw [List.getElem?_set_self (by omega)]
      · rw [List.getElem?_set_ne (Ne.symm h)]; exact hk k (by omega))
  rw [h1]
  congr 1
  apply List.ext_getElem?
  intro k
  by_cases hk : k < n
  · rw [h3 k hk]; simp [hk]
  · rw [List.getElem?_eq_none (by omega), List.getElem?_eq_none (by simp; omega)]

/-- The configuration `FromArgs` returns, `f i j` being the IPs. -/
def generated (keys : Nat → (Fin keySize → Byte) × (Fin keySize → Byte)) (db : Int)
    (e d : BitVec 64) (P S : Nat) (f : Nat → Nat → List Byte) : Config :=
  { dbSize := BitVec.ofInt 32 db, epsilon := e, delta := d, partyCount := BitVec.ofNat 8 P
    serverCount := BitVec.ofNat 8 S
    parties := (List.range P).map (fun i =>
      { sharedSeed := BitVec.ofNat 32 (i + 1000)
        servers := (List.range S).map (fun j => genServer (BitVec.ofNat 8 S) i j (f i j))
        pkey := (keys i).1, skey := (keys i).2 }) }

/-- What `FromArgs` returns. -/
theorem fromArgs_eq (keys : Nat → (Fin keySize → Byte) × (Fin keySize → Byte)) (db : Int)
    (e d : BitVec 64) (P S : Nat) (hP : P < 256) (hS : S < 256) (ips : List (List Byte))
    (hips : ips.length = P * S ∨ ips = []) :
    ∃ f : Nat → Nat → List Byte, fromArgs keys db e d P S ips = .ok (generated keys db e d P S f) ∧
      ∀ i j, i < P → j < S → (ips = [] → f i j = localhost) ∧ (ips ≠ [] → ips[i * S + j]? = some (f i j)) := by
  have hP' : (BitVec.ofInt 8 (P : Int)) = BitVec.ofNat 8 P := by simp
  have hS' : (BitVec.ofInt 8 (S : Int)) = BitVec.ofNat 8 S := by simp
  have hPn : (BitVec.ofNat 8 P).toNat = P := by simp; omega
  have hSn : (BitVec.ofNat 8 S).toNat = S := by simp; omega
  have hidx : ∀ i j, i < P → j < S → ips ≠ [] → i * S + j < ips.length := by
    intro i j hi hj hne
    rcases hips with h | h
    · rw [h]
      have : (i + 1) * S ≤ P * S := Nat.mul_le_mul_right _ hi
      have : (i + 1) * S = i * S + S := by rw [Nat.add_mul, Nat.one_mul]
      omega
    · exact absurd h hne
  refine ⟨fun i j => if ips = [] then localhost else ips.getD (i * S + j) [], ?_, ?_⟩
  · unfold fromArgs generated
    simp only [hP', hS', hPn, hSn]
    rw [if_pos (by rcases hips with h | h; exact Or.inl h; exact Or.inr (by simp [h]))]
    have hss : ∀ i < P, argServers ips (BitVec.ofNat 8 S) i = .ok ((List.range S).map (fun j =>
        genServer (BitVec.ofNat 8 S) i j (if ips = [] then localhost else ips.getD (i * S + j) []))) := by
      intro i hi
      unfold argServers
      rw [hSn]
      have := fill S emptyServer (fun j => do
        let ip ← argIp ips (BitVec.ofNat 8 S) i j
        .ok (genServer (BitVec.ofNat 8 S) i j ip)) (fun j =>
        genServer (BitVec.ofNat 8 S) i j (if ips = [] then localhost else ips.getD (i * S + j) [])) (by
          intro j hj
          unfold argIp
          rw [hSn]
          by_cases h : ips = []
          · simp only [if_pos h, bind_ok]
          · simp only [if_neg h]
            have hlt := hidx i j hi hj h
            rw [rd_ok hlt, bind_ok, List.getD_eq_getElem?_getD, List.getElem?_eq_getElem hlt, Option.getD_some])
      rw [← this]
      congr 1
      funext j l
      cases argIp ips (BitVec.ofNat 8 S) i j <;> rfl
    have := fill P emptyParty (fun i => do
        let ss ← argServers ips (BitVec.ofNat 8 S) i
        .ok ({ sharedSeed := BitVec.ofNat 32 (i + 1000), servers := ss, pkey := (keys i).1, skey := (keys i).2 } : PartyConfig))
      (fun i => { sharedSeed := BitVec.ofNat 32 (i + 1000)
                  servers := (List.range S).map (fun j =>
                    genServer (BitVec.ofNat 8 S) i j (if ips = [] then localhost else ips.getD (i * S + j) []))
                  pkey := (keys i).1, skey := (keys i).2 }) (by
        intro i hi
        rw [hss i hi, bind_ok])
    have hcongr : (fun i ps => do
        let ss ← argServers ips (BitVec.ofNat 8 S) i
        wr ps i ({ sharedSeed := BitVec.ofNat 32 (i + 1000), servers := ss, pkey := (keys i).1, skey := (keys i).2 } : PartyConfig)) =
      (fun (j : Nat) (l : List PartyConfig) => do
        let v ← (do
          let ss ← argServers ips (BitVec.ofNat 8 S) j
          .ok ({ sharedSeed := BitVec.ofNat 32 (j + 1000), servers := ss, pkey := (keys j).1, skey := (keys j).2 } : PartyConfig))
        wr l j v) := by
      funext j l
      cases argServers ips (BitVec.ofNat 8 S) j <;> rfl
    rw [hcongr, this, bind_ok]
  · intro i j hi hj
    constructor
    · intro h; simp [h]
    · intro h
      have hlt := hidx i j hi hj h
      simp only [if_neg h]
      rw [List.getD_eq_getElem?_getD, List.getElem?_eq_getElem hlt, Option.getD_some]

end DPPIR.Config
