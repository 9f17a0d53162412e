import Verif.Proofs.StartPrivate
import Verif.Props.PrivacyRounded
import Verif.Props.Joint

/-!
# C63: privacy from the command line to the look-ups
-/

open MeasureTheory

namespace DPPIR.Props
open DPPIR.Config DPPIR.Connect DPPIR.Noise DPPIR.Protocol DPPIR.Onion DPPIR.Main DPPIR.Joint DPPIR.Spec

variable {box : SealedBox} {H : Type} [DecidableEq H]

/-- What is known of the parameters in a configuration that the constructor accepts. -/
private theorem parameters {w : World box} (hA : IsDouble w.arith) {c : Config} {d : Dist} (hd : w.distribution c = .ok d) {epsilon delta : ℝ}
    (hce : Dbl.ofBits c.epsilon = .fin epsilon) (hcd : Dbl.ofBits c.delta = .fin delta) (he : 0 < epsilon) (he1 : epsilon ≤ 2 ^ 1000)
    (hd0 : 0 < delta) (hd1 : delta ≤ 1) {cutoff : ℝ} (hcut : d.cutoff = .fin cutoff) :
    ⌊2 * cutoff⌋.toNat < 2 ^ 32 ∧
    DP (uniformDraws.map (fun r => codeSample w.arith d r.1 r.2)) (epsilon * (1 + (1 / 2) ^ 50))
      (roundedDelta (epsilon * (1 + (1 / 2) ^ 50)) delta cutoff) ∧
    ∀ (s0 : Nat) (row : Nat → Nat) (k S : Nat) (r : Fin c.dbSize.toNat → Draws), ((w.asking s0 row).drawing k S r).SamplesUpTo d ⌊2 * cutoff⌋.toNat := by
  unfold World.distribution at hd
  rw [hce, hcd] at hd
  obtain ⟨c', h1, h2, h3, -, h5⟩ := new_dp hA he he1 hd0 hd1 hd
  have e : c' = cutoff := by rw [hcut] at h1; injection h1 with h1; exact h1.symm
  subst e
  obtain ⟨b, c'', rfl, -, -, -, -, -, h6, -⟩ := accepted_rounded hA he he1 hd0 hd1 hd
  injection hcut with e
  subst e
  refine ⟨?_, by rw [← codeLaw_eq]; exact h5, fun s0 row k S r => ?_⟩
  · have h7 : (⌊2 * c''⌋.toNat : ℝ) ≤ 2 * c'' := by
      have h8 : 0 ≤ ⌊2 * c''⌋ := Int.floor_nonneg.mpr (by linarith)
      have h9 : ((⌊2 * c''⌋.toNat : ℤ)) = ⌊2 * c''⌋ := Int.toNat_of_nonneg h8
      have h10 : (⌊2 * c''⌋.toNat : ℝ) = (⌊2 * c''⌋ : ℝ) := by exact_mod_cast h9
      rw [h10]
      exact Int.floor_le _
    exact_mod_cast lt_of_le_of_lt h7 h3
  · obtain ⟨x, hx, hN⟩ := C61_samples ((w.asking s0 row).drawing k S r) (sound_of_double hA) c ⟨false, .fin b, .fin c''⟩
      (by unfold World.distribution; rw [hce, hcd]; exact hd) h6
    injection hx with e
    subst e
    exact hN

/-- **C63.** One server per party, real sampling, and the parameters `epsilon` and `delta`
that the configuration file stands for.  Let every call of `rand()` in one party `k` other
than the backend return each of its results with the same probability, independently, and
let everything else be fixed: what the other parties draw, the keys, the client's queries
but one.  The numbers of look-ups at the backend in complete runs of the deployment, as
started from the command line, are as private as in `C20_rounded_partial`, whatever the
schedule. -/
theorem C63_one_server (w : World box) (hw : w.Sane) (hA : IsDouble w.arith) (hs : w.sampling = true) (c : Config) (d : Dist)
    (h : Usable w c d) (hS : c.serverCount.toNat = 1) (epsilon delta : ℝ) (hce : Dbl.ofBits c.epsilon = .fin epsilon)
    (hcd : Dbl.ofBits c.delta = .fin delta) (he : 0 < epsilon) (he1 : epsilon ≤ 2 ^ 1000) (hd0 : 0 < delta) (hd1 : delta ≤ 1)
    (cutoff : ℝ) (hcut : d.cutoff = .fin cutoff)
    (file : String → Option (List Byte)) (path stage : String) (hpath : path ≠ "") (hst : stage = "online" ∨ stage = "all")
    (hc : readFile (file path) = .ok c) (q : Nat) (hq : q + (c.partyCount.toNat - 1) * (c.dbSize.toNat * ⌊2 * cutoff⌋.toNat) < 2 ^ 32)
    (k : Nat) (hk : k + 1 < c.partyCount.toNat) (row row' : Nat → Nat) (j : Nat) (hr : ∀ i, i ≠ j → row i = row' i) :
    NoBetterThan (rows := c.dbSize.toNat) (epsilon * (1 + (1 / 2) ^ 50)) (roundedDelta (epsilon * (1 + (1 / 2) ^ 50)) delta cutoff)
      (fun r => LooksUp (launch ((w.asking 0 row).drawing k 1 r) file path stage c.partyCount.toNat q) [c.partyCount.toNat])
      (fun r => LooksUp (launch ((w.asking 0 row').drawing k 1 r) file path stage c.partyCount.toNat q) [c.partyCount.toNat]) := by
  intro T
  obtain ⟨hN32, hdp, hN⟩ := parameters hA h.noise hce hcd he he1 hd0 hd1 hcut
  refine private_draws uniformDraws _ (measurable_of_countable _) (by positivity) hdp _ _
    (fun key : Fin c.dbSize.toNat => askedFor ((chainOf w c d q).asking row) key + otherNoise (chainOf w c d q) k key)
    (fun key : Fin c.dbSize.toNat => askedFor ((chainOf w c d q).asking row') key + otherNoise (chainOf w c d q) k key) ?_ ?_ ?_ T
  · exact fun r x hx => looksUp_eq hw h hS hs hpath hst hc (hN 0 row k 1 r) hN32 hq hk hx
  · exact fun r => ⟨complete_of_answers (C61_one_server _ (Sane.asking_drawing hw 0 row' k 1 r) c d (h.asking_drawing 0 row' k 1 r) hS
      file path stage hpath hst hc _ (hN 0 row' k 1 r) q hq) _ _,
      fun x hx => looksUp_eq hw h hS hs hpath hst hc (hN 0 row' k 1 r) hN32 hq hk hx⟩
  · rcases asking_neighbours (chainOf w c d q) h.rows.1 row row' j hr (otherNoise (chainOf w c d q) k) with ⟨e, -⟩ | hn
    · exact Or.inl (funext fun key => congrFun e key)
    · exact Or.inr hn

/-- **C63.** The same with 2 to 254 servers per party, for the online stage: one query of
the client of one server changes, and the counts are those of all servers of the backend
together. -/
theorem C63_many_servers (w : World box) (hw : w.Sane) (hA : IsDouble w.arith) (hs : w.sampling = true) (c : Config) (d : Dist)
    (h : Usable w c d) (hS : 2 ≤ c.serverCount.toNat ∧ c.serverCount.toNat ≤ 254) (hrows : c.serverCount.toNat ≤ c.dbSize.toNat)
    (hshare : (c.serverCount.toNat - 1) * ((c.dbSize.toNat + c.serverCount.toNat - 1) / c.serverCount.toNat) ≤ c.dbSize.toNat)
    (epsilon delta : ℝ) (hce : Dbl.ofBits c.epsilon = .fin epsilon)
    (hcd : Dbl.ofBits c.delta = .fin delta) (he : 0 < epsilon) (he1 : epsilon ≤ 2 ^ 1000) (hd0 : 0 < delta) (hd1 : delta ≤ 1)
    (cutoff : ℝ) (hcut : d.cutoff = .fin cutoff) (file : String → Option (List Byte)) (path : String) (hpath : path ≠ "")
    (hc : readFile (file path) = .ok c) (q : Nat → Nat)
    (hq : ((List.range c.serverCount.toNat).map q).sum + (c.partyCount.toNat - 1) * (c.dbSize.toNat * ⌊2 * cutoff⌋.toNat) < 2 ^ 32)
    (k : Nat) (hk : k + 1 < c.partyCount.toNat) (s : Nat) (hsS : s < c.serverCount.toNat) (row row' : Nat → Nat) (j : Nat)
    (hr : ∀ i, i ≠ j → row i = row' i) :
    NoBetterThan (rows := c.dbSize.toNat) (epsilon * (1 + (1 / 2) ^ 50)) (roundedDelta (epsilon * (1 + (1 / 2) ^ 50)) delta cutoff)
      (fun r => LooksUp (launchMany ((w.asking s row).drawing k c.serverCount.toNat r) file path "online" c.partyCount.toNat
        c.serverCount.toNat q) ((List.range c.serverCount.toNat).map (fun s => (c.partyCount.toNat, s))))
      (fun r => LooksUp (launchMany ((w.asking s row').drawing k c.serverCount.toNat r) file path "online" c.partyCount.toNat
        c.serverCount.toNat q) ((List.range c.serverCount.toNat).map (fun s => (c.partyCount.toNat, s)))) := by
  intro T
  obtain ⟨hN32, hdp, hN⟩ := parameters hA h.noise hce hcd he he1 hd0 hd1 hcut
  refine private_draws uniformDraws _ (measurable_of_countable _) (by positivity) hdp _ _
    (fun key : Fin c.dbSize.toNat => ((gridOf w c d q).asking s row).askedFor key +
      (((List.range (c.partyCount.toNat - 1)).filter (fun party => party ≠ k)).map (fun party => (gridOf w c d q).noiseFor party key)).sum)
    (fun key : Fin c.dbSize.toNat => ((gridOf w c d q).asking s row').askedFor key +
      (((List.range (c.partyCount.toNat - 1)).filter (fun party => party ≠ k)).map (fun party => (gridOf w c d q).noiseFor party key)).sum)
    ?_ ?_ ?_ T
  · exact fun r x hx => looksUp_eq_many hw h hS hrows hshare hs hpath hc (hN s row k _ r) hN32 hq hk hx
  · exact fun r => ⟨complete_of_answers (C61_many_servers _ (Sane.asking_drawing hw s row' k _ r) c d (h.asking_drawing s row' k _ r) hS
      hrows hshare file path "online" hpath (Or.inl rfl) hc _ (hN s row' k _ r) q (fun e => absurd e (by decide)) hq) _ _,
      fun x hx => looksUp_eq_many hw h hS hrows hshare hs hpath hc (hN s row' k _ r) hN32 hq hk hx⟩
  · rcases Grid.asking_neighbours (gridOf w c d q) h.rows.1 s hsS row row' j hr
      (fun key => (((List.range (c.partyCount.toNat - 1)).filter (fun party => party ≠ k)).map (fun party => (gridOf w c d q).noiseFor party key)).sum) with e | hn
    · exact Or.inl (funext fun key => congrFun e key)
    · exact Or.inr hn

/-- **C63.** Whatever is true of the look-ups of processes that answer their clients on
existing connections is true when they set up the connections first: the same numbers can
be seen, and some can. -/
theorem C63_connecting {ι : Type} [DecidableEq ι] (h : Hosts H) (c : Config) (hc : Consistent c) (hP : 0 < c.partyCount.toNat)
    (hr : h.Reaches c) (hn : h.NoClash c) (pos : ι → Node) (hpos : Function.Injective pos) (prog : ι → PProg ι Unit)
    (capacity S : Nat) (client : Nat → ι) (count : Nat → Nat) (rows : Nat) (row : Nat → Nat → Nat)
    (ha : Answers prog (fun a b => Linked c.partyCount.toNat c.serverCount.toNat (pos a) (pos b)) capacity S client count rows row)
    (backends : List ι) (rows' : Nat) :
    (∀ x : Fin rows' → Nat, ConnectsAndLooksUp pos (setup h c) prog backends x → LooksUp prog backends x) ∧
    ∃ x : Fin rows' → Nat, ConnectsAndLooksUp pos (setup h c) prog backends x :=
  ⟨fun _ => connects_and_looksUp (pl := planOf h c) (planOf_distinct h c (config_complete hc) hn) (plan_small c h) hpos
    (inv_start hP (fun i hi => setup_eq h c (config_complete hc) hP hr i hi) (fun i hi => setup_out h c i hi)) ha,
    complete_of_connects (C62_connecting h c hc hP hr hn pos hpos prog capacity S client count rows row ha) _ _⟩

/-- Seeing less, but something, is seeing no better. -/
private theorem sees_less {rows : Nat} {ε δ : ℝ} {sees sees' less less' : (Fin rows → Draws) → (Fin rows → Nat) → Prop}
    (h : NoBetterThan ε δ sees sees') (h1 : ∀ r x, less r x → sees r x) (h2 : ∀ r x, less' r x → sees' r x) (h3 : ∀ r, ∃ x, less' r x) :
    NoBetterThan ε δ less less' := by
  intro T
  refine le_trans (measure_mono ?_) ((h T).trans (add_le_add_left (mul_le_mul_right (measure_mono ?_) _) _))
  · rintro r ⟨x, hx, hl⟩
    exact ⟨x, hx, h1 r x hl⟩
  · rintro r ⟨-, hx⟩
    exact ⟨h3 r, fun x hl => hx x (h2 r x hl)⟩

/-- **C63.** One server per party, connecting included: the processes start in any order,
set up their connections and run the protocol. -/
theorem C63_one_server_connecting (w : World box) (hw : w.Sane) (hA : IsDouble w.arith) (hs : w.sampling = true) (c : Config) (d : Dist)
    (h : Usable w c d) (hS : c.serverCount.toNat = 1) (m : Hosts H) (hreach : m.Reaches c) (hn : m.NoClash c)
    (epsilon delta : ℝ) (hce : Dbl.ofBits c.epsilon = .fin epsilon)
    (hcd : Dbl.ofBits c.delta = .fin delta) (he : 0 < epsilon) (he1 : epsilon ≤ 2 ^ 1000) (hd0 : 0 < delta) (hd1 : delta ≤ 1)
    (cutoff : ℝ) (hcut : d.cutoff = .fin cutoff)
    (file : String → Option (List Byte)) (path stage : String) (hpath : path ≠ "") (hst : stage = "online" ∨ stage = "all")
    (hc : readFile (file path) = .ok c) (q : Nat) (hq : q + (c.partyCount.toNat - 1) * (c.dbSize.toNat * ⌊2 * cutoff⌋.toNat) < 2 ^ 32)
    (k : Nat) (hk : k + 1 < c.partyCount.toNat) (row row' : Nat → Nat) (j : Nat) (hr : ∀ i, i ≠ j → row i = row' i) :
    NoBetterThan (rows := c.dbSize.toNat) (epsilon * (1 + (1 / 2) ^ 50)) (roundedDelta (epsilon * (1 + (1 / 2) ^ 50)) delta cutoff)
      (fun r => ConnectsAndLooksUp (fun k => (k, 0)) (setup m c)
        (launch ((w.asking 0 row).drawing k 1 r) file path stage c.partyCount.toNat q) [c.partyCount.toNat])
      (fun r => ConnectsAndLooksUp (fun k => (k, 0)) (setup m c)
        (launch ((w.asking 0 row').drawing k 1 r) file path stage c.partyCount.toNat q) [c.partyCount.toNat]) := by
  obtain ⟨-, -, hN⟩ := parameters hA h.noise hce hcd he he1 hd0 hd1 hcut
  have ans := fun (row : Nat → Nat) (r : Fin c.dbSize.toNat → Draws) =>
    C61_one_server _ (Sane.asking_drawing hw 0 row k 1 r) c d (h.asking_drawing 0 row k 1 r) hS file path stage hpath hst hc _
      (hN 0 row k 1 r) q hq
  have key := fun (row : Nat → Nat) (r : Fin c.dbSize.toNat → Draws) =>
    C63_connecting m c ⟨h.parties.2, h.servers⟩ (by have := h.parties.1; omega) hreach hn (fun k => (k, 0))
      (fun a b e => (Prod.mk.inj e).1) _ _ _ _ _ _ _ (by rw [hS]; exact ans row r) [c.partyCount.toNat] c.dbSize.toNat
  exact sees_less (C63_one_server w hw hA hs c d h hS epsilon delta hce hcd he he1 hd0 hd1 cutoff hcut file path stage hpath hst hc q hq k hk row row' j hr)
    (fun r => (key row r).1) (fun r => (key row' r).1) (fun r => (key row' r).2)

/-- **C63.** Several servers per party, connecting included. -/
theorem C63_many_servers_connecting (w : World box) (hw : w.Sane) (hA : IsDouble w.arith) (hs : w.sampling = true) (c : Config) (d : Dist)
    (h : Usable w c d) (hS : 2 ≤ c.serverCount.toNat ∧ c.serverCount.toNat ≤ 254) (hrows : c.serverCount.toNat ≤ c.dbSize.toNat)
    (hshare : (c.serverCount.toNat - 1) * ((c.dbSize.toNat + c.serverCount.toNat - 1) / c.serverCount.toNat) ≤ c.dbSize.toNat)
    (m : Hosts H) (hreach : m.Reaches c) (hn : m.NoClash c)
    (epsilon delta : ℝ) (hce : Dbl.ofBits c.epsilon = .fin epsilon)
    (hcd : Dbl.ofBits c.delta = .fin delta) (he : 0 < epsilon) (he1 : epsilon ≤ 2 ^ 1000) (hd0 : 0 < delta) (hd1 : delta ≤ 1)
    (cutoff : ℝ) (hcut : d.cutoff = .fin cutoff) (file : String → Option (List Byte)) (path : String) (hpath : path ≠ "")
    (hc : readFile (file path) = .ok c) (q : Nat → Nat)
    (hq : ((List.range c.serverCount.toNat).map q).sum + (c.partyCount.toNat - 1) * (c.dbSize.toNat * ⌊2 * cutoff⌋.toNat) < 2 ^ 32)
    (k : Nat) (hk : k + 1 < c.partyCount.toNat) (s : Nat) (hsS : s < c.serverCount.toNat) (row row' : Nat → Nat) (j : Nat)
    (hr : ∀ i, i ≠ j → row i = row' i) :
    NoBetterThan (rows := c.dbSize.toNat) (epsilon * (1 + (1 / 2) ^ 50)) (roundedDelta (epsilon * (1 + (1 / 2) ^ 50)) delta cutoff)
      (fun r => ConnectsAndLooksUp id (setup m c) (launchMany ((w.asking s row).drawing k c.serverCount.toNat r) file path "online"
        c.partyCount.toNat c.serverCount.toNat q) ((List.range c.serverCount.toNat).map (fun s => (c.partyCount.toNat, s))))
      (fun r => ConnectsAndLooksUp id (setup m c) (launchMany ((w.asking s row').drawing k c.serverCount.toNat r) file path "online"
        c.partyCount.toNat c.serverCount.toNat q) ((List.range c.serverCount.toNat).map (fun s => (c.partyCount.toNat, s)))) := by
  obtain ⟨-, -, hN⟩ := parameters hA h.noise hce hcd he he1 hd0 hd1 hcut
  have key := fun (row : Nat → Nat) (r : Fin c.dbSize.toNat → Draws) =>
    C63_connecting m c ⟨h.parties.2, h.servers⟩ (by have := h.parties.1; omega) hreach hn id Function.injective_id _ _ _ _ _ _ _
      (C61_many_servers _ (Sane.asking_drawing hw s row k c.serverCount.toNat r) c d (h.asking_drawing s row k c.serverCount.toNat r) hS hrows hshare
        file path "online" hpath (Or.inl rfl) hc _ (hN s row k c.serverCount.toNat r) q (fun e => absurd e (by decide)) hq)
      ((List.range c.serverCount.toNat).map (fun s => (c.partyCount.toNat, s))) c.dbSize.toNat
  exact sees_less (C63_many_servers w hw hA hs c d h hS hrows hshare epsilon delta hce hcd he he1 hd0 hd1 cutoff hcut file path hpath hc q hq k hk
    s hsS row row' j hr) (fun r => (key row r).1) (fun r => (key row' r).1) (fun r => (key row' r).2)

/-- **C63** is false of a program that was built without `DPPIR_SAMPLE`, as the README's
commands build it: if a client asks for one row instead of another, the numbers of
look-ups tell which it was, in every complete run, whatever `rand()` returns. -/
theorem C63_violated_default_build (w : World box) (hw : w.Sane) (hs : w.sampling = false) (c : Config) (d : Dist)
    (h : Usable w c d) (hS : c.serverCount.toNat = 1)
    (file : String → Option (List Byte)) (path stage : String) (hpath : path ≠ "") (hst : stage = "online" ∨ stage = "all")
    (hc : readFile (file path) = .ok c) (N : Nat) (hN : w.SamplesUpTo d N) (q : Nat)
    (hq : q + (c.partyCount.toNat - 1) * (c.dbSize.toNat * N) < 2 ^ 32) (row row' : Nat → Nat) (j : Nat) (hj : j < q)
    (hr : ∀ i, i ≠ j → row i = row' i) (hne : row j % c.dbSize.toNat ≠ row' j % c.dbSize.toNat)
    (draw draw' : Nat → Nat → Nat → Nat × Nat) (x : Fin c.dbSize.toNat → ℕ)
    (hx : LooksUp (launch { w.asking 0 row with draw := draw } file path stage c.partyCount.toNat q) [c.partyCount.toNat] x) :
    ¬ LooksUp (launch { w.asking 0 row' with draw := draw' } file path stage c.partyCount.toNat q) [c.partyCount.toNat] x := by
  have key : ∀ (row : Nat → Nat) (draw : Nat → Nat → Nat → Nat × Nat),
      LooksUp (launch { w.asking 0 row with draw := draw } file path stage c.partyCount.toNat q) [c.partyCount.toNat] x →
      ((chainOf w c d q).asking row).Counts (stage == "all") x := by
    intro row draw hx
    have hsame : ∀ k s i, World.sample { w.asking 0 row with draw := draw } d k s i = w.sample d k s i := by
      intro k s i
      unfold World.sample
      rw [show World.sampling { w.asking 0 row with draw := draw } = false from hs, hs]
      rfl
    have hN' : World.SamplesUpTo { w.asking 0 row with draw := draw } d N := fun k s i => by rw [hsame]; exact hN k s i
    have hu : Usable { w.asking 0 row with draw := draw } c d := ⟨h.parties, h.servers, h.rows, h.pairs, h.noise⟩
    have hv := chain_valid (w := { w.asking 0 row with draw := draw }) ⟨hw.division, hw.order, hw.backendOrder⟩ hu hN' hq
    have e : chainOf { w.asking 0 row with draw := draw } c d q = (chainOf w c d q).asking row := by
      have e1 : ∀ k, World.choices { w.asking 0 row with draw := draw } d k 0 = w.choices d k 0 := fun k => by
        unfold World.choices
        simp only [hsame]
        rfl
      unfold chainOf Chain.asking
      simp only [e1]
      unfold World.asking
      simp only [Function.update_self]
      rfl
    rw [launch_eq _ c d hu hN' hS file path stage hpath hst hc q (by omega)] at hx
    have := looksUp_counts hv _ hx
    rw [e] at this
    exact this
  intro hx'
  exact C58_violated_fixed_samples (chainOf w c d q) (chain_valid hw h hN hq) (stage == "all") row row' j hj hr hne x (key row draw hx)
    (key row' draw' hx')

/-! ### Examples

Doubles rounded towards zero; the parameters are `epsilon = 2` and `delta = 1/2`. -/

namespace Example

noncomputable def privateWorld (sampling : Bool) : World toyBox := { generatedWorld with arith := truncOps, sampling := sampling }

theorem privateWorld_sane (sampling : Bool) : (privateWorld sampling).Sane :=
  ⟨⟨monotone_id, fun _ _ => rfl⟩, fun _ _ _ => List.Perm.refl _, fun _ _ => List.Perm.refl _⟩

/-- Three parties, with one or two servers each, and five rows. -/
def privateConfig (S : Nat) : Config :=
  match fromArgs generatedKeys 5 0x4000000000000000#64 0x3fe0000000000000#64 3 S [] with
  | .ok c => c
  | .error _ => ⟨0, 0, 0, 0, 0, []⟩

def privateFile (S : Nat) : List Byte := match serialize (privateConfig S) with
  | .ok data => data
  | .error _ => []

theorem two_bits : Dbl.ofBits 0x4000000000000000#64 = .fin 2 := by
  have h1 : (0x4000000000000000#64).msb = false := by decide
  unfold Dbl.ofBits
  rw [h1]
  norm_num
  rw [mul_div_assoc, pow_split 1024 51]
  norm_num

theorem half_bits : Dbl.ofBits 0x3fe0000000000000#64 = .fin (1 / 2) := by
  have h1 : (0x3fe0000000000000#64).msb = false := by decide
  unfold Dbl.ofBits
  rw [h1]
  norm_num
  rw [mul_div_assoc, pow_split 1022 53]
  norm_num

theorem two_le : (2 : ℝ) ≤ 2 ^ 1000 := le_self_pow₀ (by norm_num) (by norm_num)

theorem private_ok (sampling : Bool) (S : Nat) (hS : S = 1 ∨ S = 2) : ∃ d x, Usable (privateWorld sampling) (privateConfig S) d ∧
    d.cutoff = .fin x ∧ ⌊2 * x⌋.toNat ≤ 2 ∧ readFile (some (privateFile S)) = .ok (privateConfig S) ∧
    (privateConfig S).partyCount.toNat = 3 ∧ (privateConfig S).serverCount.toNat = S ∧ (privateConfig S).dbSize.toNat = 5 ∧
    Dbl.ofBits (privateConfig S).epsilon = .fin 2 ∧ Dbl.ofBits (privateConfig S).delta = .fin (1 / 2) ∧
    1 / 2 ≤ x ∧ oneMachine.NoClash (privateConfig S) := by
  obtain ⟨-, d, x, h1, h2, h3, h4⟩ := trunc_dist
  have hargs : fromArgs generatedKeys (5 : Nat) 0x4000000000000000#64 0x3fe0000000000000#64 (3 : Nat) S [] = .ok (privateConfig S) := by
    have h : (fromArgs generatedKeys 5 0x4000000000000000#64 0x3fe0000000000000#64 3 S []).isOk = true := by
      obtain rfl | rfl := hS <;> decide +kernel
    unfold privateConfig
    revert h
    show _ → fromArgs generatedKeys 5 0x4000000000000000#64 0x3fe0000000000000#64 3 S [] = _
    cases fromArgs generatedKeys 5 0x4000000000000000#64 0x3fe0000000000000#64 3 S []
    · intro h; cases h
    · intro _; rfl
  have hser : serialize (privateConfig S) = .ok (privateFile S) := by
    have h : (serialize (privateConfig S)).isOk = true := by obtain rfl | rfl := hS <;> decide +kernel
    unfold privateFile
    revert h
    cases serialize (privateConfig S)
    · intro h; cases h
    · intro _; rfl
  have hd : Dist.new (privateWorld sampling).arith (Dbl.ofBits 0x4000000000000000#64) (Dbl.ofBits 0x3fe0000000000000#64) = .ok d := by
    rw [two_bits, half_bits]
    exact h1
  obtain ⟨hu, e1, e2, e3⟩ := generated_usable (privateWorld sampling) generatedKeys (fun _ => rfl) 5 3 S _ _ (by omega) (by omega) (by omega) []
    (Or.inr rfl) d hd _ hargs
  obtain ⟨c', hc', -, -, -, hnf, -⟩ := C34_from_args generatedKeys (5 : Nat) 0x4000000000000000#64 0x3fe0000000000000#64 3 S (by omega)
    (by omega) [] (Or.inr rfl) (by simp)
  have ec : c' = privateConfig S := Except.ok.inj (hc'.symm.trans hargs)
  subst ec
  have b1 : (privateConfig S).epsilon = 0x4000000000000000#64 := by obtain rfl | rfl := hS <;> decide +kernel
  have b2 : (privateConfig S).delta = 0x3fe0000000000000#64 := by obtain rfl | rfl := hS <;> decide +kernel
  refine ⟨d, x, hu, h2, ?_, C32_round_trip _ hnf _ hser (by obtain rfl | rfl := hS <;> decide +kernel), e1, e2, e3, by rw [b1, two_bits],
    by rw [b2, half_bits], h3,
    generated_noClash generatedKeys (5 : Nat) _ _ 3 S (by omega) (by omega) (by omega) [] (Or.inr rfl) (by simp) _ hargs _⟩
  rw [Int.toNat_le]
  apply Int.floor_le_iff.mpr
  push_cast
  linarith

/-- One server per party: what the backend learns about the fourth of ten queries. -/
example (row row' : Nat → Nat) (hr : ∀ i, i ≠ 3 → row i = row' i) : ∃ x : ℝ, 1 / 2 ≤ x ∧ ⌊2 * x⌋.toNat ≤ 2 ∧
    NoBetterThan (rows := 5) (2 * (1 + (1 / 2) ^ 50)) (roundedDelta (2 * (1 + (1 / 2) ^ 50)) (1 / 2) x)
      (fun r => ConnectsAndLooksUp (fun k => (k, 0)) (setup oneMachine (privateConfig 1))
        (launch (((privateWorld true).asking 0 row).drawing 1 1 r) (fun _ => some (privateFile 1)) "f" "all" 3 10) [3])
      (fun r => ConnectsAndLooksUp (fun k => (k, 0)) (setup oneMachine (privateConfig 1))
        (launch (((privateWorld true).asking 0 row').drawing 1 1 r) (fun _ => some (privateFile 1)) "f" "all" 3 10) [3]) := by
  obtain ⟨d, x, hu, hx, hx2, hf, e1, e2, e3, b1, b2, hx1, hn⟩ := private_ok true 1 (Or.inl rfl)
  refine ⟨x, hx1, hx2, ?_⟩
  have := C63_one_server_connecting (privateWorld true) (privateWorld_sane true) trunc_dist.1 rfl (privateConfig 1) d hu e2 oneMachine
    (oneMachine_reaches _) hn 2 (1 / 2) b1 b2 (by norm_num) two_le
    (by norm_num) (by norm_num) x hx (fun _ => some (privateFile 1)) "f" "all" (by decide) (Or.inr rfl) hf 10 (by rw [e1, e3]; omega) 1
    (by rw [e1]; omega) row row' 3 hr
  rw [e1, e3] at this
  exact this

/-- Two servers per party: the fourth query of the second client. -/
example (row row' : Nat → Nat) (hr : ∀ i, i ≠ 3 → row i = row' i) : ∃ x : ℝ, 1 / 2 ≤ x ∧ ⌊2 * x⌋.toNat ≤ 2 ∧
    NoBetterThan (rows := 5) (2 * (1 + (1 / 2) ^ 50)) (roundedDelta (2 * (1 + (1 / 2) ^ 50)) (1 / 2) x)
      (fun r => ConnectsAndLooksUp id (setup oneMachine (privateConfig 2))
        (launchMany (((privateWorld true).asking 1 row).drawing 0 2 r) (fun _ => some (privateFile 2)) "f" "online" 3 2 (fun s => 10 + s))
          [(3, 0), (3, 1)])
      (fun r => ConnectsAndLooksUp id (setup oneMachine (privateConfig 2))
        (launchMany (((privateWorld true).asking 1 row').drawing 0 2 r) (fun _ => some (privateFile 2)) "f" "online" 3 2 (fun s => 10 + s))
          [(3, 0), (3, 1)]) := by
  obtain ⟨d, x, hu, hx, hx2, hf, e1, e2, e3, b1, b2, hx1, hn⟩ := private_ok true 2 (Or.inr rfl)
  refine ⟨x, hx1, hx2, ?_⟩
  have := C63_many_servers_connecting (privateWorld true) (privateWorld_sane true) trunc_dist.1 rfl (privateConfig 2) d hu (by omega) (by omega)
    (by rw [e2, e3]; norm_num) oneMachine (oneMachine_reaches _) hn 2 (1 / 2) b1 b2 (by norm_num) two_le
    (by norm_num) (by norm_num) x hx (fun _ => some (privateFile 2)) "f" (by decide) hf (fun s => 10 + s)
    (by rw [e1, e2, e3]; simp [List.range_succ]; omega) 0 (by rw [e1]; omega) 1 (by omega) row row' 3 hr
  rw [e1, e2, e3] at this
  exact this

/-- The default build: asking for row 1 and asking for row 2 look different. -/
example (draw draw' : Nat → Nat → Nat → Nat × Nat) (x : Fin 5 → ℕ)
    (hx : LooksUp (launch { (privateWorld false).asking 0 (fun _ => 1) with draw := draw } (fun _ => some (privateFile 1)) "f" "all" 3 1) [3] x) :
    ¬ LooksUp (launch { (privateWorld false).asking 0 (fun i => if i = 0 then 2 else 1) with draw := draw' } (fun _ => some (privateFile 1))
      "f" "all" 3 1) [3] x := by
  obtain ⟨d, y, hu, hy, hy2, hf, e1, e2, e3, b1, b2, hy1, hn⟩ := private_ok false 1 (Or.inl rfl)
  have hrep : Representable truncOps d.cutoff := by
    have hd := hu.noise
    unfold World.distribution at hd
    rw [b1, b2] at hd
    obtain ⟨b, c, rfl, -, -, -, -, -, h6, -⟩ := accepted_rounded trunc_dist.1 (by norm_num)
      two_le (by norm_num) (by norm_num) hd
    exact h6
  obtain ⟨y', hy', hN⟩ := C61_samples (privateWorld false) (sound_of_double trunc_dist.1) (privateConfig 1) d hu.noise hrep
  have e : y = y' := Dbl.fin.inj (hy.symm.trans hy')
  subst e
  have := C63_violated_default_build (privateWorld false) (privateWorld_sane false) rfl (privateConfig 1) d hu e2 (fun _ => some (privateFile 1))
    "f" "all" (by decide) (Or.inr rfl) hf _ hN 1 (by rw [e1, e3]; omega) (fun _ => 1) (fun i => if i = 0 then 2 else 1) 0 (by omega)
    (fun i hi => by simp [hi]) (by rw [e3]; decide) draw draw'
  rw [e1, e3] at this
  exact this x hx

end Example

end DPPIR.Props
