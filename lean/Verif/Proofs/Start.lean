import Verif.Spec.Start
import Verif.Spec.Loops
import Verif.Proofs.Loops
import Verif.Proofs.GridTags

/-!
# Programs started from the command line are those of `Chain` and `Grid`
-/

namespace DPPIR.Main
open DPPIR.Config DPPIR.Noise DPPIR.Protocol DPPIR.Onion

variable {box : SealedBox} {ι : Type}

/-- A party's configuration. -/
def partyOf (c : Config) (k : Nat) : PartyConfig := c.parties.getD k emptyParty

def serverOf (c : Config) (k s : Nat) : ServerConfig := (partyOf c k).servers.getD s emptyServer

/-- The deployment that a configuration describes. -/
noncomputable def chainOf (w : World box) (c : Config) (d : Dist) (q : Nat) : Chain box where
  parties := c.partyCount.toNat
  rows := c.dbSize.toNat
  pkeys := w.pkeys c
  skey k := w.skey (partyOf c k).skey
  pkey k := w.pkey (partyOf c k).pkey
  seed k := (serverOf c k 0).localSeed.toInt
  count := q
  clientRand := w.clientRand 0
  partyRand k := (w.choices d k 0).toPartyRand
  junk := w.junk

noncomputable def gridOf (w : World box) (c : Config) (d : Dist) (q : Nat → Nat) : Grid box where
  parties := c.partyCount.toNat
  servers := c.serverCount.toNat
  rows := c.dbSize.toNat
  pkeys := w.pkeys c
  skey k := w.skey (partyOf c k).skey
  pkey k := w.pkey (partyOf c k).pkey
  sharedSeed k := (partyOf c k).sharedSeed.toInt
  localSeed k s := (serverOf c k s).localSeed.toInt
  count := q
  rand := w.rand
  clientRand := w.clientRand
  partyRand k s := w.choices d k s
  backendOrder := w.backendOrder
  junk := w.junk

theorem vecAt_parties {c : Config} {k : Nat} (h : k < c.parties.length) : vecAt c.parties k = .ok (partyOf c k) := by
  simp [vecAt, partyOf, h]

theorem vecAt_servers {c : Config} {k s : Nat} (h : s < (partyOf c k).servers.length) :
    vecAt (partyOf c k).servers s = .ok (serverOf c k s) := by
  simp [vecAt, serverOf, h]

theorem partyOf_mem {c : Config} {k : Nat} (h : k < c.parties.length) : partyOf c k ∈ c.parties := by
  simp [partyOf, h]

theorem main_client {file : String → Option (List Byte)} {path stage : String} {c : Config} {s q : Nat}
    (hpath : path ≠ "") (hst : stage = "online" ∨ stage = "all") (hc : readFile (file path) = .ok c)
    (hs : s < c.serverCount.toNat) (hP : 0 < c.partyCount.toNat) :
    main file (clientFlags path stage s q) =
      .ok (.client (BitVec.ofNat 8 s) (BitVec.ofNat 32 q) (stage == "all") true) := by
  have h8 : BitVec.ofInt 8 (s : Int) = BitVec.ofNat 8 s := by simp
  have h32 : BitVec.ofInt 32 (q : Int) = BitVec.ofNat 32 q := by simp
  have hb : badFlags (clientFlags path stage s q) = false := by
    rcases hst with h | h <;> subst h <;> (simp [badFlags, clientFlags, hpath]; exact if_neg (by omega))
  unfold main
  rw [if_neg (by simp [hb])]
  show (readFile (file path) >>= _) = _
  rw [hc, bind_ok]
  unfold dispatch
  simp only [clientFlags]
  rw [if_neg (by omega), if_neg (by omega)]
  simp only [if_true, h8, h32]
  rcases hst with h | h <;> subst h <;> rfl

theorem main_party {file : String → Option (List Byte)} {path stage : String} {c : Config} {k s : Nat}
    (hpath : path ≠ "") (hst : stage = "online" ∨ stage = "all") (hc : readFile (file path) = .ok c)
    (hs : s < c.serverCount.toNat) (hP : k < c.partyCount.toNat) :
    main file (partyFlags path stage k s) = .ok (
      if k + 1 < c.partyCount.toNat then
        if c.serverCount.toNat = 1 then .party (BitVec.ofNat 8 k) (BitVec.ofNat 8 s) (stage == "all") true
        else .parallelParty (BitVec.ofNat 8 k) (BitVec.ofNat 8 s) (stage == "all") true
      else .backend (BitVec.ofNat 8 s) (stage == "all") true) := by
  have h8 : BitVec.ofInt 8 (s : Int) = BitVec.ofNat 8 s := by simp
  have h8' : BitVec.ofInt 8 (k : Int) = BitVec.ofNat 8 k := by simp
  have hb : badFlags (partyFlags path stage k s) = false := by
    rcases hst with h | h <;> subst h <;> (simp [badFlags, partyFlags, hpath]; exact if_neg (by omega))
  unfold main
  rw [if_neg (by simp [hb])]
  show (readFile (file path) >>= _) = _
  rw [hc, bind_ok]
  unfold dispatch
  rw [if_neg (show ¬ (partyFlags path stage k s).serverId ≥ c.serverCount.toNat by simp only [partyFlags]; omega),
    if_neg (show ¬ (partyFlags path stage k s).partyId ≥ c.partyCount.toNat by simp only [partyFlags]; omega)]
  have e : ((k : Int) < (c.partyCount.toNat : Int) - 1) ↔ k + 1 < c.partyCount.toNat := by omega
  have hr : ¬ (partyFlags path stage k s).role = "client" := by simp [partyFlags]
  dsimp only
  rw [if_neg hr]
  simp only [partyFlags, e, h8, h8']
  rcases hst with h | h <;> subst h <;> rfl

theorem toNat8 {s : Nat} (h : s < 256) : (BitVec.ofNat 8 s).toNat = s := by simp; omega
theorem toNat32 {s : Nat} (h : s < 2 ^ 32) : (BitVec.ofNat 32 s).toNat = s := by simp; omega

section
variable (w : World box) (c : Config) (d : Dist)

theorem lift_ok' {α β : Type} (a : α) (f : α → PProg ι β) : (PProc.lift (Except.ok a) : PProg ι α) >>= f = f a := rfl

theorem start_client (node : Nat → Nat → ι) {sid : BitVec 8} {q : BitVec 32} {s n : Nat} (hs : sid.toNat = s) (hq : q.toNat = n)
    (offline online : Bool) : w.start node c (.client sid q offline online) = (do
      let db ← PProc.lift (Database.new c.dbSize.toNat)
      let cl ← PProc.lift (Client.new s c.partyCount.toNat (w.pkeys c) db)
      cl.startLoops (w.clientRand s) (node 1 s) n offline online) := by
  subst hs hq
  rfl

theorem lift_bind_congr {α β : Type} (x : Res α) {f g : α → PProg ι β} (h : ∀ a, f a = g a) :
    (PProc.lift x : PProg ι α) >>= f = (PProc.lift x : PProg ι α) >>= g := by
  congr 1
  funext a
  exact h a

theorem start_party (node : Nat → Nat → ι) {pid sid : BitVec 8} {k s : Nat} (hk : pid.toNat = k) (hs : sid.toNat = s)
    (h1 : k < c.parties.length) (h2 : s < (partyOf c k).servers.length) (hd : w.distribution c = .ok d)
    (hx : w.checkSamples d k s = .ok ())
    (offline online : Bool) : w.start node c (.party pid sid offline online) = (do
      let db ← PProc.lift (Database.new c.dbSize.toNat)
      let p ← PProc.lift (Party.new k s c.partyCount.toNat c.serverCount.toNat (serverOf c k s).localSeed.toInt
        (w.pkeys c) (w.pkey (partyOf c k).pkey) (w.skey (partyOf c k).skey) db)
      p.startLoops (w.choices d k s).toPartyRand (node k s) (node (k + 2) s) offline online) := by
  subst hk hs
  show (do
      let db ← PProc.lift (Database.new c.dbSize.toNat)
      _ : PProg ι Unit) = _
  apply lift_bind_congr
  intro db
  rw [vecAt_parties h1, lift_ok', vecAt_servers h2, lift_ok', hd, lift_ok', hx, lift_ok']

theorem start_parallelParty (node : Nat → Nat → ι) {pid sid : BitVec 8} {k s : Nat} (hk : pid.toNat = k) (hs : sid.toNat = s)
    (h1 : k < c.parties.length) (h2 : s < (partyOf c k).servers.length) (hd : w.distribution c = .ok d)
    (hx : w.checkSamples d k s = .ok ())
    (offline online : Bool) : w.start node c (.parallelParty pid sid offline online) = (do
      let db ← PProc.lift (Database.new c.dbSize.toNat)
      let p ← PProc.lift (ParallelParty.new k s c.partyCount.toNat c.serverCount.toNat (partyOf c k).sharedSeed.toInt
        (serverOf c k s).localSeed.toInt (w.pkeys c) (w.pkey (partyOf c k).pkey) (w.skey (partyOf c k).skey) db)
      p.startLoops (w.choices d k s) (node k s) (node (k + 2) s) (node (k + 1)) offline online) := by
  subst hk hs
  show (do
      let db ← PProc.lift (Database.new c.dbSize.toNat)
      _ : PProg ι Unit) = _
  apply lift_bind_congr
  intro db
  rw [vecAt_parties h1, lift_ok', vecAt_servers h2, lift_ok', hd, lift_ok', hx, lift_ok']

theorem start_backend (node : Nat → Nat → ι) {sid : BitVec 8} {s : Nat} (hs : sid.toNat = s) (hS : c.serverCount.toNat = 1)
    (h1 : c.partyCount.toNat - 1 < c.parties.length) (h2 : s < (partyOf c (c.partyCount.toNat - 1)).servers.length)
    (offline online : Bool) : w.start node c (.backend sid offline online) = (do
      let db ← PProc.lift (Database.new c.dbSize.toNat)
      let b ← PProc.lift (Backend.new c.partyCount.toNat (w.pkey (partyOf c (c.partyCount.toNat - 1)).pkey)
        (w.skey (partyOf c (c.partyCount.toNat - 1)).skey) db)
      b.startLoops (node (c.partyCount.toNat - 1) s) w.junk offline online) := by
  subst hs
  show (do
      let db ← PProc.lift (Database.new c.dbSize.toNat)
      _ : PProg ι Unit) = _
  apply lift_bind_congr
  intro db
  have ht : serverTable c.serverCount.toNat = .ok [0] := by rw [hS]; rfl
  rw [ht, lift_ok', vecAt_parties h1, lift_ok', vecAt_servers h2, lift_ok']
  apply lift_bind_congr
  intro b
  rw [if_pos hS]

theorem start_backends (node : Nat → Nat → ι) {sid : BitVec 8} {s : Nat} (hs : sid.toNat = s) (hS : c.serverCount.toNat ≠ 1)
    (h1 : c.partyCount.toNat - 1 < c.parties.length) (h2 : s < (partyOf c (c.partyCount.toNat - 1)).servers.length)
    (offline online : Bool) : w.start node c (.backend sid offline online) = (do
      let db ← PProc.lift (Database.new c.dbSize.toNat)
      let _ ← PProc.lift (serverTable c.serverCount.toNat)
      let b ← PProc.lift (Backend.new c.partyCount.toNat (w.pkey (partyOf c (c.partyCount.toNat - 1)).pkey)
        (w.skey (partyOf c (c.partyCount.toNat - 1)).skey) db)
      b.startParallelLoops (w.backendOrder s) s c.serverCount.toNat
        (node (c.partyCount.toNat - 1) s) (node c.partyCount.toNat) w.junk offline online) := by
  subst hs
  show (do
      let db ← PProc.lift (Database.new c.dbSize.toNat)
      _ : PProg ι Unit) = _
  apply lift_bind_congr
  intro db
  apply lift_bind_congr
  intro _
  rw [vecAt_parties h1, lift_ok', vecAt_servers h2, lift_ok']
  apply lift_bind_congr
  intro b
  rw [if_neg hS]

variable {w d} in
theorem checked {N : Nat} (hN : w.SamplesUpTo d N) (k s : Nat) : w.checkSamples d k s = .ok () := by
  unfold World.checkSamples
  rw [if_pos]
  intro i
  obtain ⟨n, -, h⟩ := hN k s i
  exact ⟨n, h⟩

theorem run_of (node : Nat → Nat → ι) {file : String → Option (List Byte)} {f : Flags} {a : Action} (ha : main file f = .ok a)
    (hne : a ≠ .exit1) (hc : readFile (file f.config) = .ok c) : w.run node file f = w.start node c a := by
  unfold World.run
  rw [ha]
  cases a
  · exact absurd rfl hne
  all_goals dsimp only; rw [hc]

/-- Programs of a deployment with one server per party. -/
theorem launch_eq (h : Usable w c d) {N : Nat} (hN : w.SamplesUpTo d N) (hS : c.serverCount.toNat = 1) (file : String → Option (List Byte))
    (path stage : String) (hpath : path ≠ "") (hst : stage = "online" ∨ stage = "all")
    (hc : readFile (file path) = .ok c) (q : Nat) (hq : q < 2 ^ 32) :
    launch w file path stage c.partyCount.toNat q = (chainOf w c d q).progLoops (stage == "all") true := by
  have hP := h.parties
  have hP8 := c.partyCount.isLt
  funext i
  unfold launch Chain.progLoops
  split
  · rw [run_of w c _ (main_client hpath hst hc (by omega) (by omega)) (by simp) hc,
      start_client w c _ (toNat8 (by omega)) (toNat32 hq)]
    rfl
  · rename_i hi
    split
    · rename_i hi2
      have hk : i - 1 < c.parties.length := by omega
      have hv := h.servers _ (partyOf_mem hk)
      by_cases hb : i < c.partyCount.toNat
      · rw [run_of w c _ (main_party hpath hst hc (by omega) (by omega)) (by split <;> (try split) <;> simp) hc,
          if_pos (show i - 1 + 1 < c.partyCount.toNat by omega), if_pos hS, if_pos (show i < (chainOf w c d q).parties from hb),
          start_party w c d _ (toNat8 (by omega)) (toNat8 (by omega)) hk (by omega) h.noise (checked hN _ _), hS,
          show i - 1 + 2 = i - 1 + 2 from rfl]
        rfl
      · have e : i = c.partyCount.toNat := by omega
        rw [run_of w c _ (main_party hpath hst hc (by omega) (by omega)) (by split <;> (try split) <;> simp) hc,
          if_neg (show ¬ i - 1 + 1 < c.partyCount.toNat by omega), if_neg (show ¬ i < (chainOf w c d q).parties from hb),
          if_pos (show i = (chainOf w c d q).parties from e), start_backend w c _ (toNat8 (by omega)) hS (by omega)
            (by rw [← e]; omega)]
        rfl
    · rw [if_neg (show ¬ i < (chainOf w c d q).parties by show ¬ i < c.partyCount.toNat; omega),
        if_neg (show ¬ i = (chainOf w c d q).parties by show ¬ i = c.partyCount.toNat; omega)]

/-- Programs of a deployment with several servers per party. -/
theorem launchMany_eq (h : Usable w c d) {N : Nat} (hN : w.SamplesUpTo d N) (hS : c.serverCount.toNat ≠ 1) (file : String → Option (List Byte))
    (path stage : String) (hpath : path ≠ "") (hst : stage = "online" ∨ stage = "all")
    (hc : readFile (file path) = .ok c) (q : Nat → Nat) (hq : ∀ s < c.serverCount.toNat, q s < 2 ^ 32) :
    launchMany w file path stage c.partyCount.toNat c.serverCount.toNat q =
      (gridOf w c d q).progLoops (stage == "all") true := by
  have hP := h.parties
  have hP8 := c.partyCount.isLt
  have hS8 := c.serverCount.isLt
  funext i
  unfold launchMany Grid.progLoops
  obtain ⟨i, s⟩ := i
  dsimp only
  by_cases hs : s < c.serverCount.toNat
  · rw [if_pos hs, if_pos (show s < (gridOf w c d q).servers from hs)]
    split
    · rw [run_of w c _ (main_client hpath hst hc (by omega) (by omega)) (by simp) hc,
        start_client w c _ (toNat8 (by omega)) (toNat32 (hq s hs))]
      rfl
    · rename_i hi
      split
      · rename_i hi2
        have hk : i - 1 < c.parties.length := by omega
        have hv := h.servers _ (partyOf_mem hk)
        by_cases hb : i < c.partyCount.toNat
        · rw [run_of w c _ (main_party hpath hst hc (by omega) (by omega)) (by split <;> (try split) <;> simp) hc,
            if_pos (show i - 1 + 1 < c.partyCount.toNat by omega), if_neg hS, if_pos (show i < (gridOf w c d q).parties from hb),
            start_parallelParty w c d _ (toNat8 (by omega)) (toNat8 (by omega)) hk (by omega) h.noise (checked hN _ _)]
          have e : (gridOf w c d q).choices (i - 1) s = w.choices d (i - 1) s := rfl
          unfold Grid.partyLoops
          rw [e]
          rfl
        · have e : i = c.partyCount.toNat := by omega
          rw [run_of w c _ (main_party hpath hst hc (by omega) (by omega)) (by split <;> (try split) <;> simp) hc,
            if_neg (show ¬ i - 1 + 1 < c.partyCount.toNat by omega), if_neg (show ¬ i < (gridOf w c d q).parties from hb),
            if_pos (show i = (gridOf w c d q).parties from e), start_backends w c _ (toNat8 (by omega)) hS (by omega)
              (by rw [← e]; omega)]
          rfl
      · rw [if_neg (show ¬ i < (gridOf w c d q).parties by show ¬ i < c.partyCount.toNat; omega),
        if_neg (show ¬ i = (gridOf w c d q).parties by show ¬ i = c.partyCount.toNat; omega)]
  · rw [if_neg hs, if_neg (show ¬ s < (gridOf w c d q).servers from hs)]

variable {w c d}

theorem sample_le {N : Nat} (hN : w.SamplesUpTo d N) (k s i : Nat) : ((w.choices d k s).sample i).toNat ≤ N := by
  obtain ⟨n, h1, h2⟩ := hN k s i
  simp only [World.choices, h2, Except.toOption, Option.getD_some, BitVec.toNat_ofNat]
  exact (Nat.mod_le _ _).trans h1

theorem sum_le {f : Nat → Nat} {N : Nat} (h : ∀ i, f i ≤ N) (n : Nat) : ((List.range n).map f).sum ≤ n * N := by
  induction n with
  | zero => simp
  | succ n ih =>
    rw [List.range_succ, List.map_append, List.sum_append, Nat.succ_mul]
    have := h n
    simp
    omega

theorem pkeys_eq (h : Usable w c d) :
    w.pkeys c = (List.range c.partyCount.toNat).map (fun k => w.pkey (partyOf c k).pkey) := by
  unfold World.pkeys
  apply List.ext_getElem
  · simp [h.parties.2]
  · intro k h1 h2
    simp only [List.length_map] at h1
    simp [partyOf, h1]

theorem chain_queries_le {N : Nat} (hN : w.SamplesUpTo d N) (q k : Nat) :
    (chainOf w c d q).queries k ≤ q + k * (c.dbSize.toNat * N) := by
  induction k with
  | zero => simp [Chain.queries, chainOf]
  | succ k ih =>
    have h1 : (chainOf w c d q).noise k ≤ c.dbSize.toNat * N := sum_le (fun i => sample_le hN k 0 i) _
    rw [Nat.succ_mul]
    show (chainOf w c d q).queries k + (chainOf w c d q).noise k ≤ _
    omega

theorem chain_valid (hw : w.Sane) (h : Usable w c d) {N : Nat} (hN : w.SamplesUpTo d N) {q : Nat}
    (hq : q + (c.partyCount.toNat - 1) * (c.dbSize.toNat * N) < 2 ^ 32) : (chainOf w c d q).Valid where
  parties := ⟨h.parties.1, by have := c.partyCount.isLt; show c.partyCount.toNat ≤ 255; omega⟩
  rows := h.rows
  keys := pkeys_eq h
  pairs k hk := h.pairs _ (partyOf_mem (by have := h.parties.2; have : k < c.partyCount.toNat := hk; omega))
  division _ := hw.division
  fits := Nat.lt_of_le_of_lt (chain_queries_le hN q _) hq

theorem chain_wanted (h : Usable w c d) (q j : Nat) :
    (chainOf w c d q).wanted j = (w.clientRand 0).row j % c.dbSize.toNat := by
  show (if c.dbSize.toNat < 2 then 0 else (w.clientRand 0).row j % c.dbSize.toNat) = _
  split
  · have := h.rows
    rw [show c.dbSize.toNat = 1 by omega, Nat.mod_one]
  · rfl

theorem grid_wanted (h : Usable w c d) (q : Nat → Nat) (s j : Nat) :
    (gridOf w c d q).wanted s j = (w.clientRand s).row j % c.dbSize.toNat := by
  show (if c.dbSize.toNat < 2 then 0 else (w.clientRand s).row j % c.dbSize.toNat) = _
  split
  · have := h.rows
    rw [show c.dbSize.toNat = 1 by omega, Nat.mod_one]
  · rfl

theorem preSum_le {f g : Nat → Nat} {n : Nat} (h : ∀ i < n, f i ≤ g i) : preSum f n ≤ preSum g n := by
  induction n with
  | zero => simp [preSum_zero]
  | succ n ih =>
    rw [preSum_succ, preSum_succ]
    have := ih (fun i hi => h i (by omega))
    have := h n (by omega)
    omega

theorem le_preSum {f : Nat → Nat} {n s : Nat} (h : s < n) : f s ≤ preSum f n := by
  have := preSum_mono f (show s + 1 ≤ n from h)
  rw [preSum_succ] at this
  omega

theorem grid_noise_le {N : Nat} (hN : w.SamplesUpTo d N) (q : Nat → Nat) (k s : Nat) :
    (gridOf w c d q).noise k s ≤ N * (gridOf w c d q).width s := by
  rw [Nat.mul_comm]
  exact sum_le (fun i => sample_le hN k s i) _

theorem grid_width_sum {q : Nat → Nat} (hS : 0 < c.serverCount.toNat)
    (hr : (c.serverCount.toNat - 1) * (gridOf w c d q).share ≤ c.dbSize.toNat) :
    preSum (gridOf w c d q).width c.serverCount.toNat = c.dbSize.toNat := by
  obtain ⟨n, hn⟩ : ∃ n, c.serverCount.toNat = n + 1 := ⟨c.serverCount.toNat - 1, by omega⟩
  rw [hn, preSum_succ, Grid.first_eq (gridOf w c d q) (show n < c.serverCount.toNat by omega)]
  have h1 : (gridOf w c d q).first n ≤ c.dbSize.toNat := by
    rw [show c.serverCount.toNat - 1 = n by omega] at hr
    exact hr
  have h2 : (gridOf w c d q).width n = c.dbSize.toNat - (gridOf w c d q).first n := by
    unfold Grid.width
    rw [if_pos (show n + 1 = (gridOf w c d q).servers from hn.symm)]
    rfl
  omega

theorem grid_total_le {N : Nat} (hN : w.SamplesUpTo d N) {q : Nat → Nat} (hS : 0 < c.serverCount.toNat)
    (hr : (c.serverCount.toNat - 1) * (gridOf w c d q).share ≤ c.dbSize.toNat) (k : Nat) :
    (gridOf w c d q).total k ≤ ((List.range c.serverCount.toNat).map q).sum + k * (c.dbSize.toNat * N) := by
  induction k with
  | zero => simp [Grid.total, gridOf]
  | succ k ih =>
    have h1 : preSum ((gridOf w c d q).noise k) c.serverCount.toNat ≤ N * c.dbSize.toNat := by
      rw [← grid_width_sum hS hr, ← Grid.preSum_mul]
      exact preSum_le (fun s _ => grid_noise_le hN q k s)
    rw [Nat.succ_mul, Nat.mul_comm c.dbSize.toNat N]
    rw [Nat.mul_comm c.dbSize.toNat N] at ih
    show (gridOf w c d q).total k + preSum ((gridOf w c d q).noise k) c.serverCount.toNat ≤ _
    omega

theorem grid_valid (hw : w.Sane) (h : Usable w c d) {N : Nat} (hN : w.SamplesUpTo d N) {q : Nat → Nat}
    (hS : 2 ≤ c.serverCount.toNat ∧ c.serverCount.toNat ≤ 254) (hrows : c.serverCount.toNat ≤ c.dbSize.toNat)
    (hr : (c.serverCount.toNat - 1) * (gridOf w c d q).share ≤ c.dbSize.toNat)
    (hq : ((List.range c.serverCount.toNat).map q).sum + (c.partyCount.toNat - 1) * (c.dbSize.toNat * N) < 2 ^ 32) :
    (gridOf w c d q).Valid where
  parties := ⟨h.parties.1, by have := c.partyCount.isLt; show c.partyCount.toNat ≤ 255; omega⟩
  servers := hS
  rows := ⟨hrows, h.rows.2⟩
  ranges := hr
  keys := pkeys_eq h
  pairs k hk := h.pairs _ (partyOf_mem (by have := h.parties.2; have : k < c.partyCount.toNat := hk; omega))
  division _ _ := hw.division
  order := hw.order
  backendOrder := hw.backendOrder
  fits := Nat.lt_of_le_of_lt (grid_total_le hN (by omega) hr _) hq

theorem grid_even (hb : w.sampling = false) (q : Nat → Nat) : (gridOf w c d q).EvenNoise :=
  fun _ _ => ⟨(BitVec.ofNat 32 (d.sampleDefault.toOption.getD 0)).toNat, fun _ _ _ _ => by
    show ((w.choices d _ _).sample _).toNat = _
    simp [World.choices, World.sample, hb]⟩

theorem load_le {g : Grid box} (hS : 0 < g.servers) {k s : Nat} (hs : s < g.servers) : g.load k s ≤ g.total k := by
  rw [← Grid.load_sum g hS k]
  exact le_preSum hs

theorem grid_roomy {g : Grid box} (hP : 2 ≤ g.parties) (hS : 0 < g.servers) {T : Nat} (hT : g.total (g.parties - 1) ≤ T)
    {cap : Node × Node → Nat} (hcap : ∀ a b, Linked g.parties g.servers a b → 4 + 124 * g.parties * T ≤ cap (a, b)) : g.Roomy cap := by
  have hk : ∀ k s, k < g.parties → s < g.servers → g.load k s ≤ T := fun k s hk hs =>
    ((load_le hS hs).trans (g.total_mono (by omega))).trans hT
  have hn : ∀ k s, k < g.parties - 1 → s < g.servers → g.noise k s + g.load k s ≤ T := by
    intro k s hk hs
    have h1 := load_le (g := g) hS (k := k) hs
    have h2 : g.noise k s ≤ preSum (g.noise k) g.servers := le_preSum hs
    have h3 := g.total_succ k
    have h4 := (g.total_mono (show k + 1 ≤ g.parties - 1 by omega)).trans hT
    omega
  have e : ∀ a x, a ≤ T → x ≤ 124 * g.parties → a * x ≤ 4 + 124 * g.parties * T := by
    intro a x ha hx
    have := Nat.mul_le_mul ha hx
    rw [Nat.mul_comm (124 * g.parties) T]
    omega
  have hsib : ∀ k s t, k < g.parties → s < g.servers → t < g.servers → s ≠ t →
      4 + 124 * g.parties * T ≤ cap ((k + 1, s), (k + 1, t)) := fun k s t h1 h2 h3 h4 =>
    hcap _ _ ⟨h1, h2, h1, h3, .inr ⟨rfl, Nat.succ_pos _, h4⟩⟩
  refine ⟨fun k s h1 h2 => ?_, fun k s t h1 h2 h3 h4 => ?_, fun k s t h1 h2 h3 h4 => ?_, fun k s t h1 h2 h3 h4 => ?_,
    fun k s t h1 h2 h3 h4 => ?_, fun k s t h1 h2 h3 h4 => ?_⟩
  · have a := hcap (k, s) (k + 1, s) ⟨h1.le, h2, h1, h2, .inl ⟨rfl, .inl rfl⟩⟩
    have b := hcap (k + 1, s) (k, s) ⟨h1, h2, h1.le, h2, .inl ⟨rfl, .inr rfl⟩⟩
    omega
  · have := hsib k s t h1 h2 h3 h4; omega
  · exact (e _ _ (hk k s h1 h2) (by show 76 ≤ _; omega)).trans (hsib k s t h1 h2 h3 h4)
  · refine (e _ _ (hn k s h1 h2) ?_).trans (hsib k s t (by omega) h2 h3 h4)
    unfold Onion.cipherSize
    exact Nat.mul_le_mul_left 124 (by omega)
  · exact (e _ _ (hn k s h1 h2) (by show 12 ≤ _; omega)).trans (hsib k s t (by omega) h2 h3 h4)
  · exact (e _ _ (hk (k + 1) s (by omega) h2) (by show 52 ≤ _; omega)).trans (hsib k s t (by omega) h2 h3 h4)
end

end DPPIR.Main
