import Verif.Proofs.Joint
import Verif.Props.Start
import Verif.Props.Connect

/-!
# C62: from the command line to the answers, connecting included
-/

namespace DPPIR.Props
open DPPIR.Config DPPIR.Connect DPPIR.Noise DPPIR.Protocol DPPIR.Onion DPPIR.Main DPPIR.Joint DPPIR.Spec

variable {box : SealedBox} {H : Type} [DecidableEq H]

/-- **C62.** Processes that answer their clients on the connections of a configuration do
so as well when they have to set up these connections first, while others may already run
the protocol. -/
theorem C62_connecting {ι : Type} [DecidableEq ι] (h : Hosts H) (c : Config) (hc : Consistent c) (hP : 0 < c.partyCount.toNat)
    (hr : h.Reaches c) (hn : h.NoClash c) (pos : ι → Node) (hpos : Function.Injective pos) (prog : ι → PProg ι Unit)
    (capacity S : Nat) (client : Nat → ι) (count : Nat → Nat) (rows : Nat) (row : Nat → Nat → Nat)
    (ha : Answers prog (fun a b => Linked c.partyCount.toNat c.serverCount.toNat (pos a) (pos b)) capacity S client count rows row) :
    ConnectsAndAnswers pos (setup h c) prog capacity S client count rows row :=
  connects_and_answers (pl := planOf h c) (planOf_distinct h c (config_complete hc) hn) (plan_small c h) hpos
    (inv_start hP (fun i hi => setup_eq h c (config_complete hc) hP hr i hi) (fun i hi => setup_out h c i hi)) ha

private theorem usable_consistent {w : World box} {c : Config} {d : Dist} (h : Usable w c d) : Consistent c :=
  ⟨h.parties.2, h.servers⟩

/-- **C62.** One server per party: start a client with `--queries=q` and all parties, in
any order, with the same usable configuration file whose addresses lead to the machines
the parties run on and whose ports do not clash.  They connect, and the client gets the
rows it asks for. -/
theorem C62_one_server (w : World box) (hw : w.Sane) (c : Config) (d : Dist) (h : Usable w c d) (hS : c.serverCount.toNat = 1)
    (m : Hosts H) (hr : m.Reaches c) (hn : m.NoClash c)
    (file : String → Option (List Byte)) (path stage : String) (hpath : path ≠ "") (hst : stage = "online" ∨ stage = "all")
    (hc : readFile (file path) = .ok c) (N : Nat) (hN : w.SamplesUpTo d N) (q : Nat)
    (hq : q + (c.partyCount.toNat - 1) * (c.dbSize.toNat * N) < 2 ^ 32) :
    ConnectsAndAnswers (fun k => (k, 0)) (setup m c) (launch w file path stage c.partyCount.toNat q) 1 1 (fun _ => 0) (fun _ => q)
      c.dbSize.toNat (fun _ j => (w.clientRand 0).row j % c.dbSize.toNat) := by
  refine C62_connecting m c (usable_consistent h) (by have := h.parties.1; omega) hr hn _ (fun a b e => (Prod.mk.inj e).1) _ _ _ _ _ _ _ ?_
  rw [hS]
  exact C61_one_server w hw c d h hS file path stage hpath hst hc N hN q hq

/-- **C62.** The same with 2 to 254 servers per party and as many clients, under the
conditions of C61. -/
theorem C62_many_servers (w : World box) (hw : w.Sane) (c : Config) (d : Dist) (h : Usable w c d)
    (hS : 2 ≤ c.serverCount.toNat ∧ c.serverCount.toNat ≤ 254) (hrows : c.serverCount.toNat ≤ c.dbSize.toNat)
    (hshare : (c.serverCount.toNat - 1) * ((c.dbSize.toNat + c.serverCount.toNat - 1) / c.serverCount.toNat) ≤ c.dbSize.toNat)
    (m : Hosts H) (hr : m.Reaches c) (hn : m.NoClash c)
    (file : String → Option (List Byte)) (path stage : String) (hpath : path ≠ "") (hst : stage = "online" ∨ stage = "all")
    (hc : readFile (file path) = .ok c) (N : Nat) (hN : w.SamplesUpTo d N) (q : Nat → Nat)
    (hall : stage = "all" → w.sampling = false ∧ ∃ q0, ∀ s < c.serverCount.toNat, q s = q0)
    (hq : ((List.range c.serverCount.toNat).map q).sum + (c.partyCount.toNat - 1) * (c.dbSize.toNat * N) < 2 ^ 32) :
    ConnectsAndAnswers id (setup m c) (launchMany w file path stage c.partyCount.toNat c.serverCount.toNat q)
      (4 + 124 * c.partyCount.toNat *
        (((List.range c.serverCount.toNat).map q).sum + (c.partyCount.toNat - 1) * (c.dbSize.toNat * N)))
      c.serverCount.toNat (fun s => (0, s)) q c.dbSize.toNat (fun s j => (w.clientRand s).row j % c.dbSize.toNat) :=
  C62_connecting m c (usable_consistent h) (by have := h.parties.1; omega) hr hn _ Function.injective_id _ _ _ _ _ _ _
    (C61_many_servers w hw c d h hS hrows hshare file path stage hpath hst hc N hN q hall hq)

/-- **C62.** Generate a configuration for one server per party, write it to a file, start
everything: the processes connect and the client gets its rows, wherever the parties run,
as long as the given IPs lead there. -/
theorem C62_generated (w : World box) (hw : w.Sane) (hA : SoundRounding w.arith)
    (keys : Nat → (Fin keySize → Byte) × (Fin keySize → Byte))
    (hkeys : ∀ i, box.IsPair (w.pkey (keys i).1) (w.skey (keys i).2)) (rows P : Nat) (e δ : BitVec 64)
    (hP : 2 ≤ P ∧ P ≤ 255) (hrows : 1 ≤ rows ∧ rows ≤ 2 ^ 31 - 1) (ips : List (List Byte))
    (hips : ips.length = P ∨ ips = []) (hnul : ∀ ip ∈ ips, (0 : Byte) ∉ ip)
    (d : Dist) (hd : Dist.new w.arith (Dbl.ofBits e) (Dbl.ofBits δ) = .ok d) (hrep : Representable w.arith d.cutoff)
    (x : ℝ) (hx : d.cutoff = .fin x) (q : Nat) (hq : q + (P - 1) * (rows * ⌊2 * x⌋.toNat) < 2 ^ 32)
    (c : Config) (hc : fromArgs keys rows e δ P 1 ips = .ok c) (data : List Byte) (hs : serialize c = .ok data)
    (hlen : data.length < 2 ^ 63) (file : String → Option (List Byte)) (path stage : String) (hpath : path ≠ "")
    (hfile : file path = some data) (hst : stage = "online" ∨ stage = "all") (m : Hosts H) (hr : m.Reaches c) :
    ConnectsAndAnswers (fun k => (k, 0)) (setup m c) (launch w file path stage P q) 1 1 (fun _ => 0) (fun _ => q) rows
      (fun _ j => (w.clientRand 0).row j % rows) := by
  obtain ⟨c', hc', h1, h2, h3, -⟩ := C34_from_args keys rows e δ P 1 (by omega) (by omega) ips (by simpa using hips) hnul
  have ec : c' = c := Except.ok.inj (hc'.symm.trans hc)
  subst ec
  refine C62_connecting m c' h3 (by omega) hr
    (generated_noClash keys rows e δ P 1 (by omega) (by omega) (by omega) ips (by simpa using hips) hnul c' hc m)
    _ (fun a b e => (Prod.mk.inj e).1) _ _ _ _ _ _ _ ?_
  rw [h1, h2]
  exact C61_generated w hw hA keys hkeys rows P e δ hP hrows ips hips hnul d hd hrep x hx q hq c' hc data hs hlen file path stage
    hpath hfile hst

/-- **C62.** The same with several servers per party, at most 1000 in all. -/
theorem C62_generated_many (w : World box) (hw : w.Sane) (hA : SoundRounding w.arith)
    (keys : Nat → (Fin keySize → Byte) × (Fin keySize → Byte))
    (hkeys : ∀ i, box.IsPair (w.pkey (keys i).1) (w.skey (keys i).2)) (rows P S : Nat) (e δ : BitVec 64)
    (hP : 2 ≤ P ∧ P ≤ 255) (hS : 2 ≤ S ∧ S ≤ 254) (hPS : P * S ≤ 1000) (hrows : S ≤ rows ∧ rows ≤ 2 ^ 31 - 1)
    (hshare : (S - 1) * ((rows + S - 1) / S) ≤ rows) (ips : List (List Byte))
    (hips : ips.length = P * S ∨ ips = []) (hnul : ∀ ip ∈ ips, (0 : Byte) ∉ ip)
    (d : Dist) (hd : Dist.new w.arith (Dbl.ofBits e) (Dbl.ofBits δ) = .ok d) (hrep : Representable w.arith d.cutoff)
    (x : ℝ) (hx : d.cutoff = .fin x) (q : Nat → Nat)
    (hq : ((List.range S).map q).sum + (P - 1) * (rows * ⌊2 * x⌋.toNat) < 2 ^ 32)
    (c : Config) (hc : fromArgs keys rows e δ P S ips = .ok c) (data : List Byte) (hs : serialize c = .ok data)
    (hlen : data.length < 2 ^ 63) (file : String → Option (List Byte)) (path stage : String) (hpath : path ≠ "")
    (hfile : file path = some data) (hst : stage = "online" ∨ stage = "all")
    (hall : stage = "all" → w.sampling = false ∧ ∃ q0, ∀ s < S, q s = q0) (m : Hosts H) (hr : m.Reaches c) :
    ConnectsAndAnswers id (setup m c) (launchMany w file path stage P S q)
      (4 + 124 * P * (((List.range S).map q).sum + (P - 1) * (rows * ⌊2 * x⌋.toNat)))
      S (fun s => (0, s)) q rows (fun s j => (w.clientRand s).row j % rows) := by
  obtain ⟨c', hc', h1, h2, h3, -⟩ := C34_from_args keys rows e δ P S (by omega) (by omega) ips hips hnul
  have ec : c' = c := Except.ok.inj (hc'.symm.trans hc)
  subst ec
  refine C62_connecting m c' h3 (by omega) hr
    (generated_noClash keys rows e δ P S (by omega) (by omega) hPS ips hips hnul c' hc m)
    _ Function.injective_id _ _ _ _ _ _ _ ?_
  rw [h1, h2]
  exact C61_generated_many w hw hA keys hkeys rows P S e δ hP hS hrows hshare ips hips hnul d hd hrep x hx q hq c' hc data hs hlen
    file path stage hpath hfile hst hall

/-! ### Examples: all processes on one machine -/

def oneMachine : Hosts Unit := ⟨fun _ => (), fun _ _ => ()⟩

theorem oneMachine_reaches (c : Config) : oneMachine.Reaches c := fun _ _ _ _ => ⟨rfl, fun _ _ => rfl⟩

/-- The README's deployment. -/
example (sampling : Bool) : ConnectsAndAnswers (fun k => (k, 0)) (setup oneMachine Example.exampleConfig)
    (launch (Example.exampleWorld sampling) (fun _ => some Example.exampleFile) "config/example.txt" "all" 2 100)
    1 1 (fun _ => 0) (fun _ => 100) 100 (fun _ j => (7 * j + 0) % 100) := by
  have e1 : Example.exampleConfig.partyCount.toNat = 2 := by decide +kernel
  have e2 : Example.exampleConfig.serverCount.toNat = 1 := by decide +kernel
  have hcons : Consistent Example.exampleConfig := ⟨by decide +kernel, by decide +kernel⟩
  have hports : ∀ k < 2, ∀ k' < 2, k ≠ k' → (Example.exampleConfig.parties[k]?.bind (·.servers[0]?)).map (fun v => port16 v.port) ≠
      (Example.exampleConfig.parties[k']?.bind (·.servers[0]?)).map (fun v => port16 v.port) := by decide +kernel
  have hat : ∀ k s v, At Example.exampleConfig k s v → k < 2 ∧ s = 0 ∧
      (Example.exampleConfig.parties[k]?.bind (·.servers[0]?)) = some v := by
    rintro k s v ⟨p, h1, h2⟩
    obtain ⟨h3, rfl⟩ := List.getElem?_eq_some_iff.mp h1
    obtain ⟨h4, -⟩ := List.getElem?_eq_some_iff.mp h2
    rw [hcons.2 _ (List.getElem_mem h3), e2] at h4
    obtain rfl : s = 0 := by omega
    rw [hcons.1, e1] at h3
    refine ⟨h3, rfl, ?_⟩
    rw [h1]
    exact h2
  refine C62_connecting oneMachine Example.exampleConfig hcons (by rw [e1]; omega) (oneMachine_reaches _) ?_ _
    (fun a b e => (Prod.mk.inj e).1) _ _ _ _ _ _ _ ?_
  · intro k s v k' s' v' hv hv' _
    obtain ⟨a1, rfl, a3⟩ := hat k s v hv
    obtain ⟨b1, rfl, b3⟩ := hat k' s' v' hv'
    refine ⟨fun hne ep => ?_, fun _ h => absurd h (by omega), fun h => absurd h (by omega)⟩
    refine hports k a1 k' b1 (fun e => hne (by rw [e])) ?_
    rw [a3, b3, Option.map_some, Option.map_some, ep]
  · rw [e1, e2]
    exact Example.readme sampling

/-- A generated configuration for three parties of two servers. -/
example : ConnectsAndAnswers id (setup oneMachine Example.generatedConfig)
    (launchMany Example.generatedWorld (fun _ => some Example.generatedFile) "f" "all" 3 2 (fun _ => 7))
    (4 + 124 * 3 * (14 + 2 * (5 * 40))) 2 (fun s => (0, s)) (fun _ => 7) 5 (fun s j => (7 * j + s) % 5) := by
  obtain ⟨c', hc', h1, h2, h3, -⟩ := C34_from_args Example.generatedKeys (5 : Nat) Example.exampleConfig.epsilon
    Example.exampleConfig.delta 3 2 (by omega) (by omega) [] (Or.inr rfl) (by simp)
  have hc := Example.generated_args
  have ec : c' = Example.generatedConfig := Except.ok.inj (hc'.symm.trans hc)
  subst ec
  refine C62_connecting oneMachine _ h3 (by omega) (oneMachine_reaches _)
    (generated_noClash Example.generatedKeys (5 : Nat) Example.exampleConfig.epsilon Example.exampleConfig.delta 3 2 (by omega) (by omega)
      (by omega) [] (Or.inr rfl) (by simp) _ hc _) _ Function.injective_id _ _ _ _ _ _ _ ?_
  rw [h1, h2]
  exact Example.generated

end DPPIR.Props
