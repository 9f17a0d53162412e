import Verif.Proofs.Address
import Verif.Props.Connect

/-!
# C66: the address a process connects to

`connectText net junk i text port` is `ConnectTo(text, port)` by process `i`, `net i a` is
the machine it reaches at address `a`, and `junk` is what its uninitialised local variable
contains.  `connectTo (m, p)` connects to port `p` of machine `m`.  `cstr` cuts a text at
the first NUL.
-/

namespace DPPIR.Props
open DPPIR DPPIR.Config DPPIR.Connect
open DPPIR.Protocol (Node)

variable {H : Type}

/-- **C66, the part that holds.** If the text is an IPv4 address in dotted decimal
notation, the process connects to that address.
Missing: other texts, see `C66_violated_not_refused`. -/
theorem C66_address_partial (text : List Byte) (a : BitVec 32) (h : Dotted (cstr text) a) (net : Node → BitVec 32 → H)
    (junk : BitVec 32) (i : Node) (port : BitVec 32) : connectText net junk i text port = connectTo (net i a, port16 port) := by
  unfold connectText servaddr
  rw [inetPton_dotted h]
  rfl

/-- **C66, violated.** Any other text (a host name, an address with a blank at the end) is
not refused: the process connects to the address that happens to be in its memory. -/
theorem C66_violated_not_refused (text : List Byte) (h : ∀ a, ¬ Dotted (cstr text) a) (net : Node → BitVec 32 → H)
    (junk : BitVec 32) (i : Node) (port : BitVec 32) : connectText net junk i text port = connectTo (net i junk, port16 port) := by
  rcases inetPton_cases junk (cstr text) with ⟨e, -⟩ | ⟨a, ha, -⟩
  · unfold connectText servaddr
    rw [e]
    rfl
  · exact absurd ha (h a)

/-- Connecting from the text is what the model of set-up does (`Hosts.there`, C54, C62,
C65), for the machines that `inet_pton` and the network lead to. -/
theorem C66_refines (home : Node → H) (net : Node → BitVec 32 → H) (junk : Node → List Byte → BitVec 32) (i : Node)
    (text : List Byte) (port : BitVec 32) :
    connectText net (junk i text) i text port = connectTo ((Hosts.resolving home net junk).there i text port) := by
  unfold connectText servaddr
  rcases inetPton_cases (junk i text) (cstr text) with ⟨e, -⟩ | ⟨a, -, e⟩ <;>
  · have e' : (Hosts.resolving home net junk).there i text port = (net i (inetPton (junk i text) (cstr text)).2, port16 port) := rfl
    rw [e', e]
    rfl

variable [DecidableEq H]

/-- Every server is configured with the dotted decimal text of an address at which the
previous party's server (or the client) and the lower siblings reach its machine. -/
def Addressed (home : Node → H) (net : Node → BitVec 32 → H) (c : Config) : Prop :=
  ∀ k s v, At c k s v → ∃ a, Dotted (cstr v.ip) a ∧ net (k, s) a = home (k + 1, s) ∧ ∀ t < s, net (k + 1, t) a = home (k + 1, s)

/-- **C66.** With such a configuration, and without clashes of ports, all processes find
their peers, whatever is in their memory. -/
theorem C66_connects (home : Node → H) (net : Node → BitVec 32 → H) (junk : Node → List Byte → BitVec 32) (c : Config)
    (hc : Consistent c) (hP : 0 < c.partyCount.toNat) (ha : Addressed home net c)
    (hn : (Hosts.resolving home net junk).NoClash c) : Connects (Hosts.resolving home net junk) c := by
  refine C54_connects _ c hc hP (fun k s v hv => ?_) hn
  obtain ⟨a, h1, h2, h3⟩ := ha k s v hv
  unfold Hosts.resolving
  refine ⟨?_, fun t ht => ?_⟩
  · show net (k, s) (inetPton _ (cstr v.ip)).2 = _
    rw [inetPton_dotted h1, h2]
  · show net (k + 1, t) (inetPton _ (cstr v.ip)).2 = _
    rw [inetPton_dotted h1, h3 t ht]

theorem cstr_eq {l : List Byte} (h : (0 : Byte) ∉ l) : cstr l = l := by
  induction l with
  | nil => rfl
  | cons b l ih =>
    have hb : b ≠ 0 := fun e => h (by simp [e])
    have := ih (fun e => h (List.mem_cons_of_mem _ e))
    unfold cstr at this ⊢
    rw [List.takeWhile_cons_of_pos (by simpa using hb), this]

theorem dotted_nul {l : List Byte} {a : BitVec 32} (h : Dotted l a) : (0 : Byte) ∉ l := by
  have hdec : ∀ n, n < 256 → (0 : Byte) ∉ decimal n := by decide +kernel
  obtain ⟨a, b, c, d, ha, hb, hc, hd, rfl, -⟩ := h
  simp only [List.mem_append, List.mem_singleton, not_or]
  exact ⟨⟨⟨⟨⟨⟨hdec a ha, by decide⟩, hdec b hb⟩, by decide⟩, hdec c hc⟩, by decide⟩, hdec d hd⟩

theorem localhost_dotted : Dotted localhost 0x7f000001 := ⟨127, 0, 0, 1, by decide, by decide, by decide, by decide, by decide, by decide⟩

/-- **C66.** Generated for at most 1000 servers and no IPs, and all processes on one
machine that reaches itself at 127.0.0.1: they find their peers. -/
theorem C66_generated_local (keys : Nat → (Fin keySize → Byte) × (Fin keySize → Byte)) (db : Int)
    (e d : BitVec 64) (P S : Nat) (hP : P < 256) (hS : S < 256) (hP0 : 0 < P) (hPS : P * S ≤ 1000) (m : H)
    (net : Node → BitVec 32 → H) (hnet : ∀ i, net i 0x7f000001 = m) (junk : Node → List Byte → BitVec 32) :
    ∃ c, fromArgs keys db e d P S [] = .ok c ∧ Connects (Hosts.resolving (fun _ => m) net junk) c := by
  obtain ⟨c, hc, h1, -, h3, -, -, h4, -⟩ := C34_from_args keys db e d P S hP hS [] (Or.inr rfl) (by simp)
  refine ⟨c, hc, C66_connects _ net junk c h3 (by omega) (fun k s v hv => ?_)
    (generated_noClash keys db e d P S hP hS hPS [] (Or.inr rfl) (by simp) c hc _)⟩
  have : v.ip = localhost := (h4 k s v hv).1 rfl
  rw [this]
  exact ⟨0x7f000001, by rw [cstr_eq (by decide)]; exact localhost_dotted, hnet _, fun t _ => hnet _⟩

/-- **C66.** Generated for at most 1000 servers and one IP for each, every IP being the
address of the machine that server runs on: they find their peers. -/
theorem C66_generated (keys : Nat → (Fin keySize → Byte) × (Fin keySize → Byte)) (db : Int)
    (e d : BitVec 64) (P S : Nat) (hP : P < 256) (hS : S < 256) (hP0 : 0 < P) (hPS : P * S ≤ 1000) (ips : List (List Byte))
    (hips : ips.length = P * S) (addr : Nat → Nat → BitVec 32)
    (hd : ∀ k s ip, s < S → ips[k * S + s]? = some ip → Dotted ip (addr k s))
    (home : Node → H) (net : Node → BitVec 32 → H) (hnet : ∀ i k s, k < P → s < S → net i (addr k s) = home (k + 1, s))
    (junk : Node → List Byte → BitVec 32) :
    ∃ c, fromArgs keys db e d P S ips = .ok c ∧ Connects (Hosts.resolving home net junk) c := by
  have hnul : ∀ ip ∈ ips, (0 : Byte) ∉ ip := by
    intro ip hip
    obtain ⟨j, hj, rfl⟩ := List.getElem_of_mem hip
    have hS0 : 0 < S := by
      by_contra h0
      rw [show S = 0 by omega, Nat.mul_zero] at hips
      omega
    have hj' : j / S * S + j % S = j := by rw [Nat.mul_comm]; exact Nat.div_add_mod j S
    exact dotted_nul (hd (j / S) (j % S) _ (Nat.mod_lt _ hS0) (by rw [hj', List.getElem?_eq_getElem hj]))
  obtain ⟨c, hc, h1, h2, h3, -, -, h4, -⟩ := C34_from_args keys db e d P S hP hS ips (Or.inl hips) hnul
  refine ⟨c, hc, C66_connects _ net junk c h3 (by omega) (fun k s v hv => ?_)
    (generated_noClash keys db e d P S hP hS hPS ips (Or.inl hips) hnul c hc _)⟩
  obtain ⟨hk, hs⟩ : k < c.partyCount.toNat ∧ s < c.serverCount.toNat := by
    obtain ⟨p, q1, q2⟩ := hv
    obtain ⟨q3, rfl⟩ := List.getElem?_eq_some_iff.mp q1
    obtain ⟨q4, -⟩ := List.getElem?_eq_some_iff.mp q2
    rw [h3.2 _ (List.getElem_mem q3)] at q4
    rw [h3.1] at q3
    exact ⟨q3, q4⟩
  rw [h1] at hk
  rw [h2] at hs
  have hne : ips ≠ [] := by
    rintro rfl
    have : 0 < P * S := Nat.mul_pos hP0 (by omega)
    rw [List.length_nil] at hips
    omega
  have hdot := hd k s v.ip hs ((h4 k s v hv).2 hne)
  exact ⟨addr k s, by rw [cstr_eq (dotted_nul hdot)]; exact hdot, hnet _ k s hk hs, fun t _ => hnet _ k s hk hs⟩

/-- "10.0.0.12" is an address; "localhost", "010.0.0.12" and "10.0.0.12 " are not. -/
example : Dotted [49, 48, 46, 48, 46, 48, 46, 49, 50] 0x0a00000c ∧
    (∀ a, ¬ Dotted (cstr [108, 111, 99, 97, 108, 104, 111, 115, 116]) a) ∧
    (∀ a, ¬ Dotted (cstr [48, 49, 48, 46, 48, 46, 48, 46, 49, 50]) a) ∧
    (∀ a, ¬ Dotted (cstr [49, 48, 46, 48, 46, 48, 46, 49, 50, 32]) a) := by
  have no : ∀ l : List Byte, (inetPton 0 l).1 = 0 → ∀ a, ¬ Dotted l a := by
    intro l h a ha
    rw [inetPton_dotted ha] at h
    cases h
  exact ⟨⟨10, 0, 0, 12, by decide, by decide, by decide, by decide, by decide, by decide⟩, no _ (by decide), no _ (by decide), no _ (by decide)⟩

/-- Two parties with one server each on machines 1 and 2, which have the addresses 10.0.0.1
and 10.0.0.2; the client runs on machine 0. -/
example : ∃ c, fromArgs (fun _ => (fun _ => 0, fun _ => 0)) 100 0 0 2 1
      [[49, 48, 46, 48, 46, 48, 46, 49], [49, 48, 46, 48, 46, 48, 46, 50]] = .ok c ∧
    Connects (Hosts.resolving (fun i => i.1) (fun _ a => a.toNat - 0x0a000000) (fun _ _ => 77)) c := by
  refine C66_generated _ 100 0 0 2 1 (by decide) (by decide) (by decide) (by decide) _ rfl
    (fun k _ => BitVec.ofNat 32 (0x0a000001 + k)) ?_ _ _ ?_ _
  · intro k s ip hs h
    obtain rfl : s = 0 := by omega
    match k, h with
    | 0, h =>
      obtain rfl := Option.some.inj h
      exact ⟨10, 0, 0, 1, by decide, by decide, by decide, by decide, by decide, by decide⟩
    | 1, h =>
      obtain rfl := Option.some.inj h
      exact ⟨10, 0, 0, 2, by decide, by decide, by decide, by decide, by decide, by decide⟩
    | k + 2, h => simp at h
  · intro i k s hk hs
    show (BitVec.ofNat 32 (0x0a000001 + k)).toNat - 0x0a000000 = k + 1
    rw [BitVec.toNat_ofNat]
    omega

end DPPIR.Props
