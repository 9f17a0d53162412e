import Verif.Model.Connect

/-!
# What it means that connection set-up works
-/

namespace DPPIR.Connect
open DPPIR.Config
open DPPIR.Protocol (Node)

variable {H : Type}

/-- Server `s` of party `k` has the configuration `v`. -/
def At (c : Config) (k s : Nat) (v : ServerConfig) : Prop := ∃ p, c.parties[k]? = some p ∧ p.servers[s]? = some v

/-- Under the configured IP of each server, the previous party's server (or the client)
and the lower siblings reach the machine that server runs on. -/
def Hosts.Reaches (h : Hosts H) (c : Config) : Prop :=
  ∀ k s v, At c k s v → h.reach (k, s) v.ip = h.home (k + 1, s) ∧ ∀ t < s, h.reach (k + 1, t) v.ip = h.home (k + 1, s)

/-- No two sockets listen at the same machine and port.  Server 0 of each party does not
listen for siblings. -/
def Hosts.NoClash (h : Hosts H) (c : Config) : Prop :=
  ∀ k s v k' s' v', At c k s v → At c k' s' v' → h.home (k + 1, s) = h.home (k' + 1, s') →
    ((k, s) ≠ (k', s') → port16 v.port ≠ port16 v'.port) ∧
    ((k, s) ≠ (k', s') → 0 < s → 0 < s' → port16 v.parallelPort ≠ port16 v'.parallelPort) ∧
    (0 < s' → port16 v.port ≠ port16 v'.parallelPort)

/-- Processes `j` and `i` are peers, `j` being the one that connects: client and server of
the first party, the same server of two consecutive parties, or two servers of a party. -/
def Peers (c : Config) (j i : Node) : Prop :=
  j.2 < c.serverCount.toNat ∧ i.2 < c.serverCount.toNat ∧ 0 < i.1 ∧ i.1 ≤ c.partyCount.toNat ∧
    ((j.1 + 1 = i.1 ∧ j.2 = i.2) ∨ (j.1 = i.1 ∧ j.2 < i.2))

/-- The sockets `w` of process `i` are ends of the connections with its peers: `link j i`
is the connection between `j` and `i`. -/
structure Wired (c : Config) (link : Node → Node → Conn Node) (i : Node) (w : Wiring Node) : Prop where
  back : w.back = if 0 < i.1 then some ⟨link (i.1 - 1, i.2) i, true⟩ else none
  next : w.next = if i.1 < c.partyCount.toNat then some ⟨link i (i.1 + 1, i.2), false⟩ else none
  sib : ∀ t, w.sib t =
    if 0 < i.1 ∧ t < c.serverCount.toNat ∧ t ≠ i.2 then
      if t < i.2 then some ⟨link (i.1, t) i, true⟩ else some ⟨link i (i.1, t), false⟩
    else none

/-- In every run of the set-up, whatever the order in which the processes start and
proceed: no process stops abnormally; the run is finite and as long as not all have
returned, some process can go on; every process that returned holds one end of the
connection with each of its peers; different peers have different connections; and
nothing is left in transit at the end. -/
def Connects [DecidableEq H] (h : Hosts H) (c : Config) : Prop :=
  ∃ link : Node → Node → Conn Node,
    (∀ j i j' i', Peers c j i → Peers c j' i' → link j i = link j' i' → j = j' ∧ i = i') ∧
    (∀ n, CNet.Reach (CNet.start (setup h c)) n →
      (∀ i, ¬ n.Faulted i) ∧
      (¬ n.CanStep → (∀ i, ∃ w, n.Returned i w) ∧ (∀ x, n.chan x = []) ∧
        ∀ k s v, At c k s v → n.pending (h.here (k + 1, s) v.port) = [] ∧ (0 < s → n.pending (h.here (k + 1, s) v.parallelPort) = [])) ∧
      (∀ i w, i.1 ≤ c.partyCount.toNat → i.2 < c.serverCount.toNat → n.Returned i w → Wired c link i w)) ∧
    (∀ f : Nat → CNet Node (Addr H) (Wiring Node), f 0 = CNet.start (setup h c) → ¬ ∀ k, ∃ i, CNet.Step i (f k) (f (k + 1)))

end DPPIR.Connect
