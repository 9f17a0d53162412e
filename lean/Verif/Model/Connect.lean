import Verif.Model.Config
import Verif.Model.Grid

/-!
# Connection set-up
(`DPPIR/sockets/common.cc`, `{client,server,parallel}_socket.cc` and the constructors of
the protocol classes)

Programs that listen, accept and connect, and networks of them.  Socket options
(`TCP_NODELAY`, buffer sizes) are left out.
-/

namespace DPPIR.Connect
open DPPIR.Config
open DPPIR.Protocol (Node)

/-- Name of a connection: the process that connected, and how many connections that
process had made before. -/
abbrev Conn (ι : Type) := ι × Nat

/-- A connected socket: one of the two ends of a connection; `server` is true at the end
that was accepted. -/
structure Sock (ι : Type) where
  conn : Conn ι
  server : Bool
  deriving DecidableEq

/-- A program that sets up connections; `A` is the type of addresses. -/
inductive CProc (ι A α : Type) where
  /-- returned normally -/
  | done (a : α)
  /-- stopped abnormally (or undefined behaviour) -/
  | fault (e : Fault)
  /-- `bind` to an own address, then `listen` with the given backlog -/
  | listen (addr : A) (backlog : Nat) (k : CProc ι A α)
  /-- `accept` on the socket bound to an address -/
  | accept (addr : A) (k : Sock ι → CProc ι A α)
  /-- `connect` to an address, repeated until it succeeds -/
  | connect (addr : A) (k : Sock ι → CProc ι A α)
  /-- write one byte -/
  | send (s : Sock ι) (b : Byte) (k : CProc ι A α)
  /-- blocking read of one byte -/
  | recv (s : Sock ι) (k : Byte → CProc ι A α)

namespace CProc
variable {ι A α β : Type}

/-- Sequencing of statements. -/
def bind : CProc ι A α → (α → CProc ι A β) → CProc ι A β
  | done a, f => f a
  | fault e, _ => fault e
  | listen a n k, f => listen a n (k.bind f)
  | accept a k, f => accept a (fun s => (k s).bind f)
  | connect a k, f => connect a (fun s => (k s).bind f)
  | send s b k, f => send s b (k.bind f)
  | recv s k, f => recv s (fun b => (k b).bind f)

instance : Monad (CProc ι A) where
  pure := done
  bind := bind

/-- A local computation. -/
def lift : Res α → CProc ι A α
  | .ok a => done a
  | .error e => fault e

end CProc

/-- A network of such programs. -/
structure CNet (ι A α : Type) where
  proc : ι → CProc ι A α
  /-- who listens at an address, with which backlog -/
  listener : A → Option (ι × Nat)
  /-- the connections to an address that were not accepted yet -/
  pending : A → List (Conn ι)
  /-- how many connections a process has made -/
  dials : ι → Nat
  /-- the bytes on the way to a socket -/
  chan : Sock ι → List Byte

namespace CNet
variable {ι A α : Type} [DecidableEq ι] [DecidableEq A]

/-- Nothing listens, nothing is connected. -/
def start (proc : ι → CProc ι A α) : CNet ι A α := ⟨proc, fun _ => none, fun _ => [], fun _ => 0, fun _ => []⟩

/-- Process `i` may go from `n` to the second network in one step.  `bind` fails if
someone listens at the address already (`MY_ASSERT`, common.cc:98).  `connect` succeeds
if someone listens and the backlog is not full, else the process sleeps and tries again
(common.cc:60-64), which is no step.  Pending connections may be accepted in any order. -/
inductive Step (i : ι) : CNet ι A α → CNet ι A α → Prop where
  | listen {n : CNet ι A α} {a : A} {b : Nat} {k : CProc ι A α} (h : n.proc i = .listen a b k) (free : n.listener a = none) :
      Step i n { n with proc := Function.update n.proc i k, listener := Function.update n.listener a (some (i, b)) }
  | inUse {n : CNet ι A α} {a : A} {b : Nat} {k : CProc ι A α} (h : n.proc i = .listen a b k) (taken : n.listener a ≠ none) :
      Step i n { n with proc := Function.update n.proc i (.fault .assertFail) }
  | accept {n : CNet ι A α} {a : A} {k : Sock ι → CProc ι A α} {c : Conn ι} (h : n.proc i = .accept a k)
      (waiting : c ∈ n.pending a) :
      Step i n { n with proc := Function.update n.proc i (k ⟨c, true⟩)
                        pending := Function.update n.pending a ((n.pending a).erase c) }
  | connect {n : CNet ι A α} {a : A} {k : Sock ι → CProc ι A α} {j : ι} {b : Nat} (h : n.proc i = .connect a k)
      (up : n.listener a = some (j, b)) (room : (n.pending a).length < b) :
      Step i n { n with proc := Function.update n.proc i (k ⟨(i, n.dials i), false⟩)
                        pending := Function.update n.pending a (n.pending a ++ [(i, n.dials i)])
                        dials := Function.update n.dials i (n.dials i + 1) }
  | send {n : CNet ι A α} {s : Sock ι} {b : Byte} {k : CProc ι A α} (h : n.proc i = .send s b k) :
      Step i n { n with proc := Function.update n.proc i k
                        chan := Function.update n.chan ⟨s.conn, !s.server⟩ (n.chan ⟨s.conn, !s.server⟩ ++ [b]) }
  | recv {n : CNet ι A α} {s : Sock ι} {b : Byte} {k : Byte → CProc ι A α} {rest : List Byte} (h : n.proc i = .recv s k)
      (data : n.chan s = b :: rest) :
      Step i n { n with proc := Function.update n.proc i (k b), chan := Function.update n.chan s rest }

/-- The networks that can be reached in any number of steps of any processes. -/
inductive Reach (n : CNet ι A α) : CNet ι A α → Prop where
  | refl : Reach n n
  | step {m m' : CNet ι A α} {i : ι} (h : Reach n m) (s : Step i m m') : Reach n m'

/-- Some process can take a step. -/
def CanStep (n : CNet ι A α) : Prop := ∃ i m, Step i n m

/-- Process `i` stopped abnormally. -/
def Faulted (n : CNet ι A α) (i : ι) : Prop := ∃ e, n.proc i = .fault e

/-- Process `i` returned normally, with the result `a`. -/
def Returned (n : CNet ι A α) (i : ι) (a : α) : Prop := n.proc i = .done a

end CNet

/-! ## The code -/

variable {ι A H : Type}

/-- The loop of `ListenOn` (common.cc:104-112). -/
def acceptLoop (addr : A) : Nat → List (Sock ι) → CProc ι A (List (Sock ι))
  | 0, l => .done l
  | n + 1, l => .accept addr (fun s => acceptLoop addr n (l ++ [s]))

/-- `ListenOn(port, out, count)` (common.cc:69-113): the sockets in `out`. -/
def listenOn (addr : A) (count : Nat) : CProc ι A (List (Sock ι)) := .listen addr count (acceptLoop addr count [])

/-- `ConnectTo(ip, port)` (common.cc:29-67). -/
def connectTo (addr : A) : CProc ι A (Sock ι) := .connect addr .done

/-- The loop over the accepted connections (parallel_socket.cc:62-73): every one
declares its server id. -/
def identify (me : Nat) : List (Sock ι) → (Nat → Option (Sock ι)) → CProc ι A (Nat → Option (Sock ι))
  | [], t => .done t
  | s :: ss, t => .recv s (fun b => if b.toNat < me then identify me ss (Function.update t b.toNat (some s)) else .fault .assertFail)

/-- The loop over the higher siblings (parallel_socket.cc:78-98), from `id` on with `n`
rounds; `addr` gives the address of a sibling, with an unchecked access to
`config.servers`. -/
def dialSiblings (me : Nat) (addr : Nat → Res A) : Nat → Nat → (Nat → Option (Sock ι)) → CProc ι A (Nat → Option (Sock ι))
  | 0, _, t => .done t
  | n + 1, id, t => do
    let a ← CProc.lift (addr id)
    let s ← connectTo a
    CProc.send s (BitVec.ofNat 8 me) (dialSiblings me addr n (id + 1) (Function.update t id (some s)))

/-- `ParallelSocket::Initialize` (parallel_socket.cc:52-99): `sockfds_`, a function of the
sibling's id (C21); the entries of `pollfds_` are the same sockets.  `own` is the address
of this server, `addr` those of the siblings. -/
def parallelInit (me servers : Nat) (own : Res A) (addr : Nat → Res A) : CProc ι A (Nat → Option (Sock ι)) := do
  let t ← if me > 0 then do
      let a ← CProc.lift own
      let fds ← listenOn a me
      identify me fds (fun _ => none)
    else CProc.done (fun _ => none)
  dialSiblings me addr (servers - me - 1) (me + 1) t

/-- The sockets a process holds after its constructor: `back_`, `next_`, `siblings_`. -/
structure Wiring (ι : Type) where
  back : Option (Sock ι) := none
  next : Option (Sock ι) := none
  sib : Nat → Option (Sock ι) := fun _ => none

/-- The machines: where a process runs, and which machine a process reaches under an IP
address. -/
structure Hosts (H : Type) where
  home : Node → H
  reach : Node → List Byte → H

/-- `config.parties.at(k).servers.at(s)`. -/
def serverAt (c : Config) (k s : Nat) : Res ServerConfig :=
  match c.parties[k]? with
  | none => .error .exception
  | some p => match p.servers[s]? with
    | none => .error .exception
    | some v => .ok v

/-- `config.servers[id]` for the own party (parallel_socket.cc:59, 81). -/
def siblingAt (c : Config) (k s : Nat) : Res ServerConfig :=
  match c.parties[k]? with
  | none => .error .exception
  | some p => rd p.servers s

/-- `htons(port)` (common.cc:56, 95): the low 16 bits. -/
def port16 (p : BitVec 32) : BitVec 16 := p.setWidth 16

/-- An address: machine and port. -/
abbrev Addr (H : Type) := H × BitVec 16

/-- The address process `i` connects to for an IP and a port (common.cc:54-57). -/
def Hosts.there (h : Hosts H) (i : Node) (ip : List Byte) (port : BitVec 32) : Addr H := (h.reach i ip, port16 port)

/-- The address process `i` binds to: any interface of its machine (common.cc:93-95). -/
def Hosts.here (h : Hosts H) (i : Node) (port : BitVec 32) : Addr H := (h.home i, port16 port)

/-- `siblings_.Initialize(party_config_)` by server `s` of party `k`. -/
def siblings (h : Hosts H) (c : Config) (k s : Nat) : CProc Node (Addr H) (Nat → Option (Sock Node)) :=
  parallelInit s c.serverCount.toNat
    (do let v ← siblingAt c k s; .ok (h.here (k + 1, s) v.parallelPort))
    (fun t => do let v ← siblingAt c k t; .ok (h.there (k + 1, s) v.ip v.parallelPort))

/-- The constructor of the client of server `s` connects
(client_initialization.cc:28-31). -/
def clientSetup (h : Hosts H) (c : Config) (s : Nat) : CProc Node (Addr H) (Wiring Node) := do
  let v ← CProc.lift (serverAt c 0 s)
  let next ← connectTo (h.there (0, s) v.ip v.port)
  return { next := some next }

/-- `back_.Initialize(port)` (server_socket.cc:11-16): the only accepted connection. -/
def backInit (addr : A) : CProc ι A (Sock ι) := do
  let fds ← listenOn addr 1
  CProc.lift (rd fds 0)

/-- The constructors of `Party` (party_initialization.cc:55-59) and `ParallelParty`
(parallel_party_initialization.cc:68-73) connect. -/
def partySetup (h : Hosts H) (c : Config) (k s : Nat) : CProc Node (Addr H) (Wiring Node) := do
  let v ← CProc.lift (serverAt c k s)
  let back ← backInit (h.here (k + 1, s) v.port)
  let w ← CProc.lift (serverAt c (k + 1) s)
  let next ← connectTo (h.there (k + 1, s) w.ip w.port)
  if c.serverCount.toNat = 1 then
    return { back := some back, next := some next }
  else do
    let sib ← siblings h c k s
    return { back := some back, next := some next, sib := sib }

/-- The constructor of `BackendParty` connects (backend_initialization.cc:30-35). -/
def backendSetup (h : Hosts H) (c : Config) (s : Nat) : CProc Node (Addr H) (Wiring Node) := do
  let k := c.partyCount.toNat - 1
  let v ← CProc.lift (serverAt c k s)
  let back ← backInit (h.here (k + 1, s) v.port)
  if c.serverCount.toNat > 1 then do
    let sib ← siblings h c k s
    return { back := some back, sib := sib }
  else return { back := some back }

/-- The set-up of a whole deployment: process `(0, s)` is the client of server `s`,
process `(k + 1, s)` is server `s` of party `k` (main.cc:95-113). -/
def setup (h : Hosts H) (c : Config) (i : Node) : CProc Node (Addr H) (Wiring Node) :=
  if i.2 < c.serverCount.toNat then
    if i.1 = 0 then clientSetup h c i.2
    else if i.1 < c.partyCount.toNat then partySetup h c (i.1 - 1) i.2
    else if i.1 = c.partyCount.toNat then backendSetup h c i.2
    else .done {}
  else .done {}

end DPPIR.Connect
