import Verif.Model.Polling
import Verif.Model.Protocol

/-!
# Exchanges among sibling servers
(`DPPIR/protocol/parallel_party/parallel_party_util.inc`, `DPPIR/sockets/parallel_socket.cc`)

`SendAndPoll` writes a collection of messages to the siblings and meanwhile reads what
they send, in whatever order and portions it arrives.  The maps indexed by sibling
(`ServersMap`, C21) are functions of the sibling's id here; `Poll` reports exactly the
readable siblings (C26).
-/

namespace DPPIR.Protocol
open DPPIR Proc

variable {ι σ τ : Type}

/-- Programs that may poll. -/
abbrev PProg (ι α : Type) := PProc ι Obs α

/-- `for (i = from; …; i++)` with `n` rounds. -/
def ploop : Nat → Nat → (Nat → σ → PProg ι σ) → σ → PProg ι σ
  | 0, _, _, s => .done s
  | n + 1, i, f, s => (f i s).bind (ploop n (i + 1) f)

/-- `ServersMap(server_count_, server_count_ + 1, 0u)` (parallel_party_util.inc:16-17,
parallel_party_initialization.cc:29-33): one entry per server, this one included.  The
second argument is a `uint8_t`; a map for 0 servers cannot be allocated (C21). -/
def serverTable (servers : Nat) : Res (List Nat) :=
  if wrap8 (servers + 1) = 0 then .error .exception else .ok (List.replicate servers 0)

/-- The arguments of one `SendAndPoll` and the sockets it uses.  `unit` is the size of a
message, `counts` is `servers_read_count`. -/
structure Exchange (ι : Type) where
  me : Nat
  servers : Nat
  sib : Nat → ι
  unit : Nat
  counts : Nat → Nat

/-- The state of an exchange: the caller's state, `received_from_sibling_counts_`, the
write buffers, the bytes of an incomplete message in each read buffer, the siblings
ignored by `Poll`, and `read_count`. -/
structure XState (σ : Type) where
  st : σ
  received : List Nat
  wbuf : Nat → WBuf := fun _ => {}
  left : Nat → List Byte := fun _ => []
  ignored : Nat → Bool := fun _ => false
  readCount : Nat

/-- A send handler works on the state of the exchange; a read handler gets the source and
one message, and the caller's state with `received_from_sibling_counts_`. -/
structure Handlers (ι σ τ : Type) where
  send : τ → XState σ → Prog ι (XState σ)
  recv : Nat → List Byte → σ × List Nat → Res (σ × List Nat)

/-- `SendCipher`, `SendQuery`, `SendResponse` of `ParallelSocket`
(parallel_socket.cc:187-207), and one round of `BroadcastSecret`
(parallel_socket.cc:208-218). -/
def XState.sendTo (X : Exchange ι) (target : Nat) (bytes : List Byte) (x : XState σ) : Prog ι (XState σ) := do
  let w ← pushBuffered (X.sib target) X.unit (x.wbuf target) bytes
  return { x with wbuf := Function.update x.wbuf target w }

/-- The first `n` messages of `unit` bytes. -/
def chunks (unit : Nat) : Nat → List Byte → List (List Byte)
  | 0, _ => []
  | n + 1, l => l.take unit :: chunks unit n (l.drop unit)

/-- The loop over the messages in the read buffer (the read handlers, e.g.
parallel_party_shuffle.cc:72-82). -/
def deliver (h : Handlers ι σ τ) (source : Nat) : List (List Byte) → σ × List Nat → Res (σ × List Nat)
  | [], s => .ok s
  | m :: ms, s => do
    let s ← h.recv source m s
    deliver h source ms s

/-- Body of the loop over the sources that were polled
(parallel_party_util.inc:57-72 and 96-111), with the read handler: one `read` into the
buffer (sockets/common.h:31-37), the complete messages are handled, the rest is kept
(types/containers.h:84-96).  The flag is `found_data`. -/
def XState.readFrom (X : Exchange ι) (h : Handlers ι σ τ) (source : Nat) (st : Bool × XState σ) :
    PProg ι (Bool × XState σ) := do
  let (found, x) := st
  let got ← PProc.lift (rd x.received source)
  let remaining := wrap32 (X.counts source + 2 ^ 32 - got)
  if remaining > 0 then do
    let left := x.left source
    let cap := Sockets.bufferSize / X.unit * X.unit - left.length
    let count := wrap64 (remaining * X.unit + 2 ^ 64 - left.length)
    let c ← PProc.readCall (X.sib source) (if cap < count then cap else count)
    let bytes := left ++ c
    let n := bytes.length / X.unit
    let (s, received) ← PProc.lift (deliver h source (chunks X.unit n bytes) (x.st, x.received))
    let got ← PProc.lift (rd received source)
    return (true, { x with st := s, received := received
                           left := Function.update x.left source (bytes.drop (n * X.unit))
                           readCount := wrap32 (x.readCount + 2 ^ 32 - n)
                           ignored := if got = X.counts source then Function.update x.ignored source true else x.ignored })
  else return (found, x)

/-- The siblings `Poll` asks about (parallel_socket.cc:139-152). -/
def XState.polled (X : Exchange ι) (x : XState σ) : List Nat :=
  (List.range X.servers).filter (fun s => s ≠ X.me ∧ x.ignored s = false)

/-- One `Poll` and the loop over the sources (parallel_party_util.inc:54-73 and
92-112).  The loop of the code ends when all siblings that were reported have been
visited; there is nothing to do for the others. -/
def XState.pollRound (X : Exchange ι) (h : Handlers ι σ τ) (block : Bool) (x : XState σ) :
    PProg ι (Bool × XState σ) := do
  let ready ← PProc.pollCall ((x.polled X).map X.sib) block
  ploop X.servers 0 (fun source st =>
    if source ≠ X.me ∧ ready (X.sib source) = true then XState.readFrom X h source st else .done st) (false, x)

/-- The `do … while` loop (parallel_party_util.inc:51-74).  A round that finds data
reads at least one byte; more than `fuel` rounds mean that the loop does not end. -/
def XState.drain (X : Exchange ι) (h : Handlers ι σ τ) : Nat → XState σ → PProg ι (XState σ)
  | 0, _ => .fault .hang
  | fuel + 1, x => do
    let (found, x) ← x.pollRound X h false
    if found && decide (x.readCount > 0) then x.drain X h fuel else return x

/-- `for (…) send_handler(*(it++))` over the given messages
(parallel_party_util.inc:36-42). -/
def XState.sendMany (h : Handlers ι σ τ) : List τ → XState σ → Prog ι (XState σ)
  | [], x => .done x
  | t :: ts, x => do
    let x ← h.send t x
    XState.sendMany h ts x

/-- The outer loop (parallel_party_util.inc:34-75): send `poll_rate` messages, all that
remain if nothing is left to read, then poll. -/
def XState.sendLoop (X : Exchange ι) (h : Handlers ι σ τ) (pollRate : Nat) :
    Nat → List τ → XState σ → PProg ι (XState σ)
  | _, [], x => .done x
  | 0, _ :: _, _ => .fault .hang
  | fuel + 1, items, x => do
    let n := if x.readCount = 0 then items.length else pollRate
    let x ← PProc.ofProc (XState.sendMany h (items.take n) x)
    let x ← if x.readCount = 0 then pure x else x.drain X h (x.readCount * X.unit + 1)
    x.sendLoop X h pollRate fuel (items.drop n)

/-- `FlushCiphers()`, `FlushSecrets()`, `FlushQueries()`, `FlushResponses()`
(parallel_socket.cc:221-248). -/
def XState.flushAll (X : Exchange ι) (x : XState σ) : Prog ι Unit :=
  loop X.servers 0 (fun id _ => if id ≠ X.me then flush (X.sib id) (x.wbuf id) else .done ()) ()

/-- The final loop (parallel_party_util.inc:91-113); a blocking poll reports someone
(parallel_party_util.inc:93). -/
def XState.finish (X : Exchange ι) (h : Handlers ι σ τ) : Nat → XState σ → PProg ι (XState σ)
  | 0, x => if x.readCount > 0 then .fault .hang else .done x
  | fuel + 1, x =>
    if x.readCount > 0 then do
      let (_, x) ← x.pollRound X h true
      x.finish X h fuel
    else .done x

/-- `SendAndPoll` (parallel_party_util.inc:3-117); `items` is the collection,
`readCount` the argument `read_count`. -/
def sendAndPoll (X : Exchange ι) (h : Handlers ι σ τ) (items : List τ) (readCount : Nat) (s : σ) : PProg ι σ := do
  let received ← PProc.lift (serverTable X.servers)
  let x : XState σ := { st := s, received := received, readCount := readCount
                        ignored := fun id => decide (X.counts id = 0) }
  let x ← x.sendLoop X h (Sockets.bufferSize / X.unit) items.length items
  PProc.ofProc (x.flushAll X)
  let x ← x.finish X h (x.readCount * X.unit + 1)
  return x.st

/-! ## Counts and barriers -/

/-- `ParallelSocket::SendCount` (parallel_socket.cc:102-105). -/
def sibSendCount (dst : ι) (n : Nat) : Prog ι Unit := sendBytes dst (natLE 4 (BitVec.ofNat 32 n).toNat)

/-- `ParallelSocket::ReadCount` (parallel_socket.cc:113-118). -/
def sibReadCount (src : ι) : Prog ι Nat := do
  let l ← recvBytes src 4
  return (BitVec.ofNat 32 (natOfLE l)).toNat

/-- The loops `for (id …) if (id != server_id_) SendCount(id, n(id))`: `BroadcastCount`
(parallel_socket.cc:106-112), parallel_party_initialization.cc:151-155. -/
def sendCounts (me servers : Nat) (sib : Nat → ι) (n : Nat → Res Nat) : Prog ι Unit :=
  loop servers 0 (fun id _ => if id ≠ me then do
    let c ← lift (n id)
    sibSendCount (sib id) c
  else .done ()) ()

/-- The loops reading a count from every sibling, with `own` in the place of this
server (parallel_party_initialization.cc:114-121 and 159-168,
parallel_party_offline.cc:106-111, backend_offline.cc:31-36). -/
def readCounts (me servers : Nat) (sib : Nat → ι) (own : Nat) : Prog ι (List Nat) :=
  loop servers 0 (fun id l => if id ≠ me then do
    let c ← sibReadCount (sib id)
    return l ++ [c]
  else return l ++ [own]) []

/-- `BroadcastReady()` then `WaitForReady()` (parallel_socket.cc:119-136). -/
def barrier (me servers : Nat) (sib : Nat → ι) : Prog ι Unit := do
  loop servers 0 (fun id _ => if id ≠ me then sendBytes (sib id) [1] else .done ()) ()
  loop servers 0 (fun id _ => if id ≠ me then do
    let l ← recvBytes (sib id) 1
    lift (assert (l = [1]))
  else .done ()) ()

end DPPIR.Protocol
