import Verif.Model.Containers

/-!
# Sockets (`DPPIR/sockets/common.{h,cc}`, `client_socket.cc`, `server_socket.cc`)

One direction of a TCP connection is a byte list.  On the reading side it is what
the peer will ever send and has not been read yet; an empty list is end of file
(the peer closed), where `read` returns 0.  How much one `read` or `send`
transfers is decided by a free choice, so that all fragmentations are covered.
-/

namespace DPPIR.Sockets
open DPPIR

/-- `BUFFER_SIZE` (sockets/consts.h:5). -/
abbrev bufferSize : Nat := 140000

/-- How many bytes a `read(fd, buf, n)` returns when `avail` bytes are still to
come: 0 if there is nothing to deliver or nothing was asked for, otherwise at
least 1 and at most `min n avail`; every such number is reached by some
`choice`. -/
def kernelCount (choice n avail : Nat) : Nat :=
  if n = 0 ∨ avail = 0 then 0 else 1 + choice % min n avail

/-- `ReadSome(fd, buf, buf_size)` (sockets/common.cc:127-131).  `read` errors stop
the program and are not modelled (they yield nothing). Returns the number of bytes
read, the memory and the unread stream. -/
def readSome (choice : Nat) (stream mem : List Byte) (off n : Nat) :
    Res (Nat × List Byte × List Byte) :=
  if off + n ≤ mem.length then do
    let k := kernelCount choice n stream.length
    let mem ← blit mem off (stream.take k)
    .ok (k, mem, stream.drop k)
  else .error .ub

/-- `Read(fd, buf, buf_size)`, exact (sockets/common.cc:118-125): loop with at most
`fuel` iterations (running out means the loop is still spinning). -/
def readExact (choice : Nat → Nat) : Nat → List Byte → Nat → List Byte → Res (List Byte × List Byte)
  | _, stream, 0, got => .ok (got, stream)
  | 0, _, _ + 1, _ => .error .hang
  | fuel + 1, stream, n + 1, got =>
    let k := kernelCount (choice fuel) (n + 1) stream.length
    readExact choice fuel (stream.drop k) (n + 1 - k) (got ++ stream.take k)

variable {β : Type} [Buffer β]

/-- `Read(fd, read_count, buf)` (sockets/common.h:31-37). -/
def read (choice readCount : Nat) (stream mem : List Byte) (buf : β) :
    Res (β × List Byte × List Byte) := do
  let cap := Buffer.bufferCapacity buf
  let count := wrap64 (readCount * Buffer.unitSize buf + 2 ^ 64 - Buffer.leftover buf)
  let (b, mem, stream) ← readSome choice stream mem (Buffer.toBuffer buf) (if cap < count then cap else count)
  .ok (Buffer.update buf b, mem, stream)

/-- The loop of `Send(fd, buf, size)` (sockets/common.cc:133-140): `todo` are the
bytes not sent yet; every `send` transfers at least one byte. -/
def sendLoop (choice : Nat → Nat) : Nat → List Byte → List Byte → List Byte
  | 0, _, wire => wire
  | _ + 1, [], wire => wire
  | fuel + 1, todo, wire =>
    let k := kernelCount (choice fuel) todo.length todo.length
    sendLoop choice fuel (todo.drop k) (wire ++ todo.take k)

/-- `Send(fd, buf, size)` (sockets/common.cc:133-140); `size` iterations always
suffice. -/
def sendAll (choice : Nat → Nat) (bytes wire : List Byte) : List Byte :=
  sendLoop choice bytes.length bytes wire

/-- `Send(fd, buf)` followed by `Clear`: the `FlushX` functions
(sockets/common.h:43-46, client_socket.cc:44-51, server_socket.cc:48-51,
parallel_socket.cc:251-266). -/
def flush (choice : Nat → Nat) (buf : β) (mem wire : List Byte) : Res (β × List Byte × List Byte) := do
  let bytes ← slice mem (Buffer.toBuffer buf) (Buffer.bufferSize buf)
  let wire := sendAll choice bytes wire
  let (buf, mem) ← Buffer.clear buf mem
  .ok (buf, mem, wire)

/-- `SendX(v)` (client_socket.cc:30-41, server_socket.cc:40-45,
parallel_socket.cc:187-218). -/
def sendOne (choice : Nat → Nat) (buf : β) (mem wire : List Byte) (v : List Byte) :
    Res (β × List Byte × List Byte) := do
  let (buf, mem) ← Buffer.pushBack buf mem v
  if Buffer.full buf then flush choice buf mem wire
  else .ok (buf, mem, wire)

/-- State of a receive loop: messages still expected, messages delivered so far. -/
structure Receiver (β : Type) where
  remaining : Nat
  delivered : List (List Byte) := []
  buf : β
  mem : List Byte
  stream : List Byte

/-- One round of a receive loop: read into the buffer, hand every complete message
to the caller, clear.  All receive loops of the program have this shape
(party_offline.cc:17-26, party_online.cc:17-30 and 55-71, backend_offline.cc:11-19,
backend_online.cc:13-26, client_online.cc:31-43, parallel_party/*.cc).  The loop
condition is `remaining > 0`; the counters are `index_t`. -/
def Receiver.round (choice : Nat) (r : Receiver β) : Res (Receiver β) :=
  if r.remaining = 0 then .ok r
  else do
    let (buf, mem, stream) ← read choice r.remaining r.stream r.mem r.buf
    let msgs ← Buffer.elements buf mem
    let (buf, mem) ← Buffer.clear buf mem
    .ok { remaining := wrap32 (r.remaining + 2 ^ 32 - msgs.length)
          delivered := r.delivered ++ msgs, buf := buf, mem := mem, stream := stream }

/-- Successive rounds of a receive loop, one per element of the schedule. -/
def Receiver.rounds : List Nat → Receiver β → Res (Receiver β)
  | [], r => .ok r
  | choice :: sched, r => do
    let r ← r.round choice
    r.rounds sched

/-! ## Poll -/

/-- `revents` of one `pollfd`: the `POLLIN` bit and whether any other bit
(`POLLERR`, `POLLHUP`, `POLLNVAL`) is set. -/
structure Revents where
  pollin : Bool
  other : Bool
  deriving DecidableEq

/-- The kernel counts an entry when `revents` is non-zero. -/
def Revents.signalled (r : Revents) : Bool := r.pollin || r.other

/-- The loop of `Poll` from index `id` on (sockets/common.cc:148-155): it stops when
`nfds` entries were found; running past the array is undefined behaviour. -/
def pollLoop (pollfds : List Revents) : Nat → Nat → Nat → List Bool → Res (List Bool)
  | _, _, 0, result => .ok result
  | 0, _, _ + 1, _ => .error .ub
  | fuel + 1, id, nfds + 1, result => do
    let r ← rd pollfds id
    if r.pollin then do
      let result ← wr result id true
      pollLoop pollfds fuel (id + 1) nfds result
    else pollLoop pollfds fuel (id + 1) (nfds + 1) result

/-- `Poll(pollfds, count, timeout, result)` (sockets/common.cc:143-157): `pollfds`
holds the `revents` the kernel filled in. -/
def poll (pollfds : List Revents) (result : List Bool) : Res (Nat × List Bool) := do
  let nfds := pollfds.countP Revents.signalled
  let result ← pollLoop pollfds (pollfds.length + 1) 0 nfds result
  .ok (nfds, result)

/-! ## Socket objects -/

/-- `ClientSocket` (sockets/client_socket.h:13-52): one physical buffer per direction
shared by its logical buffers. -/
structure ClientSocket where
  rmem : List Byte
  wmem : List Byte
  cipherW : CipherLogicalBuffer
  queryW : LogicalBuffer
  responseR : LogicalBuffer

/-- Constructor (client_socket.h:15-21); the physical buffers hold arbitrary bytes. -/
def ClientSocket.new (cipherSize : Nat) (rmem wmem : List Byte) : ClientSocket :=
  { rmem := rmem, wmem := wmem
    cipherW := CipherLogicalBuffer.new bufferSize cipherSize
    queryW := LogicalBuffer.new bufferSize querySize
    responseR := LogicalBuffer.new bufferSize responseSize }

/-- `ClientSocket::SendCipher` (client_socket.cc:30-35). -/
def ClientSocket.sendCipher (s : ClientSocket) (choice : Nat → Nat) (wire v : List Byte) :
    Res (ClientSocket × List Byte) := do
  let (b, m, w) ← sendOne choice s.cipherW s.wmem wire v
  .ok ({ s with cipherW := b, wmem := m }, w)

/-- `ClientSocket::FlushCiphers` (client_socket.cc:44-47). -/
def ClientSocket.flushCiphers (s : ClientSocket) (choice : Nat → Nat) (wire : List Byte) :
    Res (ClientSocket × List Byte) := do
  let (b, m, w) ← flush choice s.cipherW s.wmem wire
  .ok ({ s with cipherW := b, wmem := m }, w)

/-- `ClientSocket::SendQuery` (client_socket.cc:36-41). -/
def ClientSocket.sendQuery (s : ClientSocket) (choice : Nat → Nat) (wire : List Byte) (q : Query) :
    Res (ClientSocket × List Byte) := do
  let (b, m, w) ← sendOne choice s.queryW s.wmem wire q.encode
  .ok ({ s with queryW := b, wmem := m }, w)

/-- `ClientSocket::FlushQueries` (client_socket.cc:48-51). -/
def ClientSocket.flushQueries (s : ClientSocket) (choice : Nat → Nat) (wire : List Byte) :
    Res (ClientSocket × List Byte) := do
  let (b, m, w) ← flush choice s.queryW s.wmem wire
  .ok ({ s with queryW := b, wmem := m }, w)

/-- A receive loop around `ClientSocket::ReadResponses` (client_socket.cc:54-57,
client_online.cc:31-43, party_online.cc:55-71) running one round per element of
`sched`: what was delivered, how many responses are still awaited, the rest of the
stream. -/
def ClientSocket.recvResponses (s : ClientSocket) (sched : List Nat) (count : Nat) (stream : List Byte) :
    Res (ClientSocket × List Response × Nat × List Byte) := do
  let r ← Receiver.rounds sched { remaining := count, buf := s.responseR, mem := s.rmem, stream := stream }
  .ok ({ s with responseR := r.buf, rmem := r.mem }, r.delivered.map Response.decode, r.remaining, r.stream)

/-- `ServerSocket` (sockets/server_socket.h:11-49). -/
structure ServerSocket where
  rmem : List Byte
  wmem : List Byte
  cipherR : CipherLogicalBuffer
  queryR : LogicalBuffer
  responseW : LogicalBuffer

/-- Constructor (server_socket.h:13-19). -/
def ServerSocket.new (cipherSize : Nat) (rmem wmem : List Byte) : ServerSocket :=
  { rmem := rmem, wmem := wmem
    cipherR := CipherLogicalBuffer.new bufferSize cipherSize
    queryR := LogicalBuffer.new bufferSize querySize
    responseW := LogicalBuffer.new bufferSize responseSize }

/-- A receive loop around `ServerSocket::ReadCiphers` (server_socket.cc:30-33,
party_offline.cc:17-26, backend_offline.cc:11-19). -/
def ServerSocket.recvCiphers (s : ServerSocket) (sched : List Nat) (count : Nat) (stream : List Byte) :
    Res (ServerSocket × List (List Byte) × Nat × List Byte) := do
  let r ← Receiver.rounds sched { remaining := count, buf := s.cipherR, mem := s.rmem, stream := stream }
  .ok ({ s with cipherR := r.buf, rmem := r.mem }, r.delivered, r.remaining, r.stream)

/-- A receive loop around `ServerSocket::ReadQueries` (server_socket.cc:34-37,
party_online.cc:17-30, backend_online.cc:13-26). -/
def ServerSocket.recvQueries (s : ServerSocket) (sched : List Nat) (count : Nat) (stream : List Byte) :
    Res (ServerSocket × List Query × Nat × List Byte) := do
  let r ← Receiver.rounds sched { remaining := count, buf := s.queryR, mem := s.rmem, stream := stream }
  .ok ({ s with queryR := r.buf, rmem := r.mem }, r.delivered.map Query.decode, r.remaining, r.stream)

/-- `ServerSocket::SendResponse` (server_socket.cc:40-45). -/
def ServerSocket.sendResponse (s : ServerSocket) (choice : Nat → Nat) (wire : List Byte) (r : Response) :
    Res (ServerSocket × List Byte) := do
  let (b, m, w) ← sendOne choice s.responseW s.wmem wire r.encode
  .ok ({ s with responseW := b, wmem := m }, w)

/-- `ServerSocket::FlushResponses` (server_socket.cc:48-51). -/
def ServerSocket.flushResponses (s : ServerSocket) (choice : Nat → Nat) (wire : List Byte) :
    Res (ServerSocket × List Byte) := do
  let (b, m, w) ← flush choice s.responseW s.wmem wire
  .ok ({ s with responseW := b, wmem := m }, w)

/-- `SendCount` (client_socket.cc:20-22): the 4 bytes of an `index_t`. -/
def sendCount (choice : Nat → Nat) (count : BitVec 32) (wire : List Byte) : List Byte :=
  sendAll choice (natLE 4 count.toNat) wire

/-- `ReadCount` (server_socket.cc:19-23), with `fuel` reads. -/
def readCount (choice : Nat → Nat) (fuel : Nat) (stream : List Byte) : Res (BitVec 32 × List Byte) := do
  let (bytes, stream) ← readExact choice fuel stream 4 []
  .ok (BitVec.ofNat 32 (natOfLE bytes), stream)

/-- The buffers of a `ParallelSocket` for one sibling (sockets/parallel_socket.h:59-84,
parallel_socket.cc:31-48): all logical buffers of a direction share one physical
buffer. -/
structure PeerLink where
  rmem : List Byte
  wmem : List Byte
  cipherR : CipherLogicalBuffer
  cipherW : CipherLogicalBuffer
  secretR : LogicalBuffer
  secretW : LogicalBuffer
  queryR : LogicalBuffer
  queryW : LogicalBuffer
  responseR : LogicalBuffer
  responseW : LogicalBuffer

/-- The initialisation loop body (parallel_socket.cc:33-47). -/
def PeerLink.new (cipherSize : Nat) (rmem wmem : List Byte) : PeerLink :=
  { rmem := rmem, wmem := wmem
    cipherR := CipherLogicalBuffer.new bufferSize cipherSize
    cipherW := CipherLogicalBuffer.new bufferSize cipherSize
    secretR := LogicalBuffer.new bufferSize secretSize
    secretW := LogicalBuffer.new bufferSize secretSize
    queryR := LogicalBuffer.new bufferSize querySize
    queryW := LogicalBuffer.new bufferSize querySize
    responseR := LogicalBuffer.new bufferSize responseSize
    responseW := LogicalBuffer.new bufferSize responseSize }

/-- One phase of sending messages of one type to a sibling, then flushing
(parallel_socket.cc:187-218, 251-266). -/
def sendPhase (choice : Nat → Nat → Nat) (buf : β) (mem wire : List Byte) (vs : List (List Byte)) :
    Res (β × List Byte × List Byte) := do
  let (buf, mem, wire) ← (vs.zipIdx).foldlM
    (fun (st : β × List Byte × List Byte) v => sendOne (choice v.2) st.1 st.2.1 st.2.2 v.1) (buf, mem, wire)
  flush (choice vs.length) buf mem wire

end DPPIR.Sockets
