import Verif.Model.Process
import Verif.Model.Onion
import Verif.Model.Incremental
import Verif.Model.Additive
import Verif.Model.State
import Verif.Model.Sockets

/-!
# Message passing of the protocol (`DPPIR/sockets/*_socket.cc`) on processes

The calls of `ClientSocket` and `ServerSocket` as seen by a protocol: which bytes go
over the connection, and when.  Messages are collected in a write buffer, sent when
it is full and at a flush; what stays in the buffer is not sent.  The receive loops
deliver exactly the messages sent whatever the sizes of the single reads (C22), so
here a message is read byte by byte.
-/

namespace DPPIR.Protocol
open DPPIR

/-- Calls that are observed. -/
inductive Obs where
  | sendCount (n : BitVec 32)
  | recvCount (n : BitVec 32)
  | sendReady
  | recvReady
  | sendCipher (c : List Byte)
  | recvCipher (c : List Byte)
  | sendQuery (q : Query)
  | recvQuery (q : Query)
  | sendResponse (r : Response)
  | recvResponse (r : Response)
  /-- `Store` of an offline secret -/
  | store (s : OfflineSecret)
  /-- the backend's `Lookup(key)` -/
  | lookup (key : Nat)
  /-- the client chooses a key to query -/
  | want (key : Nat)
  /-- the client's reconstructed response -/
  | result (r : Response)

variable {ι α : Type}

/-- Programs of the protocol. -/
abbrev Prog (ι α : Type) := Proc ι Obs α

open Proc

/-- `SendCount` (client_socket.cc:20-22). -/
def sendCount (dst : ι) (n : Nat) : Prog ι Unit :=
  .obs (.sendCount (BitVec.ofNat 32 n)) (sendBytes dst (natLE 4 (BitVec.ofNat 32 n).toNat))

/-- `ReadCount` (server_socket.cc:19-23). -/
def readCount (src : ι) : Prog ι Nat := do
  let l ← recvBytes src 4
  let n : BitVec 32 := BitVec.ofNat 32 (natOfLE l)
  observe (.recvCount n)
  return n.toNat

/-- `SendReady` (server_socket.cc:24-27). -/
def sendReady (dst : ι) : Prog ι Unit := .obs .sendReady (sendBytes dst [1])

/-- `WaitForReady` (client_socket.cc:23-27). -/
def waitForReady (src : ι) : Prog ι Unit := do
  let l ← recvBytes src 1
  lift (assert (l = [1]))
  observe .recvReady

/-- A write buffer: the number of messages in it and their bytes.  Its memory and the
other members of `LogicalBuffer` are modelled in `Verif.Model.Containers`. -/
structure WBuf where
  held : Nat := 0
  pending : List Byte := []

/-- `PushBack` and the flush of a full buffer (client_socket.cc:30-41,
server_socket.cc:40-45), for messages of `unit` bytes: `BUFFER_SIZE / unit` fit. -/
def pushBuffered (dst : ι) (unit : Nat) (w : WBuf) (bytes : List Byte) : Prog ι WBuf :=
  if w.held < Sockets.bufferSize / unit then
    if w.held + 1 = Sockets.bufferSize / unit then do
      sendBytes dst (w.pending ++ bytes)
      return {}
    else return ⟨w.held + 1, w.pending ++ bytes⟩
  else .fault .ub

/-- `FlushCiphers`, `FlushQueries` (client_socket.cc:44-51), `FlushResponses`
(server_socket.cc:48-51). -/
def flush (dst : ι) (w : WBuf) : Prog ι Unit := sendBytes dst w.pending

/-- `SendCipher` (client_socket.cc:30-35): copies `size` bytes from the pointer. -/
def sendCipher (dst : ι) (size : Nat) (mem : List Byte) (w : WBuf) : Prog ι WBuf := do
  let c ← lift (slice mem 0 size)
  observe (.sendCipher c)
  pushBuffered dst size w c

/-- `SendQuery` (client_socket.cc:36-41). -/
def sendQuery (dst : ι) (q : Query) (w : WBuf) : Prog ι WBuf :=
  .obs (.sendQuery q) (pushBuffered dst querySize w q.encode)

/-- `SendResponse` (server_socket.cc:40-45). -/
def sendResponse (dst : ι) (r : Response) (w : WBuf) : Prog ι WBuf :=
  .obs (.sendResponse r) (pushBuffered dst responseSize w r.encode)

/-- One iteration over the buffer `ReadCiphers` returns (server_socket.cc:30-33). -/
def recvCipher (src : ι) (size : Nat) : Prog ι (List Byte) := do
  let l ← recvBytes src size
  observe (.recvCipher l)
  return l

/-- One iteration over the buffer `ReadQueries` returns (server_socket.cc:34-37). -/
def recvQuery (src : ι) : Prog ι Query := do
  let l ← recvBytes src querySize
  observe (.recvQuery (Query.decode l))
  return Query.decode l

/-- One iteration over the buffer `ReadResponses` returns (client_socket.cc:54-57). -/
def recvResponse (src : ι) : Prog ι Response := do
  let l ← recvBytes src responseSize
  observe (.recvResponse (Response.decode l))
  return Response.decode l

/-- The random choices behind one offline secret: the draws for the incremental
shares, for the preshares, the sealing randomness and the two uninitialised buffers
of the encryption. -/
structure SecretRand (box : Onion.SealedBox) where
  shares : Nat → Nat
  preshares : Nat → Preshare
  coins : Nat → box.Coins
  junk : Nat → Byte
  junk' : Nat → Byte

/-- `std::vector::at`. -/
def vecAt (l : List α) (i : Nat) : Res α :=
  match l[i]? with
  | some a => .ok a
  | none => .error .exception

/-- The loop building the secret of each remaining party, shared by
`Client::MakeSecret` (client_handlers.cc:31-39) and `Party::MakeNoiseSecret`
(party_handlers.cc:30-37, also used by `ParallelParty`): from index `i`, `n` to go;
`nextTag` is what `SampleTag(id)` returns.  Returns the secrets and the final value
of `tag`. -/
def buildSecrets (nextTag : BitVec 64) (incrementals : List Share) (preshares : List Preshare) :
    Nat → Nat → BitVec 64 → Res (List OfflineSecret × BitVec 64)
  | 0, _, tag => .ok ([], tag)
  | n + 1, i, tag => do
    let share ← vecAt incrementals i
    let preshare ← vecAt preshares i
    let (rest, last) ← buildSecrets nextTag incrementals preshares n (i + 1) nextTag
    .ok ({ tag := tag, nextTag := nextTag, share := share, preshare := preshare } :: rest, last)

end DPPIR.Protocol
