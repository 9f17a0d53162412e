import Verif.Model.Sockets

/-!
# Specification vocabulary for sockets
-/

namespace DPPIR.Spec
open DPPIR.Sockets

variable {β : Type} [Buffer β]

/-- What a user does with the writing side of a buffer. -/
inductive WriteOp where
  | send (v : List Byte)
  | flush

/-- The message a step hands over, if any. -/
def WriteOp.msgs : WriteOp → List Byte
  | .send v => v
  | .flush => []

/-- Writing side: buffer, physical memory, bytes on the wire. -/
abbrev WState (β : Type) := β × List Byte × List Byte

/-- One call; `choice` decides the partial sends inside it. -/
def writeStep (st : WState β) (op : WriteOp × (Nat → Nat)) : Res (WState β) :=
  match op.1 with
  | .send v => sendOne op.2 st.1 st.2.1 st.2.2 v
  | .flush => Sockets.flush op.2 st.1 st.2.1 st.2.2

/-- A sequence of calls. -/
def writeAll (st : WState β) (ops : List (WriteOp × (Nat → Nat))) : Res (WState β) := ops.foldlM writeStep st

/-- Calls on a client socket during its two sending phases. -/
def sendCiphers (s : ClientSocket) (choice : Nat → Nat → Nat) (wire : List Byte) (cs : List (List Byte)) :
    Res (ClientSocket × List Byte) :=
  (cs.zipIdx).foldlM (fun st c => st.1.sendCipher (choice c.2) st.2 c.1) (s, wire)

/-- See `sendCiphers`. -/
def sendQueries (s : ClientSocket) (choice : Nat → Nat → Nat) (wire : List Byte) (qs : List Query) :
    Res (ClientSocket × List Byte) :=
  (qs.zipIdx).foldlM (fun st q => st.1.sendQuery (choice q.2) st.2 q.1) (s, wire)

/-- See `sendCiphers`. -/
def sendResponses (s : ServerSocket) (choice : Nat → Nat → Nat) (wire : List Byte) (rs : List Response) :
    Res (ServerSocket × List Byte) :=
  (rs.zipIdx).foldlM (fun st r => st.1.sendResponse (choice r.2) st.2 r.1) (s, wire)

/-- The messages of one phase between siblings. -/
inductive Payload where
  | ciphers (l : List (List Byte))
  | secrets (l : List OfflineSecret)
  | queries (l : List Query)
  | responses (l : List Response)

/-- Number of messages. -/
def Payload.count : Payload → Nat
  | .ciphers l => l.length
  | .secrets l => l.length
  | .queries l => l.length
  | .responses l => l.length

/-- Size in bytes of one message. -/
def Payload.unit (cipherSize : Nat) : Payload → Nat
  | .ciphers _ => cipherSize
  | .secrets _ => secretSize
  | .queries _ => querySize
  | .responses _ => responseSize

/-- Ciphers have the agreed size; the number of messages fits `index_t`. -/
def Payload.Valid (cipherSize : Nat) (p : Payload) : Prop :=
  p.count < 2 ^ 32 ∧ ∀ l, p = .ciphers l → ∀ c ∈ l, c.length = cipherSize

/-- Sending one phase over the link and flushing; `choice i` decides the partial
sends of the `i`-th call. -/
def sendPayload (link : PeerLink) (choice : Nat → Nat → Nat) (wire : List Byte) : Payload → Res (PeerLink × List Byte)
  | .ciphers l => do
    let (b, m, w) ← sendPhase choice link.cipherW link.wmem wire l
    .ok ({ link with cipherW := b, wmem := m }, w)
  | .secrets l => do
    let (b, m, w) ← sendPhase choice link.secretW link.wmem wire (l.map OfflineSecret.encode)
    .ok ({ link with secretW := b, wmem := m }, w)
  | .queries l => do
    let (b, m, w) ← sendPhase choice link.queryW link.wmem wire (l.map Query.encode)
    .ok ({ link with queryW := b, wmem := m }, w)
  | .responses l => do
    let (b, m, w) ← sendPhase choice link.responseW link.wmem wire (l.map Response.encode)
    .ok ({ link with responseW := b, wmem := m }, w)

/-- Receiving one phase of the type and length of `expect` (its contents are not
used); fails unless all announced messages arrived within the schedule. -/
def recvPayload (link : PeerLink) (sched : List Nat) (stream : List Byte) (expect : Payload) :
    Res (PeerLink × Payload × List Byte) :=
  match expect with
  | .ciphers _ => do
    let r ← Receiver.rounds sched { remaining := expect.count, buf := link.cipherR, mem := link.rmem, stream := stream }
    if r.remaining = 0 then .ok ({ link with cipherR := r.buf, rmem := r.mem }, .ciphers r.delivered, r.stream)
    else .error .hang
  | .secrets _ => do
    let r ← Receiver.rounds sched { remaining := expect.count, buf := link.secretR, mem := link.rmem, stream := stream }
    if r.remaining = 0 then
      .ok ({ link with secretR := r.buf, rmem := r.mem }, .secrets (r.delivered.map OfflineSecret.decode), r.stream)
    else .error .hang
  | .queries _ => do
    let r ← Receiver.rounds sched { remaining := expect.count, buf := link.queryR, mem := link.rmem, stream := stream }
    if r.remaining = 0 then
      .ok ({ link with queryR := r.buf, rmem := r.mem }, .queries (r.delivered.map Query.decode), r.stream)
    else .error .hang
  | .responses _ => do
    let r ← Receiver.rounds sched { remaining := expect.count, buf := link.responseR, mem := link.rmem, stream := stream }
    if r.remaining = 0 then
      .ok ({ link with responseR := r.buf, rmem := r.mem }, .responses (r.delivered.map Response.decode), r.stream)
    else .error .hang

/-- One phase as both ends see it: the messages, the sender's partial sends and the
receiver's read sizes. -/
structure Phase where
  payload : Payload
  sends : Nat → Nat → Nat
  reads : List Nat

/-- Sending phase after phase. -/
def sendPhases : PeerLink → List Byte → List Phase → Res (PeerLink × List Byte)
  | link, wire, [] => .ok (link, wire)
  | link, wire, p :: ps => do
    let (link, wire) ← sendPayload link p.sends wire p.payload
    sendPhases link wire ps

/-- Receiving phase after phase. -/
def recvPhases : PeerLink → List Byte → List Phase → Res (PeerLink × List Payload × List Byte)
  | link, stream, [] => .ok (link, [], stream)
  | link, stream, p :: ps => do
    let (link, got, stream) ← recvPayload link p.reads stream p.payload
    let (link, more, stream) ← recvPhases link stream ps
    .ok (link, got :: more, stream)

end DPPIR.Spec
