import Verif.Model.Grid
import Verif.Spec.Chain
import Verif.Spec.Broadcast

/-!
# Vocabulary for the online stage of the servers of one party

The servers between a predecessor each, which sends queries and reads the responses, and
a successor each, which reads queries and answers them in any way.
-/

namespace DPPIR.Spec
open DPPIR DPPIR.Protocol Proc Shuffle Onion Incremental Additive

variable {box : SealedBox}

/-- Sends its queries, then reads as many responses. -/
def predecessor (dst : Node) (qs : List Query) : PProg Node Unit := PProc.ofProc do
  let w ← each (sendQuery dst) qs {}
  flush dst w
  loop qs.length 0 (fun _ _ => do
    let _ ← recvResponse dst
    return ()) ()

/-- Reads `n` queries, then sends its answers. -/
def successor (src : Node) (n : Nat) (answer : List Query → List Response) : PProg Node Unit := PProc.ofProc do
  let qs ← loop n 0 (fun _ qs => do
    let q ← recvQuery src
    return qs ++ [q]) []
  let w ← each (sendResponse src) (answer qs) {}
  flush src w

/-- What happens at the servers of one party in the online stage: the numbers and seeds
of the shuffle; the queries each server gets and the noise queries it has made; and the
answers of each successor, which may depend on all the queries it got. -/
structure Online extends Deal where
  input : Nat → List Query
  noiseQueries : Nat → List Query
  answer : Nat → List Query → List Response

/-- Server `s` has the shufflers set up next, then starts the online stage: `noise s`
noise queries are in front of the batch, for every query from the predecessor it can load
a secret, the next tag in it is the tag. -/
structure Online.Ready (o : Online) (secret : Nat → BitVec 64 → PartySecret) (s : Nat) (p : ParallelParty box) : Prop
    extends o.toDeal.Ready s p where
  noiseCount : (o.noiseQueries s).length = o.noise s
  total : o.counts[s]? = some (o.noise s + (o.input s).length)
  input : p.inputCount = (o.input s).length
  tags : p.tags = Batch.initialize (o.input s).length 0
  queries : p.queries.capacity = o.noise s + (o.input s).length ∧ p.queries.ptr.length = p.queries.capacity ∧ p.queries.right = 0 ∧
    p.queries.ptr.take (o.noise s) = o.noiseQueries s
  secrets : ∀ q ∈ o.input s, CanLoad p.queriesState q.tag (secret s q.tag) ∧ (secret s q.tag).nextTag = q.tag

/-- The network: process `(0, s)` is the predecessor of server `s`, `(1, s)` is the
server, `(2, s)` its successor. -/
def Online.net (o : Online) (p : Nat → ParallelParty box) (rand : Nat → ParallelRand box) : PNet Node Obs Unit :=
  PNet.start (fun i =>
    if i.2 < o.servers then
      if i.1 = 0 then predecessor (1, i.2) (o.input i.2)
      else if i.1 = 1 then do
        let p ← (p i.2).initializeShufflers (rand i.2) (fun t => (1, t))
        let _ ← p.startOnline (0, i.2) (2, i.2) (fun t => (1, t))
        return ()
      else if i.1 = 2 then successor (1, i.2) (p i.2).shuffledCount (o.answer i.2)
      else .done ()
    else .done ())

/-- A query after the server has removed its share. -/
def passed (e : PartySecret) (q : Query) : Query := ⟨e.nextTag, incrementalReconstruct q.tally e.incremental⟩

/-- All queries of server `s` before the shuffle: noise, then the queries it got. -/
def Online.batch (o : Online) (secret : Nat → BitVec 64 → PartySecret) (s : Nat) : List Query :=
  o.noiseQueries s ++ (o.input s).map (fun q => passed (secret s q.tag) q)

/-- The `i`-th query server `s` got is the `y`-th one server `t` passes on. -/
def Online.At (o : Online) (s i t y : Nat) : Prop := ∃ k, o.Goes s (o.noise s + i) t k ∧ o.Slot t s k y

/-- Connections among the servers that hold all messages of an exchange; the others hold
at least a byte. -/
structure Online.Roomy (o : Online) (cap : Node × Node → Nat) : Prop where
  link : ∀ x, 0 < cap x
  count : ∀ s t, s < o.servers → t < o.servers → 4 ≤ cap ((1, s), (1, t))
  queries : ∀ s t, s < o.servers → t < o.servers → o.counts.getD s 0 * querySize ≤ cap ((1, s), (1, t))
  responses : ∀ s t, s < o.servers → t < o.servers → o.counts.sum * responseSize ≤ cap ((1, s), (1, t))

end DPPIR.Spec
