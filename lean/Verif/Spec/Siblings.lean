import Verif.Model.ParallelParty
import Verif.Spec.ParallelShuffle

/-!
# Vocabulary for the servers of one party

A group of servers that exchange messages with each other only; where messages are
supposed to go is said with the results of API calls on freshly initialised shufflers.
-/

namespace DPPIR.Spec
open DPPIR DPPIR.Protocol Shuffle Onion

/-- A network of the servers `0, …, S - 1`, each of which runs its own program from its
own state; server `s` has the name `s`. -/
def siblings {box : SealedBox} (S : Nat) (prog : Nat → ParallelParty box → PProg Nat (ParallelParty box))
    (p : Nat → ParallelParty box) : PNet Nat Obs (ParallelParty box) :=
  PNet.start (fun s => if s < S then prog s (p s) else .done (p s))

/-- What the servers of a party agree on: the generator of the C library, the shared
seed, and the number of messages of every server; and what is known to one of them:
its seed and how much noise it has. -/
structure Deal where
  gen : RandGen
  seed : Int
  counts : List Nat
  localSeed : Nat → Int
  noise : Nat → Nat

/-- Number of servers. -/
def Deal.servers (d : Deal) : Nat := d.counts.length

/-- Message number `a` of server `s` is the (0-based) `k`-th one of `s` that `s` has to
send to `t`, by the results of its `ShuffleOne()` calls. -/
def Deal.Goes (d : Deal) (s a t k : Nat) : Prop :=
  ∃ ps ts ps', IsPlan d.gen d.seed d.counts s (d.noise s) ps ∧ shuffleCalls (d.counts.getD s 0) ps = .ok (ts, ps') ∧
    IsKthOcc ts t k a

/-- The place that server `t` has for the `k`-th message from `s`: `Shuffle` of the
local shuffler of `PrefixSumCountFromServer(s) + k`. -/
def Deal.Slot (d : Deal) (t s k y : Nat) : Prop :=
  ∃ ps x ls, IsPlan d.gen d.seed d.counts t (d.noise t) ps ∧ ps.prefixCountFrom s = .ok x ∧
    (LocalShuffler.new (d.localSeed t)).initialize d.gen ps.getServerSliceSize = .ok ls ∧ ls.shuffle (x + k) = .ok y

/-- `out` is what server `t` must have after the shuffle when server `s` started with
`batch s`: as many messages as its slice; the `k`-th message from `s` at the place for
it; and every place is that of exactly one message of one server. -/
structure Deal.Shuffled {α : Type} (d : Deal) (batch : Nat → List α) (t : Nat) (out : List α) : Prop where
  length : ∀ ps, IsPlan d.gen d.seed d.counts t (d.noise t) ps → out.length = ps.getServerSliceSize
  placed : ∀ s a k m, s < d.servers → d.Goes s a t k → (batch s)[a]? = some m → ∃ y, d.Slot t s k y ∧ out[y]? = some m
  full : ∀ y, y < out.length → ∃! x : Nat × Nat, x.1 < d.servers ∧ ∃ k, d.Goes x.1 x.2 t k ∧ d.Slot t x.1 k y

/-- Server `s` is about to initialise its shufflers. -/
structure Deal.Ready {box : SealedBox} (d : Deal) (s : Nat) (p : ParallelParty box) : Prop where
  id : p.serverId = s
  count : p.serverCount = d.servers
  seed : p.pshuffler.seed = d.seed
  planId : p.pshuffler.serverId = s
  planCount : p.pshuffler.serverCount = d.servers
  localSeed : p.shuffler.seed = d.localSeed s
  counts : p.atSiblingCounts = d.counts
  noise : p.noiseCount = d.noise s
  slice : ∀ ps, IsPlan d.gen d.seed d.counts s (d.noise s) ps → p.shuffledCount = ps.getServerSliceSize

/-- The shufflers are initialised and the queries are shuffled. -/
def queryShuffle {box : SealedBox} (rand : ParallelRand box) (p : ParallelParty box) : PProg Nat (ParallelParty box) := do
  let p ← p.initializeShufflers rand (fun s => s)
  p.shuffleQueries (fun s => s)

/-- The shufflers are initialised and the ciphers are shuffled. -/
def cipherShuffle {box : SealedBox} (rand : ParallelRand box) (p : ParallelParty box) : PProg Nat (ParallelParty box) := do
  let p ← p.initializeShufflers rand (fun s => s)
  p.shuffleCiphers (fun s => s)

end DPPIR.Spec
