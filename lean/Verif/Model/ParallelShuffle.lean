import Verif.Model.Shuffle

/-!
# The cross-server shuffle plan (`DPPIR/shuffle/parallel_shuffle.cc`)

`server_id_t` is `uint8_t` and server ids stay below the server count (at most
255); `index_t` is `uint32_t`.  The only 32-bit computation that can wrap is the
sum of the counts; it is reduced explicitly.
-/

namespace DPPIR.Shuffle

/-- `ParallelShuffler` (shuffle/parallel_shuffle.h); null pointers are empty
lists. -/
structure ParallelShuffler where
  seed : Int
  serverId : Nat
  serverCount : Nat
  sliceSize : Nat := 0
  forward : List Nat := []
  backward : List (List Nat) := []
  forwardIdx : Nat := 0
  backwardIdx : List Nat := []
  fromCount : List Nat := []
  prefixFrom : List Nat := []
  toCount : List Nat := []
  toNoiseCount : List Nat := []

/-- Constructor (shuffle/parallel_shuffle.cc:9-22). -/
def ParallelShuffler.new (serverId serverCount : Nat) (seed : Int) : ParallelShuffler :=
  { seed := seed, serverId := serverId, serverCount := serverCount }

/-- `count[i]++`. -/
def incr (l : List Nat) (i : Nat) : Res (List Nat) := do
  let v ← rd l i
  wr l i (wrap32 (v + 1))

/-- `if (b) count[i]++`. -/
def incrIf (b : Bool) (l : List Nat) (i : Nat) : Res (List Nat) :=
  if b then incr l i else .ok l

/-- Sum of the counts (shuffle/parallel_shuffle.cc:29-32). -/
def totalCount (n : Nat) (counts : List Nat) : Res Nat :=
  forRange 0 n (fun id tot => do
    let c ← rd counts id
    .ok (wrap32 (tot + c))) 0

/-- The initial map from positions to servers
(shuffle/parallel_shuffle.cc:63-73). -/
def blockMap (n total perServer : Nat) : Res (List Nat) :=
  forRange 0 n (fun sid map =>
    let start := sid * perServer
    let stop := if sid = n - 1 then total else start + perServer
    forRange start stop (fun i map => wr map i sid) map) (List.replicate total 0)

/-- The inner `while` (shuffle/parallel_shuffle.cc:84-87): advance to the server
whose segment contains `idx`.  Returns the new source and segment start. -/
def findSegment (counts : List Nat) (idx : Nat) (source start : Nat) : Res (Nat × Nat) :=
  if h : source < counts.length then
    if idx - start ≥ counts[source] then
      findSegment counts idx (source + 1) (start + counts[source])
    else .ok (source, start)
  else .error .ub
termination_by counts.length - source

/-- State of the counting loop (shuffle/parallel_shuffle.cc:81-101). -/
structure CountState where
  source : Nat
  start : Nat
  fromCount : List Nat
  toCount : List Nat
  toNoise : List Nat
  forward : List Nat

/-- Body of the counting loop (shuffle/parallel_shuffle.cc:83-101). -/
def countStep (counts : List Nat) (map : List Nat) (me noiseCount : Nat) (idx : Nat)
    (st : CountState) : Res CountState := do
  let (source, start) ← findSegment counts idx st.source st.start
  let target ← rd map idx
  let fromCount ← incrIf (target = me) st.fromCount source
  if source = me then do
    let toNoise ← incrIf (idx - start < noiseCount) st.toNoise target
    let toCount ← incr st.toCount target
    let forward ← wr st.forward (idx - start) target
    .ok { source := source, start := start, fromCount := fromCount, toCount := toCount,
          toNoise := toNoise, forward := forward }
  else
    .ok { st with source := source, start := start, fromCount := fromCount }

/-- `Initialize(server_counts, noise_count)` (shuffle/parallel_shuffle.cc:24-121). -/
def ParallelShuffler.initialize (rand : RandGen) (s : ParallelShuffler) (counts : List Nat)
    (noiseCount : Nat) : Res ParallelShuffler := do
  let n := s.serverCount
  let total ← totalCount n counts
  -- integer division by zero is undefined
  if n = 0 then .error .ub else do
  let perServer := total / n
  let slice := if s.serverId = n - 1 then total - (n - 1) * perServer else perServer
  let own ← rd counts s.serverId
  let map ← blockMap n total perServer
  let map ← shuffle (rand s.seed) map total
  let st ← forRange 0 total (countStep counts map s.serverId noiseCount)
    { source := 0, start := 0, fromCount := List.replicate n 0, toCount := List.replicate n 0,
      toNoise := List.replicate n 0, forward := List.replicate own 0 }
  -- allocate backward_map_[sid] with to_count_[sid] entries, reset to_count_
  let (backward, toCount) ← forRange 0 n (fun sid (p : List (List Nat) × List Nat) => do
    let count ← rd p.2 sid
    let b ← wr p.1 sid (List.replicate count 0)
    let t ← wr p.2 sid 0
    .ok (b, t)) (List.replicate n [], st.toCount)
  -- fill backward_map_
  let (backward, toCount) ← forRange 0 own (fun i (p : List (List Nat) × List Nat) => do
    let target ← rd st.forward i
    let row ← rd p.1 target
    let k ← rd p.2 target
    let row ← wr row k i
    let b ← wr p.1 target row
    let t ← incr p.2 target
    .ok (b, t)) (backward, toCount)
  -- prefix sums
  let pref ← forRange 0 (n - 1) (fun sid pref => do
    let a ← rd pref sid
    let b ← rd st.fromCount sid
    wr pref (sid + 1) (wrap32 (a + b))) (List.replicate n 0)
  .ok { s with sliceSize := slice, forward := st.forward, backward := backward, forwardIdx := 0,
               backwardIdx := List.replicate n 0, fromCount := st.fromCount, prefixFrom := pref,
               toCount := toCount, toNoiseCount := st.toNoise }

/-- `ShuffleOne()` (shuffle/parallel_shuffle.cc:124-126). -/
def ParallelShuffler.shuffleOne (s : ParallelShuffler) : Res (Nat × ParallelShuffler) := do
  let t ← rd s.forward s.forwardIdx
  .ok (t, { s with forwardIdx := wrap32 (s.forwardIdx + 1) })

/-- `DeshuffleOne(server)` (shuffle/parallel_shuffle.cc:127-129). -/
def ParallelShuffler.deshuffleOne (s : ParallelShuffler) (server : Nat) :
    Res (Nat × ParallelShuffler) := do
  let row ← rd s.backward server
  let k ← rd s.backwardIdx server
  let i ← rd row k
  let bi ← wr s.backwardIdx server (wrap32 (k + 1))
  .ok (i, { s with backwardIdx := bi })

/-- `CountToServer` (shuffle/parallel_shuffle.cc:132-134). -/
def ParallelShuffler.countTo (s : ParallelShuffler) (server : Nat) : Res Nat := rd s.toCount server
/-- `CountNoiseToServer` (shuffle/parallel_shuffle.cc:135-137). -/
def ParallelShuffler.countNoiseTo (s : ParallelShuffler) (server : Nat) : Res Nat :=
  rd s.toNoiseCount server
/-- `CountFromServer` (shuffle/parallel_shuffle.cc:140-142). -/
def ParallelShuffler.countFrom (s : ParallelShuffler) (server : Nat) : Res Nat :=
  rd s.fromCount server
/-- `PrefixSumCountFromServer` (shuffle/parallel_shuffle.cc:143-145). -/
def ParallelShuffler.prefixCountFrom (s : ParallelShuffler) (server : Nat) : Res Nat :=
  rd s.prefixFrom server

/-- The loop of `FindSourceOf` from `id` on (shuffle/parallel_shuffle.cc:147-152). -/
def findSourceLoop (pref : List Nat) (n idx id : Nat) : Res Nat :=
  if id < n then do
    let v ← rd pref id
    if v > idx then .ok (id - 1) else findSourceLoop pref n idx (id + 1)
  else .ok (n - 1)
termination_by n - id

/-- `FindSourceOf(idx)` (shuffle/parallel_shuffle.cc:146-152). -/
def ParallelShuffler.findSourceOf (s : ParallelShuffler) (idx : Nat) : Res Nat :=
  findSourceLoop s.prefixFrom s.serverCount idx 1

/-- `GetServerSliceSize()` (shuffle/parallel_shuffle.cc:172-174). -/
def ParallelShuffler.getServerSliceSize (s : ParallelShuffler) : Nat := s.sliceSize

/-- `FinishForward()` (shuffle/parallel_shuffle.cc:177). -/
def ParallelShuffler.finishForward (s : ParallelShuffler) : ParallelShuffler := { s with forward := [] }
/-- `FinishBackward()` (shuffle/parallel_shuffle.cc:178-181). -/
def ParallelShuffler.finishBackward (s : ParallelShuffler) : ParallelShuffler :=
  { s with backward := [], backwardIdx := [] }

end DPPIR.Shuffle
