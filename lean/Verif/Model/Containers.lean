import Verif.Model.Memory
import Verif.Model.Types

/-!
# Containers (`DPPIR/types/containers.h`)

Pointers into a buffer are byte offsets; physical memory is a list of bytes
passed in and out, because several logical buffers share one physical buffer.
-/

namespace DPPIR

/-! ## ServersMap -/

/-- `ServersMap<T>` (types/containers.h:15-55). -/
structure ServersMap (α : Type) where
  serverId : Nat
  data : List α

/-- Default constructor (types/containers.h:19-21).  `server_count - 1` is computed
in `int` and converted to `size_t`; for 0 the allocation throws.  `dflt` is the
value-initialised element. -/
def ServersMap.new {α : Type} (serverId serverCount : Nat) (dflt : α) : Res (ServersMap α) :=
  if serverCount = 0 then .error .exception
  else .ok { serverId := serverId, data := List.replicate (serverCount - 1) dflt }

/-- Fill constructor (types/containers.h:23-31). -/
def ServersMap.newFill {α : Type} (serverId serverCount : Nat) (dflt fill : α) : Res (ServersMap α) := do
  let m ← ServersMap.new serverId serverCount dflt
  let d ← forRange 0 serverId (fun i d => wr d i fill) m.data
  let d ← forRange (serverId + 1) serverCount (fun i d => wr d (i - 1) fill) d
  .ok { m with data := d }

/-- The index computation of `operator[]` (types/containers.h:34-39). -/
def ServersMap.index {α : Type} (m : ServersMap α) (id : Nat) : Res Nat :=
  if id = m.serverId then .error .assertFail
  else .ok (if id > m.serverId then id - 1 else id)

/-- Reading `m[id]` (types/containers.h:34-47). -/
def ServersMap.get {α : Type} (m : ServersMap α) (id : Nat) : Res α := do
  let i ← m.index id
  rd m.data i

/-- Writing `m[id] = v` (types/containers.h:34-40). -/
def ServersMap.set {α : Type} (m : ServersMap α) (id : Nat) (v : α) : Res (ServersMap α) := do
  let i ← m.index id
  let d ← wr m.data i v
  .ok { m with data := d }

/-! ## Logical buffers -/

/-- `memcpy` inside one buffer; overlapping source and destination are undefined
behaviour. -/
def memcpyWithin (mem : List Byte) (dst src len : Nat) : Res (List Byte) :=
  if len = 0 then .ok mem
  else if dst + len ≤ src ∨ src + len ≤ dst then do
    let bytes ← slice mem src len
    blit mem dst bytes
  else .error .ub

/-- What the templates of sockets/common.h need of a buffer.  `mem` is the physical
buffer the logical one refers to. -/
class Buffer (β : Type) where
  full : β → Bool
  unitSize : β → Nat
  leftover : β → Nat
  toBuffer : β → Nat
  bufferSize : β → Nat
  bufferCapacity : β → Nat
  update : β → Nat → β
  clear : β → List Byte → Res (β × List Byte)
  pushBack : β → List Byte → List Byte → Res (β × List Byte)
  /-- the range-based `for` loop over the buffer -/
  elements : β → List Byte → Res (List (List Byte))

/-- The elements `0..n-1` of `unit` bytes each. -/
def readUnits (mem : List Byte) (unit n : Nat) : Res (List (List Byte)) :=
  (List.range n).mapM (fun i => slice mem (i * unit) unit)

/-- `LogicalBuffer<T>` with `sizeof(T) = unit` (types/containers.h:63-118). -/
structure LogicalBuffer where
  unit : Nat
  capacity : Nat
  stop : Nat := 0
  leftover : Nat := 0

/-- Constructor (types/containers.h:69-74). -/
def LogicalBuffer.new (SZ unit : Nat) : LogicalBuffer := { unit := unit, capacity := SZ / unit }

/-- `LogicalBuffer<T>::Clear` (types/containers.h:84-91). -/
def LogicalBuffer.clear (b : LogicalBuffer) (mem : List Byte) : Res (LogicalBuffer × List Byte) :=
  if b.stop > 0 then do
    let mem ← memcpyWithin mem 0 (b.stop * b.unit) b.leftover
    .ok ({ b with stop := 0 }, mem)
  else .ok ({ b with stop := 0 }, mem)

/-- `LogicalBuffer<T>::Update` (types/containers.h:92-96). -/
def LogicalBuffer.update (b : LogicalBuffer) (bytes : Nat) : LogicalBuffer :=
  { b with leftover := (bytes + b.leftover) % b.unit, stop := wrap32 ((bytes + b.leftover) / b.unit) }

/-- `LogicalBuffer<T>::PushBack` (types/containers.h:111). -/
def LogicalBuffer.pushBack (b : LogicalBuffer) (mem v : List Byte) : Res (LogicalBuffer × List Byte) := do
  let v ← slice v 0 b.unit
  let mem ← blit mem (b.stop * b.unit) v
  .ok ({ b with stop := wrap32 (b.stop + 1) }, mem)

/-- Members of `LogicalBuffer<T>` (types/containers.h:76-111). -/
instance : Buffer LogicalBuffer where
  full b := b.stop = b.capacity
  unitSize b := b.unit
  leftover b := b.leftover
  toBuffer b := b.leftover
  bufferSize b := b.stop * b.unit
  bufferCapacity b := wrap64 (b.capacity * b.unit + 2 ^ 64 - b.leftover)
  update := LogicalBuffer.update
  clear := LogicalBuffer.clear
  pushBack := LogicalBuffer.pushBack
  elements b mem := readUnits mem b.unit b.stop

/-- `CipherLogicalBuffer` (types/containers.h:200-259): like `LogicalBuffer` with a
run-time unit, and `capacity`, `stop` in bytes. -/
structure CipherLogicalBuffer where
  cipherSize : Nat
  capacity : Nat
  stop : Nat := 0
  leftover : Nat := 0

/-- Constructor (types/containers.h:206-212). -/
def CipherLogicalBuffer.new (SZ cipherSize : Nat) : CipherLogicalBuffer :=
  { cipherSize := cipherSize, capacity := SZ - SZ % cipherSize }

/-- `CipherLogicalBuffer::Clear` (types/containers.h:225-230). -/
def CipherLogicalBuffer.clear (b : CipherLogicalBuffer) (mem : List Byte) :
    Res (CipherLogicalBuffer × List Byte) :=
  if b.stop > 0 then do
    let mem ← memcpyWithin mem 0 b.stop b.leftover
    .ok ({ b with stop := 0 }, mem)
  else .ok ({ b with stop := 0 }, mem)

/-- `CipherLogicalBuffer::Update` (types/containers.h:231-235). -/
def CipherLogicalBuffer.update (b : CipherLogicalBuffer) (bytes : Nat) : CipherLogicalBuffer :=
  { b with leftover := (bytes + b.leftover) % b.cipherSize
           stop := (bytes + b.leftover) - (bytes + b.leftover) % b.cipherSize }

/-- `CipherLogicalBuffer::PushBack` (types/containers.h:248-251). -/
def CipherLogicalBuffer.pushBack (b : CipherLogicalBuffer) (mem v : List Byte) :
    Res (CipherLogicalBuffer × List Byte) := do
  let v ← slice v 0 b.cipherSize
  let mem ← blit mem b.stop v
  .ok ({ b with stop := b.stop + b.cipherSize }, mem)

/-- Members of `CipherLogicalBuffer` (types/containers.h:214-251).  Iteration
advances a pointer by `ciphersize` until it *equals* the end pointer
(types/containers.h:161-197), which it never does unless the end is a multiple. -/
instance : Buffer CipherLogicalBuffer where
  full b := b.stop = b.capacity
  unitSize b := b.cipherSize
  leftover b := b.leftover
  toBuffer b := b.leftover
  bufferSize b := b.stop
  bufferCapacity b := wrap64 (b.capacity + 2 ^ 64 - b.leftover)
  update := CipherLogicalBuffer.update
  clear := CipherLogicalBuffer.clear
  pushBack := CipherLogicalBuffer.pushBack
  elements b mem :=
    if b.stop % b.cipherSize = 0 then readUnits mem b.cipherSize (b.stop / b.cipherSize)
    else .error .ub

/-! ## Batches -/

/-- `Batch<T>` (types/containers.h:121-158); `left_` is never used. -/
structure Batch (α : Type) where
  ptr : List α := []
  capacity : Nat := 0
  right : Nat := 0

/-- `Batch::Initialize` (types/containers.h:127-132). -/
def Batch.initialize {α : Type} (capacity : Nat) (dflt : α) : Batch α :=
  { ptr := List.replicate capacity dflt, capacity := capacity, right := 0 }

/-- `Batch::Free` (types/containers.h:133-138). -/
def Batch.free {α : Type} : Batch α := {}

/-- `batch[idx]` (types/containers.h:146). -/
def Batch.get {α : Type} (b : Batch α) (idx : Nat) : Res α := rd b.ptr idx
/-- `batch[idx] = v` (types/containers.h:146). -/
def Batch.set {α : Type} (b : Batch α) (idx : Nat) (v : α) : Res (Batch α) := do
  let p ← wr b.ptr idx v
  .ok { b with ptr := p }

/-- `Batch::PushBack` (types/containers.h:147). -/
def Batch.pushBack {α : Type} (b : Batch α) (v : α) : Res (Batch α) := do
  let p ← wr b.ptr b.right v
  .ok { b with ptr := p, right := wrap32 (b.right + 1) }

/-- Range-based `for` over a batch: all `capacity` elements
(types/containers.h:141-143). -/
def Batch.elements {α : Type} (b : Batch α) : Res (List α) := slice b.ptr 0 b.capacity

/-- `CipherBatch` (types/containers.h:275-352): pointers are offsets into `mem`. -/
structure CipherBatch where
  shortSize : Nat
  longSize : Nat
  mem : List Byte := []
  lastShort : Nat := 0
  firstLong : Nat := 0
  lastLong : Nat := 0
  stop : Nat := 0

/-- Constructor (types/containers.h:277-284). -/
def CipherBatch.new (shortSize longSize : Nat) : CipherBatch := { shortSize := shortSize, longSize := longSize }

/-- `CipherBatch::Initialize` (types/containers.h:287-295). -/
def CipherBatch.initialize (b : CipherBatch) (shortCount longCount : Nat) : CipherBatch :=
  let shortBytes := shortCount * b.shortSize
  let longBytes := longCount * b.longSize
  { b with mem := List.replicate (shortBytes + longBytes) 0
           lastShort := 0
           firstLong := shortBytes
           lastLong := shortBytes
           stop := shortBytes + longBytes }

/-- `CipherBatch::Free` (types/containers.h:296-302). -/
def CipherBatch.free (b : CipherBatch) : CipherBatch :=
  { b with mem := [], lastShort := 0, firstLong := 0, lastLong := 0, stop := 0 }

/-- `CipherBatch::FullLong` (types/containers.h:305). -/
def CipherBatch.fullLong (b : CipherBatch) : Bool := b.lastLong = b.stop
/-- `CipherBatch::HasLong` (types/containers.h:306-308). -/
def CipherBatch.hasLong (b : CipherBatch) : Bool := b.firstLong < b.lastLong

/-- `CipherBatch::PushShort` (types/containers.h:311-314); `v` is the memory
readable from the pointer, outside the batch. -/
def CipherBatch.pushShort (b : CipherBatch) (v : List Byte) : Res CipherBatch := do
  let v ← slice v 0 b.shortSize
  let mem ← blit b.mem b.lastShort v
  .ok { b with mem := mem, lastShort := b.lastShort + b.shortSize }

/-- `CipherBatch::PushLong` (types/containers.h:315-318). -/
def CipherBatch.pushLong (b : CipherBatch) (v : List Byte) : Res CipherBatch := do
  let v ← slice v 0 b.longSize
  let mem ← blit b.mem b.lastLong v
  .ok { b with mem := mem, lastLong := b.lastLong + b.longSize }

/-- `CipherBatch::PopLong` (types/containers.h:319-323): the memory readable from
the returned pointer up to the end of the allocation. -/
def CipherBatch.popLong (b : CipherBatch) : List Byte × CipherBatch :=
  (b.mem.drop b.firstLong, { b with firstLong := b.firstLong + b.longSize })

/-- `CipherBatch::GetShort` (types/containers.h:324-326): the memory readable from
the returned pointer up to the end of the allocation. -/
def CipherBatch.getShort (b : CipherBatch) (idx : Nat) : List Byte := b.mem.drop (idx * b.shortSize)

/-- `CipherBatch::SetShort` (types/containers.h:327-330). -/
def CipherBatch.setShort (b : CipherBatch) (idx : Nat) (v : List Byte) : Res CipherBatch := do
  let v ← slice v 0 b.shortSize
  let mem ← blit b.mem (idx * b.shortSize) v
  .ok { b with mem := mem }

/-- Range-based `for` over the batch (types/containers.h:333-342): from the start
to `last_short_ptr_`, or to `first_long_ptr_` when nothing was pushed with
`PushShort`. -/
def CipherBatch.elements (b : CipherBatch) : Res (List (List Byte)) :=
  let stop := if b.lastShort = 0 then b.firstLong else b.lastShort
  if b.shortSize ≠ 0 ∧ stop % b.shortSize = 0 then readUnits b.mem b.shortSize (stop / b.shortSize)
  else if stop = 0 then .ok []
  else .error .ub

end DPPIR
