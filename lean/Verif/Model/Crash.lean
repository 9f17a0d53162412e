import Verif.Model.Polling

/-!
# Networks in which processes crash

A process may stop at any moment: killed, out of memory, an `assert` after a failed
system call, the machine switched off.  What it has written and is still in transit
arrives up to any point, the rest is lost.  Its peers read no further byte: `Read`
(sockets/common.cc:118-125) and the receive loops spin when `read` returns 0 (C25), which
is no step here.  A peer that writes to the connection waits for room or crashes, too
(`SIGPIPE`, or the `MY_ASSERT` in sockets/common.cc:133-140).  That `poll` reports the
end of a connection is not modelled: the `read` that follows returns no bytes, so no
message is handled (`C55_end_of_stream`).  No file of /repo is modelled here.
-/

namespace DPPIR

namespace Net
variable {ι O : Type} [DecidableEq ι]

/-- A step of a process, a crash, or the loss of bytes sent by a process that has
stopped. -/
inductive CrashStep (cap : ι × ι → Nat) : Net ι O → Net ι O → Prop where
  | step {n m : Net ι O} (i : ι) (h : n.step cap i = some m) : CrashStep cap n m
  | crash {n : Net ι O} (i : ι) : CrashStep cap n { n with proc := Function.update n.proc i (.fault .exception) }
  | lose {n : Net ι O} (i j : ι) (down : n.Faulted i) (l : List Byte) (rest : l <+: n.chan (i, j)) :
      CrashStep cap n { n with chan := Function.update n.chan (i, j) l }

/-- The networks that can be reached when any processes may crash at any time. -/
inductive CrashReach (cap : ι × ι → Nat) (n : Net ι O) : Net ι O → Prop where
  | refl : CrashReach cap n n
  | step {m m' : Net ι O} (h : CrashReach cap n m) (s : CrashStep cap m m') : CrashReach cap n m'

end Net

namespace PNet
variable {ι O α : Type} [DecidableEq ι]

/-- A step of a process, a crash, or the loss of bytes sent by a process that has
stopped. -/
inductive CrashStep (cap : ι × ι → Nat) : PNet ι O α → PNet ι O α → Prop where
  | step {n m : PNet ι O α} (i : ι) (h : Step cap i n m) : CrashStep cap n m
  | crash {n : PNet ι O α} (i : ι) : CrashStep cap n { n with proc := Function.update n.proc i (.fault .exception) }
  | lose {n : PNet ι O α} (i j : ι) (down : n.Faulted i) (l : List Byte) (rest : l <+: n.chan (i, j)) :
      CrashStep cap n { n with chan := Function.update n.chan (i, j) l }

/-- The networks that can be reached when any processes may crash at any time. -/
inductive CrashReach (cap : ι × ι → Nat) (n : PNet ι O α) : PNet ι O α → Prop where
  | refl : CrashReach cap n n
  | step {m m' : PNet ι O α} (h : CrashReach cap n m) (s : CrashStep cap m m') : CrashReach cap n m'

end PNet

end DPPIR
