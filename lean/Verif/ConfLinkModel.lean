import Verif.AllocModel
/-
Configuring the buffer of a link and writing to it: `ReadoutModel::conf`
(include/readout/models/ReadoutModel.hpp l.103-134), `IterableQueueModel::conf` and `write`
(include/readout/models/IterableQueueModel.hpp l.230-250, 436-461), `run_consume`
(ReadoutModel.hpp l.230-262).

Simplified: elements are counted, not stored (contents: the ring models); the
configurations of the raw processor and of the request handler are taken to return (they are modelled in
`Conf*`, `Consume*`, `Cleanup*`).
-/
namespace Verif.ConfLink

/-- The buffer part of a `conf` command, with the outcome of the allocator: `fails` says that the
allocator selected by the options returns null (not enough memory, or an alignment it does not support).
`LatencyBufferConf`, include/readout/models/IterableQueueModel.hpp l.438-447. -/
structure Cmd where
  size : Nat
  opts : Alloc.Opts
  prealloc : Bool
  fails : Bool
  deriving DecidableEq, Repr

/-- The link: storage (`records_`, `size_`, the flags), `readIndex_`, `writeIndex_`, the reports sent with
`ers::error`, the overflow counter. include/readout/models/IterableQueueModel.hpp l.499-520,
include/readout/models/ReadoutModel.hpp l.120-125. -/
structure Link where
  buf : Alloc.Buf
  r : Nat
  w : Nat
  reports : Nat
  lost : Nat
  deriving DecidableEq, Repr

/-- A link after `init`: default-constructed buffer, include/readout/models/ReadoutModel.hpp l.95. -/
def Link.init : Link := ⟨.default, 0, 0, 0, 0⟩

/-- How a command ends: it returns, or an exception leaves it, or it has undefined behaviour. -/
inductive Res where
  | returned (l : Link)
  | threw (e : Exn) (l : Link)
  | ub (w : UB)
  deriving DecidableEq, Repr

/-- `ReadoutModel::conf`, include/readout/models/ReadoutModel.hpp l.103-134: `std::bad_alloc` of the
buffer's `conf` is reported and swallowed (l.121-125), every other exception leaves the command. The indices
are reset between the allocation and the null test, include/readout/models/IterableQueueModel.hpp
l.448-453; pre-allocation fills the ring and flushes it (l.454-460), which leaves both indices on the last
slot. -/
def conf (lib : Bool) (l : Link) (c : Cmd) : Res :=
  match Alloc.conf lib c.fails l.buf c.size c.opts with
  | .returned b =>
    let i := if c.prealloc then c.size - 1 else 0
    .returned { l with buf := b, r := i, w := i }
  | .threw .badAlloc b => .returned { l with buf := b, r := 0, w := 0, reports := l.reports + 1 }
  | .threw e b => .threw e { l with buf := b }
  | .ub w => .ub w

/-- A sequence of `conf` commands; it ends at the first that does not return.
Calls of `conf`, include/readout/models/ReadoutModel.hpp l.103-134. -/
def confs (lib : Bool) (l : Link) : List Cmd → Res
  | [] => .returned l
  | c :: cs =>
    match conf lib l c with
    | .returned l' => confs lib l' cs
    | r => r

/-- The successor of an index in the ring.
include/readout/models/IterableQueueModel.hpp l.232-236. -/
def next (l : Link) (i : Nat) : Nat := if i + 1 = l.buf.size then 0 else i + 1

/-- Is `records_[i]` memory the link owns? Dereference in
include/readout/models/IterableQueueModel.hpp l.239. -/
def slot (l : Link) (i : Nat) : Outcome Unit :=
  match l.buf.ptr with
  | .live _ n => if i < n then .ok () else .ub .outOfBounds
  | .freed => .ub .danglingBlock
  | .null => .ub .nullDeref

/-- `write`, include/readout/models/IterableQueueModel.hpp l.230-250. -/
def write (l : Link) : Outcome Link :=
  if next l l.w ≠ l.r then do
    slot l l.w
    .ok { l with w := next l l.w }
  else .ok { l with lost := l.lost + 1 }

/-- `n` payloads arriving in a run, include/readout/models/ReadoutModel.hpp l.239-252. -/
def payloads : Nat → Link → Outcome Link
  | 0, l => .ok l
  | n + 1, l => do payloads n (← write l)

/-- `occupancy()`, include/readout/models/IterableQueueModel.hpp l.315-323. -/
def occupancy (l : Link) : Nat := if l.w < l.r then l.w + l.buf.size - l.r else l.w - l.r

end Verif.ConfLink
