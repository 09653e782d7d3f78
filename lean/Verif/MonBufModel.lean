import Verif.Basic
/-
The number of stored payloads in monitoring reports: `ReadoutModel::get_info`
(include/readout/models/ReadoutModel.hpp l.188) calls `IterableQueueModel::occupancy`
(include/readout/models/IterableQueueModel.hpp l.315-323) in a thread of its own, while the consumer writes
(l.230-248) and cleanups remove payloads (l.270-282). The comment at l.310-314 says that this is undefined.

Simplified: the payloads themselves are left out, only the two indices are kept; every step of the consumer and of
the cleanup is the store that publishes it; every load sees the latest value (with older values the same happens).
The sorted-list buffer has one counter instead of two indices (SkipListLatencyBufferModel.hpp l.81-89).
-/
namespace Verif.MonBuf

/-- Steps of the threads: a write by the consumer, a removal by the cleanup, and the two loads of `occupancy`.
IterableQueueModel.hpp l.240, 281, 317, 318. -/
inductive Ev where
  | write
  | pop
  | loadW
  | loadR
  deriving DecidableEq, Repr

/-- The indices, what the monitoring thread has loaded, and the reports it made.
IterableQueueModel.hpp l.516-518, ReadoutModel.hpp l.188. -/
structure St where
  rd : Nat
  wr : Nat
  loaded : Nat
  reports : List Int
  deriving DecidableEq, Repr

/-- The next index, IterableQueueModel.hpp l.233-236, 275-278. -/
def next (n i : Nat) : Nat := if i + 1 = n then 0 else i + 1

/-- The value of `occupancy` for the loaded indices, IterableQueueModel.hpp l.317-322. -/
def occupancy (n w r : Nat) : Int :=
  let ret : Int := w - r
  if ret < 0 then ret + n else ret

/-- One step. A write to a full buffer is refused (l.238-247); a cleanup does not remove from an empty buffer
(C22). -/
def step (n : Nat) (s : St) : Ev → St
  | .write => if next n s.wr ≠ s.rd then { s with wr := next n s.wr } else s
  | .pop => if s.rd ≠ s.wr then { s with rd := next n s.rd } else s
  | .loadW => { s with loaded := s.wr }
  | .loadR => { s with reports := s.reports ++ [occupancy n s.loaded s.rd] }

/-- Any number of steps, from the empty buffer. IterableQueueModel.hpp l.81-92. -/
def run (n : Nat) (es : List Ev) : St := es.foldl (step n) ⟨0, 0, 0, []⟩

end Verif.MonBuf
