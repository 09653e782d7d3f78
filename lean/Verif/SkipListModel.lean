import Verif.Basic
/-
`include/readout/models/SkipListLatencyBufferModel.hpp` (sorted latency buffer over
`folly::ConcurrentSkipList`) and the photon-detector cleanup
`src/daphne/DAPHNEListRequestHandler.hpp` l.59-99.

The folly container is not modelled internally: it is represented by the list of its elements
in iteration order; `insert` places a new key at its sorted position and refuses an equivalent
key, `first`/`last` are the ends, `pop_back` removes the last element if there is one,
`remove` removes the element with an equal key. Keys are the timestamps (`operator<`).
-/
namespace Verif.SkipList

variable {α : Type}

/-- `ConcurrentSkipList::insert`: sorted insertion, refused on an equivalent key.
Called at SkipListLatencyBufferModel.hpp l.101. -/
def insert (key : α → Nat) (a : α) : List α → List α × Bool
  | [] => ([a], true)
  | b :: rest =>
    if key a < key b then (a :: b :: rest, true)
    else if key a = key b then (b :: rest, false)
    else
      let r := insert key a rest
      (b :: r.1, r.2)

/-- `write(T&&)`, SkipListLatencyBufferModel.hpp l.95-104. -/
def write (key : α → Nat) (l : List α) (a : α) : List α × Bool := insert key a l

/-- `read(T&)`, l.117-129: copies the first element; the element stays in the buffer. -/
def read (l : List α) : List α × Option α := (l, l.head?)

/-- `occupancy()`, l.81-89. -/
def occupancy (l : List α) : Nat := l.length

/-- `front()`, l.152-156 (`none` = null). -/
def front (l : List α) : Option α := l.head?

/-- `back()`, l.158-162. -/
def back (l : List α) : Option α := l.getLast?

/-- `pop(num)`, l.164-172: `pop_back` `num` times. -/
def pop (l : List α) : Nat → List α
  | 0 => l
  | n + 1 => pop l.dropLast n

/-- `flush()`, l.91. -/
def flush (l : List α) : List α := pop l (occupancy l)

/-- `lower_bound(element)`, l.145-150: first element whose key is not below the request;
`none` = an iterator that is not good. -/
def lowerBound (key : α → Nat) (l : List α) (t : Nat) : Option α :=
  l.find? (fun a => decide (¬ key a < t))

/-- The elements visited from `lower_bound(element)` onwards.
SkipListLatencyBufferModel.hpp l.146-151. -/
def fromLowerBound (key : α → Nat) (l : List α) (t : Nat) : List α :=
  l.dropWhile (fun a => decide (key a < t))

/-- The `while (timediff >= m_max_ts_diff)` loop, DAPHNEListRequestHandler.hpp l.80-91.
`tail` is the newest timestamp read before the loop (l.71). The argument list is the skip list;
each round removes the first element (`acc.remove`, l.81) and then dereferences the new head
(l.89; null if the list became empty). 64-bit
subtraction is exact because the list is sorted. -/
def daphneLoop (key : α → Nat) (maxDiff tail : Nat) : List α → Outcome (List α)
  | [] => .ub .nullDeref
  | _ :: [] => .ub .nullDeref
  | _ :: b :: rest =>
    if tail - key b ≥ maxDiff then daphneLoop key maxDiff tail (b :: rest)
    else .ok (b :: rest)

/-- `daphne_cleanup_request()`, DAPHNEListRequestHandler.hpp l.59-99. -/
def daphneCleanup (key : α → Nat) (maxDiff : Nat) (l : List α) : Outcome (List α) :=
  match l.getLast?, l.head? with
  | some tail, some head =>
    if key tail - key head > maxDiff then daphneLoop key maxDiff (key tail) l
    else .ok l
  | _, _ => .ok l

/-- `m_max_ts_diff`, DAPHNEListRequestHandler.hpp l.103. -/
def daphneMaxTsDiff : Nat := 10000000

/-- Calls on the sorted buffer. SkipListLatencyBufferModel.hpp l.91-174. -/
inductive Op (α : Type) where
  | write (a : α)
  | read
  | pop (n : Nat)
  | flush

/-- State after one call. SkipListLatencyBufferModel.hpp l.91-174. -/
def step (key : α → Nat) (l : List α) : Op α → List α
  | .write a => (write key l a).1
  | .read => (read l).1
  | .pop n => pop l n
  | .flush => flush l

/-- State after a call sequence. SkipListLatencyBufferModel.hpp l.91-174. -/
def run (key : α → Nat) (l : List α) : List (Op α) → List α
  | [] => l
  | op :: ops => run key (step key l op) ops

end Verif.SkipList
