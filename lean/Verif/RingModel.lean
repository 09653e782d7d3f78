import Verif.Basic
/-
Model of `include/readout/models/IterableQueueModel.hpp` (the ring latency buffer),
single-threaded view. Concurrency is in `Verif/SpscModel.lean`, allocation in
`Verif/AllocModel.lean`.

Simplifications: `unsigned int` indices are `Nat` (all index values stay below `size`,
proved; with their 32 bits in `Verif/WordsModel.lean`, for sizes below `2^31`); element moves are copies; memory orders are irrelevant single-threaded.
-/
namespace Verif.Ring

/-- State of an `IterableQueueModel<T>`: `size_` (l.513), `records_` (l.514),
`readIndex_`/`writeIndex_` (l.516-518), `overflow_ctr` (l.501).
`slots i = some a` means slot `i` holds a live object `a`; `none` means raw storage. -/
structure Ring (α : Type u) where
  size : Nat
  slots : Nat → Option α
  rd : Nat
  wr : Nat
  overflow : Nat

/-- Freshly constructed buffer, IterableQueueModel.hpp l.92-120 (the `assert(size >= 2)`
of l.104 is a precondition of the theorems). -/
def Ring.init (α : Type u) (n : Nat) : Ring α :=
  { size := n, slots := fun _ => none, rd := 0, wr := 0, overflow := 0 }

/-- The idiom `x + 1; if (x == size_) x = 0;`, IterableQueueModel.hpp l.233-236, 259-262,
275-278, 299-302, 349-352. -/
def nextIdx (size i : Nat) : Nat := if i + 1 = size then 0 else i + 1

/-- Access `records_[i]` as a live object (l.263, 344). -/
def Ring.load {α : Type u} (q : Ring α) (i : Nat) : Outcome α :=
  if i < q.size then
    match q.slots i with
    | some a => .ok a
    | none => .ub .deadObject
  else .ub .outOfBounds

/-- `new (&records_[i]) T(...)` (l.239, 488). -/
def Ring.construct {α : Type u} (q : Ring α) (i : Nat) (a : α) : Outcome (Ring α) :=
  if i < q.size then
    match q.slots i with
    | some _ => .ub .overwriteLive
    | none => .ok { q with slots := fun j => if j = i then some a else q.slots j }
  else .ub .outOfBounds

/-- `records_[i].~T()` (l.264, 280). -/
def Ring.destroy {α : Type u} (q : Ring α) (i : Nat) : Outcome (Ring α) :=
  if i < q.size then
    match q.slots i with
    | some _ => .ok { q with slots := fun j => if j = i then none else q.slots j }
    | none => .ub .deadObject
  else .ub .outOfBounds

/-- `write(T&&)`, IterableQueueModel.hpp l.230-248 (identical to `write_`, l.470-497). -/
def Ring.write {α : Type u} (q : Ring α) (a : α) : Outcome (Ring α × Bool) :=
  let next := nextIdx q.size q.wr
  if next ≠ q.rd then do
    let q' ← q.construct q.wr a
    .ok ({ q' with wr := next }, true)
  else
    .ok ({ q with overflow := q.overflow + 1 }, false)

/-- `read(T&)`, IterableQueueModel.hpp l.251-267; `none` = returned false. -/
def Ring.read {α : Type u} (q : Ring α) : Outcome (Ring α × Option α) :=
  if q.rd = q.wr then .ok (q, none)
  else do
    let next := nextIdx q.size q.rd
    let a ← q.load q.rd
    let q' ← q.destroy q.rd
    .ok ({ q' with rd := next }, some a)

/-- `popFront()`, IterableQueueModel.hpp l.270-282, release build (the assertion of l.273 is
compiled out by NDEBUG; in a debug build the empty case aborts instead). -/
def Ring.popFront {α : Type u} (q : Ring α) : Outcome (Ring α) := do
  let next := nextIdx q.size q.rd
  let q' ← q.destroy q.rd
  .ok { q' with rd := next }

/-- `pop(x)`, IterableQueueModel.hpp l.285-290. -/
def Ring.pop {α : Type u} (q : Ring α) : Nat → Outcome (Ring α)
  | 0 => .ok q
  | x + 1 => do
    let q' ← q.popFront
    q'.pop x

/-- `isEmpty()`, IterableQueueModel.hpp l.292-295. -/
def Ring.isEmpty {α : Type u} (q : Ring α) : Bool := q.rd == q.wr

/-- `isFull()`, IterableQueueModel.hpp l.297-308. -/
def Ring.isFull {α : Type u} (q : Ring α) : Bool := !(nextIdx q.size q.wr != q.rd)

/-- The index arithmetic of `occupancy()`, IterableQueueModel.hpp l.317-322 (signed `int`
arithmetic; exact for `size_ < 2^31`, which is the stated precondition). -/
def occIdx (size rd wr : Nat) : Nat :=
  let ret : Int := (wr : Int) - (rd : Int)
  let ret : Int := if ret < 0 then ret + (size : Int) else ret
  ret.toNat

/-- `occupancy()`, IterableQueueModel.hpp l.315-323. -/
def Ring.occupancy {α : Type u} (q : Ring α) : Nat := occIdx q.size q.rd q.wr

/-- `capacity()`, IterableQueueModel.hpp l.329. -/
def Ring.capacity {α : Type u} (q : Ring α) : Nat := q.size - 1

/-- `front()`, IterableQueueModel.hpp l.397-404: slot index of the returned pointer,
`none` = null pointer. -/
def Ring.front {α : Type u} (q : Ring α) : Option Nat :=
  if q.rd = q.wr then none else some q.rd

/-- `back()`, IterableQueueModel.hpp l.406-419: slot index of the returned pointer. -/
def Ring.back {α : Type u} (q : Ring α) : Option Nat :=
  if q.wr = q.rd then none
  else some (if q.wr = 0 then q.size - 1 else q.wr - 1)

/-- `*ptr` for a pointer returned by `front()`/`back()`.
As at include/readout/models/DefaultRequestHandlerModel.hpp l.426. -/
def Ring.derefPtr {α : Type u} (q : Ring α) : Option Nat → Outcome α
  | none => .ub .nullDeref
  | some i => q.load i

/-- `flush()`, IterableQueueModel.hpp l.463. -/
def Ring.flush {α : Type u} (q : Ring α) : Outcome (Ring α) := q.pop q.occupancy

/-- The sentinel index of `end()`, `numeric_limits<uint32_t>::max()`,
IterableQueueModel.hpp l.431-434. -/
def endIdx : Nat := 4294967295

/-- `Iterator::good()`, IterableQueueModel.hpp l.370-378; an iterator is its `m_index`. -/
def Ring.good {α : Type u} (q : Ring α) (i : Nat) : Bool :=
  (i != endIdx) &&
  ((decide (i ≥ q.rd) && decide (i < q.wr)) ||
   (decide (i ≥ q.rd) && decide (q.wr < q.rd)) ||
   (decide (q.wr < q.rd) && decide (i < q.rd) && decide (i < q.wr)))

/-- `Iterator::operator++()`, IterableQueueModel.hpp l.346-358. -/
def Ring.inc {α : Type u} (q : Ring α) (i : Nat) : Nat :=
  let i := if q.good i then (if i + 1 = q.size then 0 else i + 1) else i
  if !q.good i then endIdx else i

/-- `Iterator::operator++(int amount)`, IterableQueueModel.hpp l.359-366 (state after). -/
def Ring.incBy {α : Type u} (q : Ring α) : Nat → Nat → Nat
  | 0, i => i
  | k + 1, i => q.incBy k (q.inc i)

/-- `begin()`, IterableQueueModel.hpp l.387-395. -/
def Ring.begin {α : Type u} (q : Ring α) : Nat :=
  if q.rd = q.wr then endIdx else q.rd

/-- Dereferencing an iterator, `operator*`, IterableQueueModel.hpp l.344. -/
def Ring.deref {α : Type u} (q : Ring α) (i : Nat) : Outcome α := q.load i

/-- A client loop `for (it = begin(); it != end(); ++it) use(*it)`, bounded by `fuel`
iterations; returns the visited elements and the final iterator.
Over include/readout/models/IterableQueueModel.hpp l.344-395. -/
def Ring.visit {α : Type u} (q : Ring α) : Nat → Nat → Outcome (List α × Nat)
  | 0, i => .ok ([], i)
  | fuel + 1, i =>
    if i = endIdx then .ok ([], i)
    else do
      let a ← q.deref i
      let r ← q.visit fuel (q.inc i)
      .ok (a :: r.1, r.2)

/-- Calls a client can make. include/readout/models/IterableQueueModel.hpp l.230-290. -/
inductive Op (α : Type u) where
  | write (a : α)
  | read
  | pop (x : Nat)
  | flush

/-- Values returned to the client. include/readout/models/IterableQueueModel.hpp l.230-290. -/
inductive Res (α : Type u) where
  | flag (b : Bool)
  | value (v : Option α)
  | unit

/-- One API call on the ring. include/readout/models/IterableQueueModel.hpp l.230-290. -/
def Ring.step {α : Type u} (q : Ring α) : Op α → Outcome (Ring α × Res α)
  | .write a => do let r ← q.write a; .ok (r.1, .flag r.2)
  | .read => do let r ← q.read; .ok (r.1, .value r.2)
  | .pop x => do let q' ← q.pop x; .ok (q', .unit)
  | .flush => do let q' ← q.flush; .ok (q', .unit)

/-- A sequence of API calls; results in order.
include/readout/models/IterableQueueModel.hpp l.230-290. -/
def Ring.run {α : Type u} (q : Ring α) : List (Op α) → Outcome (Ring α × List (Res α))
  | [] => .ok (q, [])
  | op :: ops => do
    let r ← q.step op
    let s ← r.1.run ops
    .ok (s.1, r.2 :: s.2)

end Verif.Ring
