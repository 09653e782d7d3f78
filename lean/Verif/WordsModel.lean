import Verif.Basic
/-
The ring latency buffer with the widths of its members: `include/readout/models/IterableQueueModel.hpp`.
`size_`, `readIndex_`, `writeIndex_` and the iterators' `m_index` have 32 bits (l.380-382, 513, 516-518),
`occupancy()` computes with `int` (l.315-323), the configured size and the number of bytes asked from the
allocator have 64 bits (l.189-215, 438-446; schema/readout/readoutconfig.jsonnet l.40-41).

`Verif/RingModel.lean` has the same functions over unbounded numbers.

Simplified: one thread; the standard allocator (the others: `Verif/AllocModel.lean`), which gives what it was
asked for or null; `T`'s destructor is not trivial (l.166; otherwise nothing is to be destroyed).
-/
namespace Verif.Words

/-- `uint32_t` arithmetic, IterableQueueModel.hpp l.233, 348, 513-518. -/
def u32 (x : Nat) : Nat := x % 4294967296

/-- `std::size_t` arithmetic, IterableQueueModel.hpp l.212. -/
def u64 (x : Nat) : Nat := x % 18446744073709551616

/-- `static_cast<int>` of a `uint32_t`, IterableQueueModel.hpp l.317-320. -/
def toInt (x : Nat) : Int := if x < 2147483648 then x else (x : Int) - 4294967296

/-- The result of an operation on `int`s: overflow is undefined. IterableQueueModel.hpp l.317-320. -/
def int (x : Int) : Outcome Int :=
  if -2147483648 ≤ x ∧ x ≤ 2147483647 then .ok x else .ub .overflow

/-- `static_cast<std::size_t>` of an `int`, IterableQueueModel.hpp l.322. -/
def ofInt (x : Int) : Nat := (x % 18446744073709551616).toNat

/-- The buffer: `size_` (l.513), `records_` (l.514) as a block of `bytes` bytes, the indices (l.516-518),
`overflow_ctr` (l.501); `slots i`: the object that lives in slot `i`.
include/readout/models/IterableQueueModel.hpp -/
structure Buf (α : Type) where
  bytes : Nat
  size : Nat
  slots : Nat → Option α
  rd : Nat
  wr : Nat
  overflow : Nat

variable {α : Type}

/-- The default constructor, IterableQueueModel.hpp l.74-85 (`sz`: `sizeof(T)`). -/
def Buf.init (α : Type) (sz : Nat) : Buf α := ⟨sz * 2, 2, fun _ => none, 0, 0, 0⟩

/-- Slot `i` is inside the block. `records_[i]`, IterableQueueModel.hpp l.239, 263, 264, 280, 344. -/
def Buf.inside (sz : Nat) (q : Buf α) (i : Nat) : Bool := decide (sz * (i + 1) ≤ q.bytes)

/-- `x + 1; if (x == size_) x = 0;`, IterableQueueModel.hpp l.233-236, 259-262, 275-278, 299-302, 348-351. -/
def Buf.next (q : Buf α) (i : Nat) : Nat := if u32 (i + 1) = q.size then 0 else u32 (i + 1)

/-- `records_[i]` as an object, IterableQueueModel.hpp l.263, 344. -/
def Buf.load (sz : Nat) (q : Buf α) (i : Nat) : Outcome α :=
  if q.inside sz i then
    match q.slots i with
    | some a => .ok a
    | none => .ub .deadObject
  else .ub .outOfBounds

/-- `new (&records_[i]) T(...)`, IterableQueueModel.hpp l.239, 488. -/
def Buf.construct (sz : Nat) (q : Buf α) (i : Nat) (a : α) : Outcome (Buf α) :=
  if q.inside sz i then
    match q.slots i with
    | some _ => .ub .overwriteLive
    | none => .ok { q with slots := fun j => if j = i then some a else q.slots j }
  else .ub .outOfBounds

/-- `records_[i].~T()`, IterableQueueModel.hpp l.170, 264, 280. -/
def Buf.destroy (sz : Nat) (q : Buf α) (i : Nat) : Outcome (Buf α) :=
  if q.inside sz i then
    match q.slots i with
    | some _ => .ok { q with slots := fun j => if j = i then none else q.slots j }
    | none => .ub .deadObject
  else .ub .outOfBounds

/-- `write`, IterableQueueModel.hpp l.230-248 (and `write_`, l.470-497). -/
def Buf.write (sz : Nat) (q : Buf α) (a : α) : Outcome (Buf α × Bool) :=
  if q.next q.wr ≠ q.rd then do
    let q' ← q.construct sz q.wr a
    .ok ({ q' with wr := q.next q.wr }, true)
  else .ok ({ q with overflow := q.overflow + 1 }, false)

/-- `read`, IterableQueueModel.hpp l.251-267. -/
def Buf.read (sz : Nat) (q : Buf α) : Outcome (Buf α × Option α) :=
  if q.rd = q.wr then .ok (q, none)
  else do
    let a ← q.load sz q.rd
    let q' ← q.destroy sz q.rd
    .ok ({ q' with rd := q.next q.rd }, some a)

/-- `popFront`, IterableQueueModel.hpp l.270-282; `dbg`: built with assertions (l.273). -/
def Buf.popFront (dbg : Bool) (sz : Nat) (q : Buf α) : Outcome (Buf α) :=
  if dbg && q.rd == q.wr then .throws .assertion
  else do
    let q' ← q.destroy sz q.rd
    .ok { q' with rd := q.next q.rd }

/-- `pop`, IterableQueueModel.hpp l.285-290. -/
def Buf.pop (dbg : Bool) (sz : Nat) (q : Buf α) : Nat → Outcome (Buf α)
  | 0 => .ok q
  | x + 1 => do
    let q' ← q.popFront dbg sz
    q'.pop dbg sz x

/-- `occupancy`, IterableQueueModel.hpp l.315-323. -/
def Buf.occupancy (q : Buf α) : Outcome Nat := do
  let ret ← int (toInt q.wr - toInt q.rd)
  if ret < 0 then do
    let ret' ← int (ret + toInt q.size)
    .ok (ofInt ret')
  else .ok (ofInt ret)

/-- `flush`, IterableQueueModel.hpp l.463. -/
def Buf.flush (dbg : Bool) (sz : Nat) (q : Buf α) : Outcome (Buf α) := do
  let n ← q.occupancy
  q.pop dbg sz n

/-- `isEmpty`, IterableQueueModel.hpp l.292-295. -/
def Buf.isEmpty (q : Buf α) : Bool := q.rd == q.wr

/-- `isFull`, IterableQueueModel.hpp l.297-308. -/
def Buf.isFull (q : Buf α) : Bool := q.next q.wr == q.rd

/-- `capacity`, IterableQueueModel.hpp l.329: an unsigned subtraction. -/
def Buf.capacity (q : Buf α) : Nat := u32 (q.size + 4294967295)

/-- What `*front()` gives, `none`: a null pointer. IterableQueueModel.hpp l.397-404. -/
def Buf.front (sz : Nat) (q : Buf α) : Outcome (Option α) :=
  if q.rd = q.wr then .ok none
  else do
    let a ← q.load sz q.rd
    .ok (some a)

/-- What `*back()` gives, `none`: a null pointer. IterableQueueModel.hpp l.406-419. -/
def Buf.back (sz : Nat) (q : Buf α) : Outcome (Option α) :=
  if q.wr = q.rd then .ok none
  else do
    let a ← q.load sz (if q.wr = 0 then u32 (q.size + 4294967295) else q.wr - 1)
    .ok (some a)

/-- The index of `end()`, IterableQueueModel.hpp l.431-434. -/
def endIdx : Nat := 4294967295

/-- `Iterator::good`, IterableQueueModel.hpp l.370-378. -/
def Buf.good (q : Buf α) (i : Nat) : Bool :=
  (i != endIdx) &&
  ((decide (i ≥ q.rd) && decide (i < q.wr)) ||
   (decide (i ≥ q.rd) && decide (q.wr < q.rd)) ||
   (decide (q.wr < q.rd) && decide (i < q.rd) && decide (i < q.wr)))

/-- `Iterator::operator++`, IterableQueueModel.hpp l.346-358. -/
def Buf.inc (q : Buf α) (i : Nat) : Nat :=
  let i := if q.good i then q.next i else i
  if !q.good i then endIdx else i

/-- `for (it = begin(); it != end(); ++it)` with `*it`, IterableQueueModel.hpp l.344-395, from index `i`;
a loop of more than `fuel` rounds is taken to hang. -/
def Buf.visit (sz : Nat) (q : Buf α) : Nat → Nat → Outcome (List α)
  | 0, _ => .throws .hang
  | fuel + 1, i =>
    if i = endIdx then .ok []
    else do
      let a ← q.load sz i
      let l ← q.visit sz fuel (q.inc i)
      .ok (a :: l)

/-- The elements met from `begin()` (IterableQueueModel.hpp l.387-395). -/
def Buf.items (sz : Nat) (q : Buf α) : Outcome (List α) :=
  q.visit sz 4294967297 (if q.rd = q.wr then endIdx else q.rd)

/-- The loop of `free_memory`, IterableQueueModel.hpp l.166-175; the counter has 64 bits; a loop of more than
`fuel` rounds is taken to hang. -/
def Buf.freeLoop (sz : Nat) (q : Buf α) : Nat → Nat → Outcome (Buf α)
  | 0, _ => .throws .hang
  | fuel + 1, i =>
    if i = q.wr then .ok q
    else do
      let q' ← q.destroy sz i
      q'.freeLoop sz fuel (if i + 1 = q.size then 0 else i + 1)

/-- A `conf` command: `latency_buffer_size` and `latency_buffer_preallocation`
(schema/readout/readoutconfig.jsonnet l.40-41, 54-55), and what the allocator can give, in bytes. -/
structure Conf where
  n : Nat
  prealloc : Bool
  avail : Nat

/-- The preallocation loop, IterableQueueModel.hpp l.454-457. -/
def Buf.fill (sz : Nat) (d : α) : Nat → Buf α → Outcome (Buf α)
  | 0, q => .ok q
  | k + 1, q => do
    let r ← q.write sz d
    r.1.fill sz d k

/-- `conf`, IterableQueueModel.hpp l.436-461 with `free_memory` (l.161-186) and `allocate_memory` (l.188-226);
`d`: a default-constructed element. The assertions are those of l.194, 439. -/
def Buf.conf (dbg : Bool) (sz : Nat) (d : α) (c : Conf) (q : Buf α) : Outcome (Buf α) :=
  if dbg && decide (c.n < 2) then .throws .assertion
  else do
    let _ ← q.freeLoop sz 18446744073709551616 q.rd
    if u64 (sz * c.n) ≤ c.avail then
      let q1 : Buf α := ⟨u64 (sz * c.n), u32 c.n, fun _ => none, 0, 0, q.overflow⟩
      if c.prealloc then do
        let q2 ← q1.fill sz d q1.capacity
        q2.flush dbg sz
      else .ok q1
    else .throws .badAlloc

/-- Calls on the buffer. include/readout/models/IterableQueueModel.hpp l.230-434. -/
inductive Op (α : Type) where
  | write (a : α)
  | read
  | pop (x : Nat)
  | flush
  | occupancy
  | isEmpty
  | isFull
  | capacity
  | front
  | back
  | items

/-- Their results. include/readout/models/IterableQueueModel.hpp l.230-434. -/
inductive Res (α : Type) where
  | flag (b : Bool)
  | value (v : Option α)
  | num (n : Nat)
  | list (l : List α)
  | unit

/-- One call. include/readout/models/IterableQueueModel.hpp l.230-434. -/
def Buf.step (dbg : Bool) (sz : Nat) (q : Buf α) : Op α → Outcome (Buf α × Res α)
  | .write a => do let r ← q.write sz a; .ok (r.1, .flag r.2)
  | .read => do let r ← q.read sz; .ok (r.1, .value r.2)
  | .pop x => do let q' ← q.pop dbg sz x; .ok (q', .unit)
  | .flush => do let q' ← q.flush dbg sz; .ok (q', .unit)
  | .occupancy => do let n ← q.occupancy; .ok (q, .num n)
  | .isEmpty => .ok (q, .flag q.isEmpty)
  | .isFull => .ok (q, .flag q.isFull)
  | .capacity => .ok (q, .num q.capacity)
  | .front => do let v ← q.front sz; .ok (q, .value v)
  | .back => do let v ← q.back sz; .ok (q, .value v)
  | .items => do let l ← q.items sz; .ok (q, .list l)

/-- Calls in sequence. include/readout/models/IterableQueueModel.hpp l.230-434. -/
def Buf.run (dbg : Bool) (sz : Nat) (q : Buf α) : List (Op α) → Outcome (Buf α × List (Res α))
  | [] => .ok (q, [])
  | op :: ops => do
    let r ← q.step dbg sz op
    let s ← r.1.run dbg sz ops
    .ok (s.1, r.2 :: s.2)

/-- `conf` commands, each followed by calls: the results of the calls, by command.
include/readout/models/IterableQueueModel.hpp l.230-461. -/
def Buf.rounds (dbg : Bool) (sz : Nat) (d : α) (q : Buf α) : List (Conf × List (Op α)) → Outcome (List (List (Res α)))
  | [] => .ok []
  | (c, ops) :: rest => do
    let q1 ← q.conf dbg sz d c
    let r ← q1.run dbg sz ops
    let s ← r.1.rounds dbg sz d rest
    .ok (r.2 :: s)

end Verif.Words
