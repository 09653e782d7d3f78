import Verif.Basic
/-
Storage management of `IterableQueueModel`
(include/readout/models/IterableQueueModel.hpp l.74-226, 436-461).
-/
namespace Verif.Alloc

/-- Allocation options of `LatencyBufferConf` / the constructor (l.124-128, 442-446).
`numa_node` is `uint8_t`; `Nat` here. -/
structure Opts where
  numaAware : Bool
  numaNode : Nat
  intrinsic : Bool
  align : Nat
  deriving DecidableEq, Repr

/-- Which routine produced a block.
The allocators called by `allocate_memory`, include/readout/models/IterableQueueModel.hpp l.188-226. -/
inductive Kind where
  | malloc | alignedAlloc | mm | numa
  deriving DecidableEq, Repr

/-- The pointer `records_` (l.514). -/
inductive Ptr where
  | live (k : Kind) (elems : Nat)
  | freed
  | null
  deriving DecidableEq, Repr

/-- Members involved in storage management (l.504-507, 513-514). -/
structure Buf where
  ptr : Ptr
  size : Nat
  opts : Opts
  deriving DecidableEq, Repr

/-- Default constructor, l.74-85: two elements from `malloc`. -/
def Buf.default : Buf := ⟨.live .malloc 2, 2, ⟨false, 0, false, 0⟩⟩

/-- Does the release branch selected by the current flags match the block?
l.177-185 (`lib` = built WITH_LIBNUMA_SUPPORT). `std::free` may release blocks of `malloc`
and `aligned_alloc` only. -/
def release (lib : Bool) (o : Opts) (p : Ptr) : Outcome Ptr :=
  if o.intrinsic then
    match p with
    | .live .mm _ => .ok .freed
    | .live _ _ => .ub .badFree
    | .freed => .ub .danglingBlock
    | .null => .ok .null
  else if o.numaAware then
    if lib then
      match p with
      | .live .numa _ => .ok .freed
      | .live _ _ => .ub .badFree
      | .freed => .ub .danglingBlock
      | .null => .ub .badFree
    else .ok p     -- l.180-182 compiled out: nothing is released (leak)
  else
    match p with
    | .live .malloc _ => .ok .freed
    | .live .alignedAlloc _ => .ok .freed
    | .live _ _ => .ub .badFree
    | .freed => .ub .danglingBlock
    | .null => .ok .null

/-- `free_memory()`, l.161-186 (element destruction l.166-175 is covered by the ring model). -/
def freeMemory (lib : Bool) (b : Buf) : Outcome Buf := do
  let p ← release lib b.opts b.ptr
  .ok { b with ptr := p }

/-- `allocate_memory(...)`, l.188-226. `oom` = the selected allocator returns null.
The last branch (l.216-219) leaves `records_` unchanged. -/
def allocateMemory (lib oom : Bool) (b : Buf) (n : Nat) (o : Opts) : Outcome Buf :=
  let fresh (k : Kind) : Ptr := if oom then .null else .live k n
  if o.intrinsic && decide (o.align > 0) then
    .ok ⟨fresh .mm, n, o⟩
  else if !o.intrinsic && decide (o.align > 0) then
    .ok ⟨fresh .alignedAlloc, n, o⟩
  else if o.numaAware && decide (o.numaNode < 8) then
    if lib then .ok ⟨fresh .numa, n, o⟩ else .throws .configError
  else if !o.numaAware && !o.intrinsic && decide (o.align = 0) then
    .ok ⟨fresh .malloc, n, o⟩
  else
    .ok ⟨b.ptr, n, o⟩

/-- State of the buffer object after a call that may throw.
For `conf`, include/readout/models/IterableQueueModel.hpp l.436-461. -/
inductive ConfResult where
  | returned (b : Buf)
  | threw (e : Exn) (b : Buf)
  | ub (w : UB)
  deriving DecidableEq, Repr

/-- `conf(...)`, l.436-461, storage part (preallocation l.454-460 is covered by the ring
model). A throw leaves the object in the intermediate state. -/
def conf (lib oom : Bool) (b : Buf) (n : Nat) (o : Opts) : ConfResult :=
  match freeMemory lib b with
  | .ub w => .ub w
  | .throws e => .threw e b
  | .ok b1 =>
    match allocateMemory lib oom b1 n o with
    | .ub w => .ub w
    | .throws e => .threw e b1
    | .ok b2 => if b2.ptr = .null then .threw .badAlloc b2 else .returned b2

/-- A sequence of `conf` calls that all return; stops at the first throw or UB.
Calls of `conf`, include/readout/models/IterableQueueModel.hpp l.436-461. -/
def confs (lib : Bool) (b : Buf) : List (Nat × Opts) → ConfResult
  | [] => .returned b
  | (n, o) :: rest =>
    match conf lib false b n o with
    | .returned b' => confs lib b' rest
    | r => r

end Verif.Alloc
