import Verif.RingSpec
/-
Timestamp lookup in the ring latency buffers:
include/readout/models/BinarySearchQueueModel.hpp l.33-68 and
include/readout/models/FixedRateQueueModel.hpp l.33-59.

`key` is `get_first_timestamp()`; `operator<` of the payload types compares it
(e.g. include/readout/ReadoutTypes.hpp, `operator<` of each struct).
-/
namespace Verif.Search
open Verif.Ring

/-- The `while (true)` loop, BinarySearchQueueModel.hpp l.52-67, bounded by `fuel` iterations;
`.ok none` means the loop has not finished within the bound. -/
def searchLoop {α : Type} (q : Ring α) (key : α → Nat) (t : Nat) :
    Nat → Nat → Nat → Outcome (Option Nat)
  | 0, _, _ => .ok none
  | fuel + 1, s, e => do
    let diff := if s ≤ e then e - s else q.size + e - s
    let m0 := s + ((diff + 1) / 2)
    let m := if m0 ≥ q.size then m0 - q.size else m0
    let x ← q.load m
    if diff = 0 then .ok (some m)
    else if t < key x then searchLoop q key t fuel s (if m ≠ 0 then m - 1 else q.size - 1)
    else searchLoop q key t fuel m e

/-- `BinarySearchQueueModel::lower_bound`, l.33-68; result is an iterator index. -/
def lowerBound {α : Type} (q : Ring α) (key : α → Nat) (t : Nat) (fuel : Nat) :
    Outcome (Option Nat) :=
  if q.rd = q.wr then .ok (some endIdx)
  else do
    let e := if q.wr = 0 then q.size - 1 else q.wr - 1
    let left ← q.load q.rd
    if t < key left then .ok (some endIdx)
    else searchLoop q key t fuel q.rd e

/-- Unsigned 64-bit wrap. Arithmetic of FixedRateQueueModel.hpp l.33-59. -/
def u64 (n : Nat) : Nat := n % 18446744073709551616

/-- Unsigned 32-bit wrap. Arithmetic of FixedRateQueueModel.hpp l.33-59. -/
def u32 (n : Nat) : Nat := n % 4294967296

/-- The loop of BinarySearchQueueModel.hpp l.52-67 once more, with the wrap-around of `unsigned int` (`searchLoop` computes
with natural numbers). -/
def searchLoop32 {α : Type} (q : Ring α) (key : α → Nat) (t : Nat) :
    Nat → Nat → Nat → Outcome (Option Nat)
  | 0, _, _ => .ok none
  | fuel + 1, s, e => do
    let diff := if s ≤ e then u32 (e + (4294967296 - s)) else u32 (u32 (q.size + e) + (4294967296 - s))
    let m0 := u32 (s + u32 (diff + 1) / 2)
    let m := if m0 ≥ q.size then m0 - q.size else m0
    let x ← q.load m
    if diff = 0 then .ok (some m)
    else if t < key x then searchLoop32 q key t fuel s (if m ≠ 0 then m - 1 else q.size - 1)
    else searchLoop32 q key t fuel m e

/-- `FixedRateQueueModel::lower_bound` with `with_errors = false`, l.38-58.
`tick` = `T::expected_tick_difference`, `nf` = `get_num_frames()` (constant per type).
`newest_ts` and `target_index` are computed in 64/32-bit unsigned arithmetic; the oldest slot
is read without an emptiness check (l.41). -/
def fixedLowerBound {α : Type} (q : Ring α) (key : α → Nat) (tick nf t : Nat) : Outcome Nat := do
  let left ← q.load q.rd
  let last := key left
  let newest := u64 (last + q.occupancy * tick * nf)
  if last > t ∨ t > newest then .ok endIdx
  else if tick = 0 then .ub .divByZero
  else
    let diff := (t - last) / tick
    if nf = 0 then .ub .divByZero
    else
      let off := u32 (diff / nf)
      let target := u32 (q.rd + off)
      .ok (if target ≥ q.size then target - q.size else target)

/-- `FixedRateQueueModel::lower_bound`, l.33-59, including the `with_errors` switch. -/
def fixedRateLowerBound {α : Type} (q : Ring α) (key : α → Nat) (tick nf t : Nat)
    (withErrors : Bool) (fuel : Nat) : Outcome (Option Nat) :=
  if withErrors then lowerBound q key t fuel
  else do
    let i ← fixedLowerBound q key tick nf t
    .ok (some i)

end Verif.Search
