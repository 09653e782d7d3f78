import Verif.SkipListModel
import Verif.RingSpec
import Verif.RegistryModel
/-
`DefaultRequestHandlerModel::cleanup`, include/readout/models/DefaultRequestHandlerModel.hpp
l.415-438, on the ring latency buffers and on the sorted-list buffer.
-/
namespace Verif.Cleanup
open Verif.Ring Verif.Registry
variable {P : Type}

/-- `m_latency_buffer->front()->get_first_timestamp()` (l.425, 435). -/
def frontTs (ts : P → Nat) (q : Ring P) : Outcome Nat := do
  let a ← q.derefPtr q.front
  .ok (ts a)

/-- The pop loop, l.424-431: at most `toPop` iterations; returns the number popped. -/
def popLoop (ts : P → Nat) (next : Nat) : Nat → Ring P → Outcome (Ring P × Nat)
  | 0, q => .ok (q, 0)
  | n + 1, q => do
    let t ← frontTs ts q
    if t < next then do
      let q' ← q.pop 1
      let r ← popLoop ts next n q'
      .ok (r.1, r.2 + 1)
    else .ok (q, 0)

/-- What a cleanup changes: buffer, error registry, number of popped payloads.
Observed effects of include/readout/models/DefaultRequestHandlerModel.hpp l.415-438. -/
structure Result (P : Type) where
  q : Ring P
  reg : Reg
  popped : Nat

/-- `cleanup()`, l.415-438. `limit` = m_pop_limit_size, `toPop` = the value of
`m_pop_size_pct * occupancy()` converted to unsigned at l.421 (see `CleanupProps` for the
floating-point bound), `next` = m_next_timestamp_to_record. -/
def cleanup (ts : P → Nat) (limit toPop next : Nat) (q : Ring P) (reg : Reg) :
    Outcome (Result P) :=
  if q.occupancy > limit then do
    let r ← popLoop ts next toPop q
    let t ← frontTs ts r.1
    .ok ⟨r.1, removeErrorsUntil reg t, r.2⟩
  else .ok ⟨q, reg, 0⟩

/-- The same loop on the sorted-list buffer, whose `pop(1)` is `SkipList.pop`
(SkipListLatencyBufferModel.hpp l.164-172); used by the PACMAN handler. -/
def popLoopSkip (ts : P → Nat) (next : Nat) : Nat → List P → Outcome (List P × Nat)
  | 0, l => .ok (l, 0)
  | n + 1, l =>
    match SkipList.front l with
    | none => .ub .nullDeref
    | some a =>
      if ts a < next then do
        let r ← popLoopSkip ts next n (SkipList.pop l 1)
        .ok (r.1, r.2 + 1)
      else .ok (l, 0)

/-- `cleanup()` on the sorted-list buffer.
include/readout/models/DefaultRequestHandlerModel.hpp l.415-438 on SkipListLatencyBufferModel.hpp l.153-174. -/
def cleanupSkip (ts : P → Nat) (limit toPop next : Nat) (l : List P) (reg : Reg) :
    Outcome (List P × Reg × Nat) :=
  if SkipList.occupancy l > limit then do
    let r ← popLoopSkip ts next toPop l
    match SkipList.front r.1 with
    | none => .ub .nullDeref
    | some a => .ok (r.1, removeErrorsUntil reg (ts a), r.2)
  else .ok (l, reg, 0)

end Verif.Cleanup
