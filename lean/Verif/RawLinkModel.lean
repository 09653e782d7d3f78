import Verif.StitchModel
import Verif.RingModel
/-
Links for raw trigger primitives (src/CreateReadout.hpp l.132-143): payloads that own their frame through a pointer
(include/readout/ReadoutTypes.hpp l.431-472), the stitching processor over the whole life of the module, and the
beginning of a recording.

Simplifications: those of the module Stitch. A frame is an abstract value (the storage of its blocks: module TpEmu).
-/
namespace Verif.RawLink
open Verif.Stitch

/-- `RAW_WIB_TRIGGERPRIMITIVE_STRUCT`: the frame the pointer `rwtp` owns, `none` for a null pointer,
ReadoutTypes.hpp l.431-435. -/
abbrev Payload := Option Frame

/-- `get_first_timestamp`, ReadoutTypes.hpp l.442-445. -/
def getTs : Payload → Outcome Nat
  | some f => .ok f.ts
  | none => .ub .nullDeref

/-- `set_first_timestamp`, ReadoutTypes.hpp l.446-449. -/
def setTs (p : Payload) (t : Nat) : Outcome Payload :=
  match p with
  | some f => .ok (some { f with ts := t })
  | none => .ub .nullDeref

/-- A default constructed payload, ReadoutTypes.hpp l.435. -/
def fresh : Payload := none

/-- The recording thread of a `record` command with the given duration up to the lookup of its first pass,
include/readout/models/DefaultRequestHandlerModel.hpp l.194-209: the position is taken from the oldest payload, then
written into the search element `element_to_search` (l.201). The result is that element, if the loop is entered. -/
def recordBegin (q : Ring.Ring Payload) (duration : Nat) : Outcome (Option Payload) :=
  if duration = 0 then .ok none
  else do
    let next ← match q.front with
      | none => Outcome.ok 0
      | some i => do
        let p ← q.derefPtr (some i)
        getTs p
    let e ← setTs fresh next
    .ok (some e)

/-- Incrementing a 32-bit `int`. -/
def incInt (n k : Nat) : Outcome Nat := if n + k < 2147483648 then .ok (n + k) else .ub .overflow

/-- The processor: the members of `RAWWIBTriggerPrimitiveProcessor`, l.132-137 (`m_frames` besides those of the module
Stitch). `fed` is a ghost: the frames given to it, run by run. -/
structure St where
  s : Stitch.St
  frames : Nat
  fed : List (List Frame)

/-- RAWWIBTriggerPrimitiveProcessor.hpp l.132-137. -/
def init : St := ⟨Stitch.init, 0, []⟩

/-- `preprocess_item` on an arriving payload, RAWWIBTriggerPrimitiveProcessor.hpp l.61-120: `m_frames` and
`m_trigprims` are `int`. -/
def process (x : St) (p : Payload) : Outcome St :=
  match p with
  | none => .ub .nullDeref
  | some f => do
    let n ← incInt x.frames 1
    let s := tpStitch x.s f
    let _ ← incInt x.s.count (s.count - x.s.count)
    .ok { x with s := s, frames := n }

/-- A start command: the processor's `start` (TaskRawDataProcessorModel.hpp l.65-76) leaves all these members as they
are. -/
def start (x : St) : St := { x with fed := x.fed ++ [[]] }

/-- Ghost: the frame `f` has been given to the processor in the present run. TaskRawDataProcessorModel.hpp l.97. -/
def note (f : Frame) : List (List Frame) → List (List Frame)
  | [] => [[f]]
  | [r] => [r ++ [f]]
  | r :: rest => r :: note f rest

/-- The life of the module: runs and payloads. ReadoutModel.hpp l.135-176, 236-240; stop changes nothing
(TaskRawDataProcessorModel.hpp l.78-86). -/
inductive Reach : St → Prop where
  | init : Reach init
  | start (x : St) (h : Reach x) : Reach (start x)
  | payload (x x' : St) (f : Frame) (h : Reach x) (hr : x.fed ≠ [])
      (e : process { x with fed := note f x.fed } (some f) = .ok x') : Reach x'

end Verif.RawLink
