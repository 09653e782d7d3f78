import Verif.SearchModel
import Verif.RegistryModel
/-
Timestamp check of the frame processors: `timestamp_check` of src/wib/WIBFrameProcessor.hpp
l.282-321 (superchunk step 300, frame step 25) and src/wib2/WIB2FrameProcessor.hpp l.58-98
(superchunk step 384, frame step 32); 12 frames per payload in both.
-/
namespace Verif.TsCheck
open Verif.Search Verif.Registry

/-- `m_previous_ts`, `m_ts_error_ctr`, `m_last_processed_daq_ts` (WIBFrameProcessor.hpp l.266-272;
TaskRawDataProcessorModel.hpp `m_last_processed_daq_ts`) and the shared error registry. -/
structure St where
  prev : Nat
  errors : Nat
  last : Nat
  reg : Reg

/-- Emulator mode, WIBFrameProcessor.hpp l.285-294 / WIB2FrameProcessor.hpp l.61-71: the
timestamps written into the frames (`n` frames left, `fstep` per frame). -/
def emuLoop (fstep : Nat) : Nat → Nat → List Nat
  | 0, _ => []
  | n + 1, tsNext => tsNext :: emuLoop fstep n (u64 (tsNext + fstep))

/-- All frame timestamps written in emulator mode. WIBFrameProcessor.hpp l.286-293. -/
def emuFrames (step fstep prev : Nat) : List Nat := emuLoop fstep 12 (u64 (prev + step))

/-- The check proper, WIBFrameProcessor.hpp l.297-320 / WIB2FrameProcessor.hpp l.74-97, for a payload
whose first timestamp is `cur` (64-bit unsigned subtraction; the log-only flags are left out). -/
def check (step : Nat) (s : St) (cur : Nat) : St :=
  let s1 :=
    if u64 (cur + 18446744073709551616 - s.prev) ≠ step then
      { s with errors := s.errors + 1,
               reg := addError s.reg "MISSING_FRAMES" ⟨u64 (s.prev + step), cur⟩ }
    else s
  { s1 with prev := cur, last := cur }

/-- A sequence of payloads (not in emulator mode). Repeated WIBFrameProcessor.hpp l.297-320. -/
def checkAll (step : Nat) (s : St) (ts : List Nat) : St := ts.foldl (check step) s

/-- One payload in emulator mode: the frames get fresh timestamps, then the check runs on the
first of them. Returns the frame timestamps. WIBFrameProcessor.hpp l.282-320. -/
def emuCheck (step fstep : Nat) (s : St) : St × List Nat :=
  let fs := emuFrames step fstep s.prev
  (check step s (fs.headD 0), fs)

/-- `k` payloads in emulator mode: final state and all frame timestamps in order.
Repeated WIBFrameProcessor.hpp l.282-320. -/
def emuRun (step fstep : Nat) : Nat → St → St × List Nat
  | 0, s => (s, [])
  | k + 1, s =>
    let r := emuCheck step fstep s
    let r' := emuRun step fstep k r.1
    (r'.1, r.2 ++ r'.2)

end Verif.TsCheck
