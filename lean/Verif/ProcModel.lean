import Verif.TsCheckModel
/-
Timestamp stages of the photon-detector and PACMAN processors: `timestamp_check` of
src/daphne/DAPHNEFrameProcessor.hpp l.59-91 and of src/pacman/PACMANFrameProcessor.hpp l.57-86. (WIB and
WIB2: TsCheckModel. SSP: src/ssp/SSPFrameProcessor.hpp l.67-88 only stores the timestamp.)
-/
namespace Verif.Proc
open Verif.Search

/-- `m_previous_ts`, `m_ts_error_ctr`, `m_last_processed_daq_ts`. PACMANFrameProcessor.hpp l.47-52. -/
structure Pac where
  prev : Nat
  errors : Nat
  last : Nat
  deriving DecidableEq

/-- PACMANFrameProcessor.hpp l.57-86. The difference is of unsigned 64-bit type, so `<= 0` holds only for
zero. -/
def pacCheck (s : Pac) (cur : Nat) : Pac :=
  { prev := cur, last := cur,
    errors := if u64 (cur + 18446744073709551616 - s.prev) ≤ 0 then s.errors + 1 else s.errors }

/-- A sequence of messages from the initial state (l.47-52). -/
def pacRun (ts : List Nat) : Pac := ts.foldl pacCheck ⟨0, 0, 0⟩

/-- `m_previous_ts`, `m_first_ts_fake`, `m_last_processed_daq_ts`. DAPHNEFrameProcessor.hpp l.49-51. -/
structure Dap where
  prev : Nat
  first : Bool
  last : Nat
  deriving DecidableEq

/-- DAPHNEFrameProcessor.hpp l.59-91 in emulator mode: `fake_timestamps` writes the twelve frame
timestamps (include/readout/ReadoutTypes.hpp l.254-263), the first is read back (l.73). -/
def dapEmu (s : Dap) : Dap × List Nat :=
  let t0 := if s.first then s.prev else u64 (s.prev + 192)
  let fs := TsCheck.emuLoop 16 12 t0
  (⟨fs.headD 0, false, fs.headD 0⟩, fs)

/-- DAPHNEFrameProcessor.hpp l.59-91 otherwise: only the timestamps are kept. -/
def dapCheck (s : Dap) (cur : Nat) : Dap := ⟨cur, s.first, cur⟩

/-- `k` payloads in emulator mode. -/
def dapRun : Nat → Dap → Dap × List Nat
  | 0, s => (s, [])
  | k + 1, s =>
    let r := dapEmu s
    let r' := dapRun k r.1
    (r'.1, r.2 ++ r'.2)

end Verif.Proc
