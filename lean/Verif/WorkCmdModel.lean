import Verif.Basic
/-
Commands of the emulator card and of the recorder module in any order: `FakeCardReader::do_conf`, `do_scrap`,
`do_start`, `do_stop` (plugins/FakeCardReader.cpp l.87-161) with `SourceEmulatorModel::conf`, `scrap`, `start`,
`stop` (include/readout/models/SourceEmulatorModel.hpp l.79-141; `TPEmulatorModel`, src/wib/TPEmulatorModel.hpp
l.79-128, is the same in this respect); `RecorderImpl::do_conf`, `do_start`, `do_stop`, `do_work`
(include/readout/models/RecorderModel.hpp l.64-112).

Simplified: one link of a card (the links are independent); the files can be read and opened (rejected
configurations: `Card*`, `RecMod*`); commands come one at a time. What a thread does to the data is in `Emu*`
and `RecMod*`.
-/
namespace Verif.WorkCmd

/-- Commands, and a packet taken from the queue of the recorder.
plugins/FakeCardReader.cpp l.42-45, plugins/DataRecorder.cpp l.32-34, RecorderModel.hpp l.100. -/
inductive Ev where
  | conf
  | scrap
  | start
  | stop
  | packet
  deriving DecidableEq, Repr

/-- A link of the card: `m_configured` / `m_is_configured`, whether `m_file_source` points to a buffer, whether
`run_produce` is running; it holds references to the file buffer and to the rate limiter.
SourceEmulatorModel.hpp l.160, 218, 245-253. -/
structure Card where
  configured : Bool
  source : Bool
  busy : Bool
  deriving DecidableEq, Repr

/-- One command. `conf`: nothing if configured, else the file buffer is replaced (SourceEmulatorModel.hpp l.81,
95). `scrap`: l.125. `start`: the rate limiter is replaced (l.131), then `run_produce` begins (l.133), unless it
is running, and uses the file buffer (l.160). `stop`: waits for it (l.136-141). -/
def cardStep (s : Card) : Ev → Outcome Card
  | .conf =>
    if s.configured then .ok s
    else if s.busy then .ub .danglingBlock
    else .ok { s with configured := true, source := true }
  | .scrap => .ok { s with configured := false }
  | .start =>
    if s.busy then .ub .danglingBlock
    else if s.source then .ok { s with busy := true }
    else .ub .nullDeref
  | .stop => .ok { s with busy := false }
  | .packet => .ok s

/-- The recorder: `m_buffered_writer.is_open()`, whether `do_work` is running,
`m_packets_processed_total`, and (ghost) packets given to the file and packets taken and not written.
RecorderModel.hpp l.115-128. -/
structure Recorder where
  isOpen : Bool
  busy : Bool
  total : Nat
  written : Nat
  lost : Nat
  deriving DecidableEq, Repr

/-- One command or packet. `conf` closes and opens the file (RecorderModel.hpp l.68-73; a data race with
`write` in the other thread); there is no `scrap`. `start`: l.77-82, the thread's task is set unless it has one.
`packet`: l.98-106, a failed write ends the task. `stop`: l.84-90. -/
def recStep (s : Recorder) : Ev → Outcome Recorder
  | .conf => if s.busy then .ub .danglingBlock else .ok { s with isOpen := true }
  | .scrap => .ok s
  | .start => .ok { s with total := 0, busy := true }
  | .stop => .ok { s with busy := false }
  | .packet =>
    if s.busy then
      if s.isOpen then .ok { s with total := s.total + 1, written := s.written + 1 }
      else .ok { s with total := s.total + 1, lost := s.lost + 1, busy := false }
    else .ok s

/-- A sequence of commands; it ends with the first that has undefined behaviour.
plugins/FakeCardReader.cpp l.87-161, plugins/DataRecorder.cpp l.89-105. -/
def run {σ : Type} (step : σ → Ev → Outcome σ) : σ → List Ev → Outcome σ
  | s, [] => .ok s
  | s, e :: es => do run step (← step s e) es

/-- After `init`, plugins/FakeCardReader.cpp l.37-40, SourceEmulatorModel.hpp l.49-62. -/
def Card.init : Card := ⟨false, false, false⟩

/-- After `init`, RecorderModel.hpp l.33-47. -/
def Recorder.init : Recorder := ⟨false, false, 0, 0, 0⟩

end Verif.WorkCmd
