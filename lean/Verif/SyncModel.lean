import Verif.Basic
/-
Time synchronisation messages: `run_timesync` (include/readout/models/ReadoutModel.hpp l.259-307) sends
the value of `m_last_processed_daq_ts` (TaskRawDataProcessorModel.hpp l.93-95, 162), which the consumer
thread sets while processing payloads (l.228-257 and the processors' timestamp stages) and which `stop`
resets after both threads ended (l.159-176). Fake triggers: MiscModel.
-/
namespace Verif.Sync

/-- Which part of a run. ReadoutModel.hpp l.135-176. -/
inductive Phase
  | idle | running | stopping
  deriving DecidableEq

/-- A message sent, with ghosts: the run, and how many payloads of the run had been processed when its
value was read. -/
structure Msg where
  run : Nat
  idx : Nat
  ts : Nat
  deriving DecidableEq

/-- ReadoutModel.hpp l.349-402, TaskRawDataProcessorModel.hpp l.162. -/
structure St where
  phase : Phase
  run : Nat                   -- ghost: number of starts
  last : Nat                  -- m_last_processed_daq_ts
  consumer : Bool             -- the consumer thread is in its loop
  sync : Bool                 -- the timesync thread is in its loop
  held : Option (Nat × Nat)   -- value read and not yet sent, with its ghost index
  log : Nat → List Nat        -- ghost: timestamps processed in each run
  sent : List Msg

/-- Before the first start. TaskRawDataProcessorModel.hpp l.162. -/
def St.init : St := ⟨.idle, 0, 0, false, false, none, fun _ => [], []⟩

/-- Steps. `tracks`: the processor has a timestamp stage (all but the TP processors,
src/wib/SWWIBTriggerPrimitiveProcessor.hpp l.42-44, RAWWIBTriggerPrimitiveProcessor.hpp l.42-47). -/
inductive Step (tracks : Bool) : St → St → Prop where
  /-- ReadoutModel.hpp l.135-157. -/
  | start (s : St) (h : s.phase = .idle) :
      Step tracks s { s with phase := .running, run := s.run + 1, consumer := true, sync := true }
  /-- l.242-243: a payload is processed. -/
  | process (s : St) (ts : Nat) (h : s.consumer = true) :
      Step tracks s { s with last := if tracks then ts else s.last,
                             log := fun r => if r = s.run then s.log r ++ [ts] else s.log r }
  /-- l.267: the value is read. -/
  | read (s : St) (h : s.sync = true) (hh : s.held = none) :
      Step tracks s { s with held := some (s.last, (s.log s.run).length) }
  /-- l.269-274: it is sent unless zero. -/
  | push (s : St) (v i : Nat) (h : s.sync = true) (hh : s.held = some (v, i)) :
      Step tracks s { s with held := none,
                             sent := if v ≠ 0 then s.sent ++ [⟨s.run, i, v⟩] else s.sent }
  /-- The run marker is cleared (plugins/DataLinkHandler.cpp do_stop) and `stop` begins. -/
  | stop (s : St) (h : s.phase = .running) : Step tracks s { s with phase := .stopping }
  /-- l.265, 305: the timesync thread leaves its loop. -/
  | syncEnd (s : St) (h : s.phase = .stopping) (hs : s.sync = true) (hh : s.held = none) :
      Step tracks s { s with sync := false }
  /-- l.236, 255: the consumer thread leaves its loop. -/
  | consEnd (s : St) (h : s.phase = .stopping) (hs : s.consumer = true) :
      Step tracks s { s with consumer := false }
  /-- l.163-175: `stop` saw both threads ended and resets the time. -/
  | finish (s : St) (h : s.phase = .stopping) (h1 : s.sync = false) (h2 : s.consumer = false) :
      Step tracks s { s with phase := .idle, last := 0 }

/-- Reachable states. ReadoutModel.hpp l.135-307. -/
inductive Reach (tracks : Bool) : St → Prop where
  | init : Reach tracks St.init
  | step (s s' : St) (h : Reach tracks s) (st : Step tracks s s') : Reach tracks s'

end Verif.Sync
