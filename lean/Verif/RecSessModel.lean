import Verif.RecordModel
import Verif.FileModel
/-
Raw recordings of a link over any number of `record` commands and runs, down to the bytes of the file:
include/readout/models/DefaultRequestHandlerModel.hpp l.184-248 (command and recording thread), l.170-181 (stop
waits for the recording), l.415-438 (cleanup, module Record), include/readout/models/ReadoutModel.hpp l.159-176 (stop
empties the buffer), include/readout/utils/ReusableThread.hpp l.72-85, 102-117 (when a thread takes new
work), include/readout/utils/BufferedFileWriter.hpp (module File).

The recording loop with its granularity is that of the module Record. Recording was configured once (C74), so the
writer is open on an empty file (l.123-131). Waking up the recording thread is left out (C44).
-/
namespace Verif.RecSess
open Verif.Ring Verif.Record
open Verif.DataReq (PayloadType)

variable {P : Type}

/-- `std::numeric_limits<uint64_t>::max()`, DefaultRequestHandlerModel.hpp l.241, 659. -/
def noRecord : Nat := 18446744073709551615

/-- The recording thread. -/
inductive Th where
  | ready        -- no task
  | launched     -- ReusableThread.hpp l.78-81: task assigned
  | flagged      -- DefaultRequestHandlerModel.hpp l.197 done
  | running      -- l.200-239
  | ended        -- l.241 done
  | unflagged    -- l.244 done
  | executed     -- l.245 and ReusableThread.hpp l.109 done, l.110 not yet
  deriving DecidableEq

/-- What became of a `record` command. DefaultRequestHandlerModel.hpp l.187-194. -/
inductive Cmd where
  | started      -- the thread took the task
  | refused      -- error: a recording is still running (l.188)
  | dropped      -- `set_work` returned false, which nobody looks at (l.194)
  deriving DecidableEq

/-- Link, recording thread and file. DefaultRequestHandlerModel.hpp l.625-673. -/
structure St (P : Type) where
  r : Record.St P            -- buffer, recording position, cleanup
  th : Th
  flag : Bool                -- m_recording
  w : File.W                 -- m_buffered_writer
  run : Nat
  -- what happened:
  hist : Nat → List P        -- payloads accepted by the buffer, by run
  recs : List (Nat × List P) -- finished recordings: run, payloads handed to the writer
  cmds : List Cmd

/-- Payloads recorded by a step of the recording thread. DefaultRequestHandlerModel.hpp l.227. -/
def grown (r r' : Record.St P) : List P := r'.file.drop r.file.length

/-- The writer gets the payloads one by one, DefaultRequestHandlerModel.hpp l.227-230; a failure is only reported. -/
def writeAll (fc : File.Cfg) (bytes : P → List Nat) (w : File.W) (ps : List P) : File.W :=
  ps.foldl (fun w p => (File.write fc w (bytes p)).1) w

/-- `record`, DefaultRequestHandlerModel.hpp l.184-248, ReusableThread.hpp l.76-85. -/
def command (s : St P) : St P :=
  if s.flag then { s with cmds := s.cmds ++ [.refused] }
  else if s.th = .ready then { s with th := .launched, cmds := s.cmds ++ [.started] }
  else { s with cmds := s.cmds ++ [.dropped] }

/-- Entry of one run extended by accepted payloads. Counts what ReadoutModel.hpp l.240 stores. -/
def extend (h : Nat → List P) (n : Nat) (ps : List P) : Nat → List P := fun m => if m = n then h m ++ ps else h m

/-- The recording begins with the buffer holding `l`, DefaultRequestHandlerModel.hpp l.200-202. -/
def launch (s : St P) (l : List P) : St P := { s with th := .running, r := ⟨s.r.q, 0, .start, s.r.left, [], l⟩ }

/-- The loop is left, DefaultRequestHandlerModel.hpp l.202, 241. -/
def leave (s : St P) : St P :=
  { s with th := .ended, r := { s.r with next := noRecord, pc := .start } }

/-- The writer is flushed and the task ends, DefaultRequestHandlerModel.hpp l.245. -/
def finish (fc : File.Cfg) (s : St P) : St P :=
  { s with th := .executed, w := File.flush fc s.w, recs := s.recs ++ [(s.run, s.r.file)], r := { s.r with file := [] } }

/-- The end of `stop`: the buffer is emptied, ReadoutModel.hpp l.172-173; the next run will follow. -/
def emptied (s : St P) (q : Ring.Ring P) : St P :=
  { s with r := { s.r with q := q, all := [] }, run := s.run + 1 }

/-- A step of the recording thread in its loop with the writes it makes, DefaultRequestHandlerModel.hpp l.203-238. -/
def recorded (fc : File.Cfg) (bytes : P → List Nat) (s : St P) (r' : Record.St P) : St P :=
  { s with r := r', w := writeAll fc bytes s.w (grown s.r r') }

/-- An arrival or a step of the cleanup, DefaultRequestHandlerModel.hpp l.415-438, ReadoutModel.hpp l.240. -/
def other (s : St P) (r' : Record.St P) : St P :=
  { s with r := r', hist := extend s.hist s.run (r'.all.drop s.r.all.length) }

/-- Steps of run control, recording thread, consumer and cleanup. DefaultRequestHandlerModel.hpp l.170-248, 415-438. -/
inductive Step (T : PayloadType P) (limit : Nat) (toPop : Nat → Nat) (fc : File.Cfg) (bytes : P → List Nat) :
    St P → St P → Prop where
  | command (s : St P) : Step T limit toPop fc bytes s (command s)
  /-- DefaultRequestHandlerModel.hpp l.197 -/
  | flag (s : St P) (h : s.th = .launched) : Step T limit toPop fc bytes s { s with th := .flagged, flag := true }
  /-- l.200; `l` is what the buffer holds -/
  | launch (s : St P) (l : List P) (h : s.th = .flagged) (hl : Repr s.r.q l) :
      Step T limit toPop fc bytes s (launch s l)
  /-- l.203-238 -/
  | recorded (s : St P) (r' : Record.St P) (h : s.th = .running) (hp : s.r.pc = .search → s.r.left = 0)
      (he : recStep T s.r = .ok r') : Step T limit toPop fc bytes s (recorded fc bytes s r')
  /-- l.202, 241: the duration is over -/
  | leave (s : St P) (h : s.th = .running) (hp : s.r.pc = .start) : Step T limit toPop fc bytes s (leave s)
  /-- l.244 -/
  | unflag (s : St P) (h : s.th = .ended) : Step T limit toPop fc bytes s { s with th := .unflagged, flag := false }
  /-- l.245, ReusableThread.hpp l.109: the recording is finished -/
  | flush (s : St P) (h : s.th = .unflagged) :
      Step T limit toPop fc bytes s (finish fc s)
  /-- ReusableThread.hpp l.110 -/
  | done (s : St P) (h : s.th = .executed) : Step T limit toPop fc bytes s { s with th := .ready }
  /-- arrivals and cleanups at any time -/
  | other (s : St P) (r' : Record.St P) (st : Record.Step T limit toPop s.r r') (hp : r'.pc = s.r.pc) :
      Step T limit toPop fc bytes s (other s r')
  /-- DefaultRequestHandlerModel.hpp l.174-179, ReadoutModel.hpp l.173 -/
  | stop (s : St P) (q : Ring.Ring P) (h : s.th = .ready ∨ s.th = .executed) (hl : s.r.left = 0)
      (hq : s.r.q.flush = .ok q) : Step T limit toPop fc bytes s (emptied s q)

/-- Before anything was received: buffer of size `n`, file just opened. DefaultRequestHandlerModel.hpp l.57-79, 123-131. -/
def St.init (n : Nat) (fc : File.Cfg) : St P :=
  ⟨⟨Ring.Ring.init P n, noRecord, .start, 0, [], []⟩, .ready, false, File.openW fc [], 0, fun _ => [], [], []⟩

/-- Reachable states. DefaultRequestHandlerModel.hpp l.170-248, 415-438. -/
inductive Reach (T : PayloadType P) (limit : Nat) (toPop : Nat → Nat) (fc : File.Cfg) (bytes : P → List Nat) (n : Nat) :
    St P → Prop where
  | init : Reach T limit toPop fc bytes n (St.init n fc)
  | step (s s' : St P) (h : Reach T limit toPop fc bytes n s) (st : Step T limit toPop fc bytes s s') :
      Reach T limit toPop fc bytes n s'

end Verif.RecSess
