import Verif.FileModel
import Verif.ThreadModel
/-
The recorder module over its whole life (plugins/DataRecorder.cpp l.31-102, include/readout/models/RecorderModel.hpp):
the commands conf, start and stop, the work loop on its `ReusableThread` (module Thread, every access a step), the file
writer (module File), whatever arrives in the queue, and reports at any time.

Commands come one after the other, start and conf between runs, start after a conf, stop during a run. Compression is
"None"; opening succeeds; no file exists at the beginning. Counters are natural numbers (the code has `std::atomic<int>`).
-/
namespace Verif.RecMod

/-- Where `do_work` is, RecorderModel.hpp l.93-112: about to set the time of the last report (l.95), at the loop
condition (l.98), waiting for a packet (l.100), with a packet popped, counted once (l.101), counted twice (l.102), about to flush (l.111), not
running or about to return. -/
inductive Job where
  | stamp
  | top
  | wait
  | got (b : List Nat)
  | counted (b : List Nat)
  | ready (b : List Nat)
  | flush
  | done
  deriving DecidableEq

/-- Where the command is, RecorderModel.hpp l.77-90: none, `do_start` after l.79, inside `set_work` (l.81), `do_stop`
polling (l.87-89). -/
inductive Cmd where
  | none
  | zeroed
  | calling
  | polling
  deriving DecidableEq

/-- Where `get_info` is, RecorderModel.hpp l.49-62: not called, total read (l.52), `v` packets reported as new (l.56),
counter set to zero (l.60). -/
inductive Rep where
  | none
  | began
  | told (v : Nat)
  | zeroed
  deriving DecidableEq

/-- The module (RecorderModel.hpp l.114-131) and the files. Ghosts: `inRun`, the last of start and stop was start; `sent`,
everything put into the queue by the producer; `confs`, for every conf the file name and how many packets had been
taken from the queue before; `base`, how many had been taken before the last start; `direct`, whether O_DIRECT was
ever asked for; `reports`, what was reported as new. -/
structure St where
  t : Thread.St
  marker : Bool
  job : Job
  queue : List (List Nat)
  w : File.W
  cfg : File.Cfg
  name : String
  disk : List (String × List Nat)
  total : Nat
  since : Nat
  cmd : Cmd
  rep : Rep
  inRun : Bool
  sent : List (List Nat)
  confs : List (String × Nat)
  base : Nat
  direct : Bool
  reports : List Nat

/-- After construction and init, RecorderModel.hpp l.34-47. -/
def St.init : St :=
  ⟨Thread.init, false, .done, [], File.closedW [], ⟨0, true, 1, false⟩, "", [], 0, 0, .none, .none, false, [], [], 0,
    false, []⟩

/-- Ghost: packets taken from the queue so far. RecorderModel.hpp l.100. -/
def St.taken (s : St) : Nat := s.sent.length - s.queue.length

/-- `do_conf`, RecorderModel.hpp l.64-75, with `open` (BufferedFileWriter.hpp l.99-141): the file is removed, the one
open before is closed, which puts the rest of its data into it unless it is the one that has just been removed. -/
def confCmd (s : St) (c : File.Cfg) (f : String) : St :=
  let disk1 := s.disk.filter (fun p => p.1 ≠ f)
  let disk2 := if s.w.isOpen = true ∧ s.name ≠ f then disk1 ++ [(s.name, (File.close s.cfg s.w).file)] else disk1
  { s with disk := disk2, w := File.openW c [], cfg := c, name := f, confs := s.confs ++ [(f, s.taken)],
           direct := s.direct || c.useDirect }

/-- The write of a popped packet, RecorderModel.hpp l.103-106: the loop ends when it fails. -/
def writeStep (s : St) (b : List Nat) : St :=
  let r := File.write s.cfg s.w b
  { s with w := r.1, job := if r.2 then .top else .flush }

/-- One step of any thread. `sp` allows spurious wake-ups. -/
inductive Step (sp : Bool) : St → St → Prop where
  /-- the producer, DefaultRequestHandlerModel.hpp or any other module: `push` -/
  | send (s : St) (b : List Nat) : Step sp s { s with queue := s.queue ++ [b], sent := s.sent ++ [b] }
  /-- RecorderModel.hpp l.64-75 -/
  | conf (s : St) (c : File.Cfg) (f : String) (h : s.cmd = .none) (hr : s.inRun = false) : Step sp s (confCmd s c f)
  /-- RecorderModel.hpp l.79 -/
  | start (s : St) (h : s.cmd = .none) (hr : s.inRun = false) (hc : s.confs ≠ []) :
      Step sp s { s with cmd := .zeroed, total := 0, inRun := true, base := s.taken }
  /-- RecorderModel.hpp l.80-81 -/
  | arm (s : St) (id : Nat) (t' : Thread.St) (h : s.cmd = .zeroed) (ht : Thread.Step sp s.t t') (hc : t'.c = .chk id)
      (hi : s.t.c = .idle) : Step sp s { s with cmd := .calling, marker := true, t := t' }
  /-- RecorderModel.hpp l.82: `set_work` has returned, its result is not looked at -/
  | started (s : St) (h : s.cmd = .calling) (hc : s.t.c = .idle) : Step sp s { s with cmd := .none }
  /-- RecorderModel.hpp l.86 -/
  | stop (s : St) (h : s.cmd = .none) (hr : s.inRun = true) :
      Step sp s { s with cmd := .polling, marker := false, inRun := false }
  /-- RecorderModel.hpp l.87-90 -/
  | stopped (s : St) (h : s.cmd = .polling) (he : s.t.executed = true) : Step sp s { s with cmd := .none }
  /-- steps of `set_work` and of the worker outside the task, ReusableThread.hpp l.76-117 -/
  | thread (s : St) (t' : Thread.St) (ht : Thread.Step sp s.t t') (h1 : t'.started = s.t.started)
      (h2 : t'.finished = s.t.finished) (h3 : t'.c = s.t.c ∨ s.t.c ≠ .idle) : Step sp s { s with t := t' }
  /-- ReusableThread.hpp l.108, RecorderModel.hpp l.93 -/
  | enter (s : St) (t' : Thread.St) (id : Nat) (ht : Thread.Step sp s.t t') (h1 : t'.started = s.t.started ++ [id]) :
      Step sp s { s with t := t', job := .stamp }
  /-- RecorderModel.hpp l.95 -/
  | stamp (s : St) (h : s.job = .stamp) : Step sp s { s with job := .top }
  /-- RecorderModel.hpp l.98 -/
  | again (s : St) (h : s.job = .top) (hm : s.marker = true) : Step sp s { s with job := .wait }
  /-- RecorderModel.hpp l.98 -/
  | leave (s : St) (h : s.job = .top) (hm : s.marker = false) : Step sp s { s with job := .flush }
  /-- RecorderModel.hpp l.100 -/
  | pop (s : St) (b : List Nat) (q : List (List Nat)) (h : s.job = .wait) (hq : s.queue = b :: q) :
      Step sp s { s with job := .got b, queue := q }
  /-- RecorderModel.hpp l.107-109: nothing within 100 ms -/
  | timeout (s : St) (h : s.job = .wait) (hq : s.queue = []) : Step sp s { s with job := .top }
  /-- RecorderModel.hpp l.101 -/
  | count (s : St) (b : List Nat) (h : s.job = .got b) : Step sp s { s with job := .counted b, total := s.total + 1 }
  /-- RecorderModel.hpp l.102 -/
  | count2 (s : St) (b : List Nat) (h : s.job = .counted b) : Step sp s { s with job := .ready b, since := s.since + 1 }
  /-- RecorderModel.hpp l.103-106 -/
  | write (s : St) (b : List Nat) (h : s.job = .ready b) : Step sp s (writeStep s b)
  /-- RecorderModel.hpp l.111 -/
  | flush (s : St) (h : s.job = .flush) : Step sp s { s with job := .done, w := File.flush s.cfg s.w }
  /-- RecorderModel.hpp l.112, ReusableThread.hpp l.108 -/
  | return (s : St) (t' : Thread.St) (id : Nat) (h : s.job = .done) (ht : Thread.Step sp s.t t')
      (h1 : t'.finished = s.t.finished ++ [id]) : Step sp s { s with t := t' }
  /-- RecorderModel.hpp l.49-52 -/
  | report (s : St) (h : s.rep = .none) : Step sp s { s with rep := .began }
  /-- RecorderModel.hpp l.53-58 -/
  | tell (s : St) (h : s.rep = .began) : Step sp s { s with rep := .told s.since, reports := s.reports ++ [s.since] }
  /-- RecorderModel.hpp l.60 -/
  | zero (s : St) (v : Nat) (h : s.rep = .told v) : Step sp s { s with rep := .zeroed, since := 0 }
  /-- RecorderModel.hpp l.61 -/
  | reported (s : St) (h : s.rep = .zeroed) : Step sp s { s with rep := .none }

/-- Reachable states, all interleavings of RecorderModel.hpp l.49-112. -/
inductive Reach (sp : Bool) : St → Prop where
  | init : Reach sp St.init
  | step (s s' : St) (h : Reach sp s) (st : Step sp s s') : Reach sp s'

end Verif.RecMod
