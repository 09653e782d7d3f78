import Verif.Basic
/-
Which shared members the threads of a readout link access and under which locks: ReadoutModel.hpp,
DefaultRequestHandlerModel.hpp (both /repo/include/readout/models), FrameErrorRegistry.hpp,
TaskRawDataProcessorModel.hpp and WIBFrameProcessor.hpp (/repo/src/wib).

Every function run by a thread is given as a list of actions: locking, unlocking, waiting on the condition
variable, and accesses to shared members. A function with several ways through it is given as several lists; loops
whose body leaves the locks as they were are either separate rounds of the thread or repeated blocks. Values are
left out except for the two the condition variable waits for: whether a branch is taken is not decided, every list may
be run at any time.

Members with the same accesses are taken together. Accesses to the latency buffer itself are left out: they
are lock-free by design and the subject of C04, C19, C58 and C63. Queues of appfwk, folly and boost::asio synchronise
themselves. Members used by one thread only are left out.
-/
namespace Verif.Race

/-- The mutexes: `m_cv_mutex` and `m_waiting_requests_lock`,
/repo/include/readout/models/DefaultRequestHandlerModel.hpp l.639, 644, and `m_error_map_mutex`,
/repo/include/readout/FrameErrorRegistry.hpp l.71. -/
inductive Lock where
  | cv | waitq | err
  deriving DecidableEq, Repr

/-- The shared members.
`waiting`: `m_waiting_requests` (DefaultRequestHandlerModel.hpp l.643);
`pool`: the pointer `m_request_handler_thread_pool` (l.647);
`opened`, `writer`: `m_buffered_writer`, whether it is open and everything else (l.629);
`t0`: the three members `m_t0` (ReadoutModel.hpp l.402, DefaultRequestHandlerModel.hpp l.652, WIBFrameProcessor.hpp
l.601);
`errors`: the map of the error registry (FrameErrorRegistry.hpp l.70);
`tph`: the pointer `m_tphandler` (WIBFrameProcessor.hpp l.591);
`enabled`: `m_sw_tpg_enabled` (WIBFrameProcessor.hpp l.522);
`config`: the other members set by conf only, of all classes;
`check`: state of the preprocessing (WIBFrameProcessor.hpp l.266-270);
`finder`: state of the hit finder and of the TP handler object (WIBFrameProcessor.hpp l.550-592).
Accesses to `std::atomic` members are the action `atomic`. -/
inductive Loc where
  | waiting | pool | opened | writer | t0 (i : Fin 3) | errors | tph | enabled | config | check | finder
  deriving DecidableEq, Repr

/-- The threads: commands (one after the other), monitoring (`get_info`, called by the framework at any time), and
those of a run, /repo/include/readout/models/ReadoutModel.hpp l.135-176: consumer, requests, time sync,
post-processing, and of the request handler (DefaultRequestHandlerModel.hpp l.144-182): pool, waiting requests,
cleanup and recording. -/
inductive Cls where
  | cmd | mon | pool | waiter | cleaner | recorder | consumer | requester | syncer | post
  deriving DecidableEq, Repr

/-- A thread; only the pool has several. DefaultRequestHandlerModel.hpp l.161. -/
structure Th where
  cls : Cls
  idx : Nat
  deriving DecidableEq, Repr

/-- Actions. `waitOpen` and `waitIdle` wait on the condition variable with `m_cv_mutex`, until no cleanup is requested
and until no request is running (DefaultRequestHandlerModel.hpp l.213, 268; l.254); `inc` and `dec` count the running
requests (l.214, 269; l.221, 275); `claim` and `release` request a cleanup and end it (l.253, 256); `spawn` gives a
thread its work, `join` waits until it has finished (ReadoutModel.hpp l.135-176). -/
inductive Act where
  | lock (l : Lock)
  | unlock (l : Lock)
  | waitOpen
  | waitIdle
  | inc
  | dec
  | claim
  | release
  | read (x : Loc)
  | write (x : Loc)
  | atomic
  | spawn (c : Cls)
  | join (c : Cls)
  deriving DecidableEq, Repr

open Act

/-! ### Functions -/

/-- `ReadoutModel::conf` (l.103-133) with `WIBFrameProcessor::conf` (l.215-237) and
`DefaultRequestHandlerModel::conf` (l.100-142). -/
def conf : List Act :=
  [write .config, write .config, write .enabled, write .tph, write .config, write .config, read .opened, write .writer,
   write .opened]

/-- `ReadoutModel::start` (l.135-157) with `WIBFrameProcessor::start` (l.93-168),
`TaskRawDataProcessorModel::start` (l.65-76) and `DefaultRequestHandlerModel::start` (l.144-168). -/
def start : List Act :=
  [atomic, write (.t0 0),
   read .enabled, read .tph, write .finder, write .check, write (.t0 2), atomic, atomic, spawn .post,
   atomic, write (.t0 1), read .config, write .pool, atomic, spawn .pool, spawn .cleaner, spawn .waiter,
   spawn .consumer, spawn .requester, spawn .syncer]

/-- `ReadoutModel::stop` (l.159-176) with `DefaultRequestHandlerModel::stop` (l.170-182),
`TaskRawDataProcessorModel::stop` (l.78-86) and `WIBFrameProcessor::stop` (l.170-192). -/
def stop : List Act :=
  [atomic, join .recorder, join .cleaner, join .waiter, read .pool, join .pool,
   join .syncer, join .consumer, join .requester, atomic, join .post, read .enabled,
   write .finder, atomic]

/-- `DefaultRequestHandlerModel::record` (l.184-193, 246-247): refused, or given to the recording thread. -/
def recordNo : List Act := [atomic, read .config]
def recordNotOpen : List Act := [atomic, read .opened, read .config]
def recordYes : List Act := [atomic, read .opened, spawn .recorder]

/-- `ReadoutModel::get_info` (l.180-208) with `DefaultRequestHandlerModel::get_info` (l.307-362) and
`WIBFrameProcessor::get_info` (l.239-263). -/
def getInfo : List Act :=
  [atomic, read (.t0 0), atomic, write (.t0 0),
   atomic, read .waiting, atomic, read (.t0 1), write (.t0 1),
   read .tph, atomic, read .enabled, read (.t0 2), write (.t0 2)]

/-- Start and end of the protected part of a request, `DefaultRequestHandlerModel.hpp` l.266-277. -/
def enter : List Act := [lock .cv, waitOpen, inc, unlock .cv]
def leave : List Act := [lock .cv, dec, unlock .cv]

/-- A task of the pool (l.264-304): the request is answered, or put on the waiting list. `data_request` (l.504-623)
reads the settings and asks the error registry without a lock (l.534; /repo/include/readout/FrameErrorRegistry.hpp
l.63-65). -/
def answered : List Act := enter ++ [read .config, read .errors, atomic] ++ leave ++ [read .config, atomic]
def parked : List Act :=
  enter ++ [read .config, atomic] ++ leave ++ [lock .waitq, write .waiting, unlock .waitq, atomic]

/-- `check_waiting_requests` (l.440-502): the loop condition, and one pass over the list with any treatment of the
entries: issued again, answered empty, kept. -/
def waitCond : List Act := [atomic, read .waiting]
def reissue : List Act := [read .waiting, read .pool, write .waiting]
def giveUp : List Act := [read .waiting, read .config, atomic, read .config, write .waiting]
def keep : List Act := [read .waiting, read .config, atomic, write .waiting]
def pass (entries : List (List Act)) : List Act :=
  [lock .waitq, read .waiting] ++ entries.flatten ++ [unlock .waitq]

/-- `cleanup_check` and `cleanup` (l.250-259, 415-438), called by `periodic_cleanups` (l.407-413): nothing to do, or a
cleanup, which ends with `remove_errors_until` (FrameErrorRegistry.hpp l.50-61). -/
def noCleanup : List Act := [atomic, lock .cv, read .config, atomic, unlock .cv]
def cleanup : List Act :=
  [atomic, lock .cv, read .config, claim, waitIdle, read .config, atomic, read .config, atomic,
   lock .err, write .errors, unlock .err, release, unlock .cv]

/-- The recording thread (l.194-246): a round that writes any number of payloads, and the end. -/
def recordRound (n : Nat) : List Act :=
  [atomic] ++ enter ++ leave ++ (List.replicate n [write .writer, read .config, atomic]).flatten
def recordEnd : List Act := [atomic, atomic, write .writer]

/-- The consumer (`ReadoutModel::run_consume`, l.228-257): a payload without and with a gap before it
(`timestamp_check`, WIBFrameProcessor.hpp l.282-325; `add_error`, FrameErrorRegistry.hpp l.41-48). -/
def consume : List Act := [atomic, read .config, write .check, atomic, read .config, atomic]
def consumeGap : List Act :=
  [atomic, read .config, write .check, lock .err, write .errors, unlock .err, write .check, atomic, read .config, atomic]

/-- The request thread (l.309-346) and the time sync thread (l.259-307): a round. -/
def request : List Act := [atomic, read .config, read .pool, atomic]
def sync : List Act := [atomic, read .config, read .pool, atomic]

/-- The post-processing thread: `find_collection_hits` (WIBFrameProcessor.hpp l.369-504) on one payload. -/
def hits : List Act := [atomic, read .config, write .finder, read .tph, atomic]

/-! ### Runs -/

/-- What a thread of a run may execute, ReadoutModel.hpp l.145-156 and DefaultRequestHandlerModel.hpp l.161-167. -/
inductive Round : Cls → List Act → Prop where
  | answered : Round .pool answered
  | parked : Round .pool parked
  | waitCond : Round .waiter waitCond
  | pass (es : List (List Act)) (h : ∀ e ∈ es, e = reissue ∨ e = giveUp ∨ e = keep) : Round .waiter (pass es)
  | noCleanup : Round .cleaner noCleanup
  | cleanup : Round .cleaner cleanup
  | recordRound (n : Nat) : Round .recorder (recordRound n)
  | recordEnd : Round .recorder recordEnd
  | consume : Round .consumer consume
  | consumeGap : Round .consumer consumeGap
  | request : Round .requester request
  | sync : Round .syncer sync
  | hits : Round .post hits

/-- Owners of the locks, what each thread still has to do in its current function, which threads of a run have work
(ReadoutModel.hpp l.135-176), `m_requests_running` and `m_cleanup_requested` (DefaultRequestHandlerModel.hpp
l.641-642), and what run control knows: whether the last of start and stop was start. -/
structure St where
  owner : Lock → Option Th
  todo : Th → List Act
  alive : Cls → Bool
  running : Nat
  cleaning : Bool
  inRun : Bool

/-- The initial state, after init (ReadoutModel.hpp l.82-101). -/
def St.init : St := ⟨fun _ => none, fun _ => [], fun _ => false, 0, false, false⟩

/-- Replace one value of a function (no code: bookkeeping of the model; see ReadoutModel.hpp l.135-176). -/
def upd {α β : Type} [DecidableEq α] (f : α → β) (a : α) (b : β) : α → β := fun x => if x = a then b else f x

/-- One action of one thread, or the begin of a function. Run control sends conf and start between runs, stop and record
during a run, each after the end of the command before (DataLinkHandler.cpp l.60-105). -/
inductive Step : St → St → Prop where
  | round (s : St) (t : Th) (r : List Act) (hr : Round t.cls r) (hi : t.cls = .pool ∨ t.idx = 0)
      (ha : s.alive t.cls = true) (ht : s.todo t = []) : Step s { s with todo := upd s.todo t r }
  | monitor (s : St) (ht : s.todo ⟨.mon, 0⟩ = []) : Step s { s with todo := upd s.todo ⟨.mon, 0⟩ getInfo }
  | conf (s : St) (hp : s.inRun = false) (ht : s.todo ⟨.cmd, 0⟩ = []) :
      Step s { s with todo := upd s.todo ⟨.cmd, 0⟩ conf }
  | start (s : St) (hp : s.inRun = false) (ht : s.todo ⟨.cmd, 0⟩ = []) :
      Step s { s with todo := upd s.todo ⟨.cmd, 0⟩ start, inRun := true }
  | stop (s : St) (hp : s.inRun = true) (ht : s.todo ⟨.cmd, 0⟩ = []) :
      Step s { s with todo := upd s.todo ⟨.cmd, 0⟩ stop, inRun := false }
  | record (s : St) (r : List Act) (hr : r = recordNo ∨ r = recordNotOpen ∨ r = recordYes)
      (hp : s.inRun = true) (ht : s.todo ⟨.cmd, 0⟩ = []) :
      Step s { s with todo := upd s.todo ⟨.cmd, 0⟩ r }
  | lock (s : St) (t : Th) (l : Lock) (r : List Act) (h : s.todo t = lock l :: r) (hf : s.owner l = none) :
      Step s { s with owner := upd s.owner l (some t), todo := upd s.todo t r }
  | unlock (s : St) (t : Th) (l : Lock) (r : List Act) (h : s.todo t = unlock l :: r) :
      Step s { s with owner := upd s.owner l none, todo := upd s.todo t r }
  | openDone (s : St) (t : Th) (r : List Act) (h : s.todo t = waitOpen :: r) (hc : s.cleaning = false) :
      Step s { s with todo := upd s.todo t r }
  | openSleep (s : St) (t : Th) (r : List Act) (h : s.todo t = waitOpen :: r) (hc : s.cleaning = true) :
      Step s { s with owner := upd s.owner .cv none, todo := upd s.todo t (Act.lock .cv :: waitOpen :: r) }
  | idleDone (s : St) (t : Th) (r : List Act) (h : s.todo t = waitIdle :: r) (hc : s.running = 0) :
      Step s { s with todo := upd s.todo t r }
  | idleSleep (s : St) (t : Th) (r : List Act) (h : s.todo t = waitIdle :: r) (hc : s.running ≠ 0) :
      Step s { s with owner := upd s.owner .cv none, todo := upd s.todo t (Act.lock .cv :: waitIdle :: r) }
  | inc (s : St) (t : Th) (r : List Act) (h : s.todo t = inc :: r) :
      Step s { s with todo := upd s.todo t r, running := s.running + 1 }
  | dec (s : St) (t : Th) (r : List Act) (h : s.todo t = dec :: r) :
      Step s { s with todo := upd s.todo t r, running := s.running - 1 }
  | claim (s : St) (t : Th) (r : List Act) (h : s.todo t = claim :: r) (hc : s.cleaning = false) :
      Step s { s with todo := upd s.todo t r, cleaning := true }
  | release (s : St) (t : Th) (r : List Act) (h : s.todo t = release :: r) :
      Step s { s with todo := upd s.todo t r, cleaning := false }
  | access (s : St) (t : Th) (a : Act) (r : List Act) (h : s.todo t = a :: r)
      (ha : a = atomic ∨ ∃ x, a = read x ∨ a = write x) : Step s { s with todo := upd s.todo t r }
  | spawn (s : St) (t : Th) (c : Cls) (r : List Act) (h : s.todo t = spawn c :: r) :
      Step s { s with todo := upd s.todo t r, alive := upd s.alive c true }
  | join (s : St) (t : Th) (c : Cls) (r : List Act) (h : s.todo t = join c :: r)
      (hd : ∀ i, s.todo ⟨c, i⟩ = []) :
      Step s { s with todo := upd s.todo t r, alive := upd s.alive c false }

/-- States that can occur (Step; ReadoutModel.hpp l.135-176). -/
inductive Reach : St → Prop where
  | init : Reach St.init
  | step {s s' : St} (h : Reach s) (st : Step s s') : Reach s'

end Verif.Race
