import Verif.Basic
/-
Commands of a data link handler in any order: `do_conf`, `do_scrap`, `do_start`, `do_stop`, `do_record`
(plugins/DataLinkHandler.cpp l.59-105), which call `ReadoutModel::conf`, `start`, `stop`, `record`
(include/readout/models/ReadoutModel.hpp l.103-178) and through them
`DefaultRequestHandlerModel::conf`, `start`, `stop`, `record`, `issue_request`
(include/readout/models/DefaultRequestHandlerModel.hpp l.100-248, 261-300).

Simplified: what the working threads do to the data is not modelled (see `Session*`, `ListLife*`); requests
are counted. A `conf` whose options are refused or whose allocation fails is the subject of `ConfLink*`;
here the buffer part of `conf` succeeds. Commands come one at a time, as from the application framework, and
the module has been initialised.
-/
namespace Verif.Cmd

/-- What of a `conf` command matters here: the number of threads that handle requests, the size of the
buffer, whether raw recording is enabled.
include/readout/models/DefaultRequestHandlerModel.hpp l.105-106, 123. -/
structure Conf where
  threads : Nat
  slots : Nat
  raw : Bool
  deriving DecidableEq, Repr

/-- Commands, and what happens between them: a request arrives (`ReadoutModel::run_requests`), a pool thread
takes a request, the time of a recording is over.
plugins/DataLinkHandler.cpp l.32-36; include/readout/models/DefaultRequestHandlerModel.hpp l.202, 264;
include/readout/models/ReadoutModel.hpp l.309-340. -/
inductive Ev where
  | conf (c : Conf)
  | scrap
  | start
  | stop
  | record
  | request
  | handle
  | recorded
  deriving DecidableEq, Repr

/-- The module: `m_configured` of plugins/DataLinkHandler.hpp l.51; `m_num_request_handling_threads`,
`m_request_handler_thread_pool` (null, or the number of its threads, with the tasks posted to it and not
begun), whether `m_waiting_queue_thread` is joinable, whether the output file is open and the recording
thread at work, include/readout/models/DefaultRequestHandlerModel.hpp l.629-660; the size of the buffer;
whether consumer, requester, time synchronisation and cleanup threads are at work
(include/readout/models/ReadoutModel.hpp l.151-156). `handled` and `lost` count the requests that were
looked up and those destroyed with a pool. -/
structure Link where
  flag : Bool
  threads : Nat
  slots : Nat
  pool : Option Nat
  queued : Nat
  waiter : Bool
  file : Bool
  recording : Bool
  busy : Bool
  handled : Nat
  lost : Nat
  deriving DecidableEq, Repr

/-- The module after `init`: plugins/DataLinkHandler.cpp l.26-51; no threads configured
(DefaultRequestHandlerModel.hpp l.649), two slots (IterableQueueModel.hpp l.74-88). -/
def Link.init : Link :=
  { flag := false, threads := 0, slots := 2, pool := none, queued := 0, waiter := false, file := false
    recording := false, busy := false, handled := 0, lost := 0 }

/-- How a command ends. `terminated`: `std::terminate` by the assignment to a joinable `std::thread`;
`ub`: undefined behaviour; `threw`: `std::system_error` leaves the command. -/
inductive Res where
  | returned (l : Link)
  | threw (l : Link)
  | terminated
  | ub (w : UB)
  deriving DecidableEq, Repr

/-- The module lives on in this state, if it lives on. -/
def Res.link? : Res → Option Link
  | .returned l => some l
  | .threw l => some l
  | .terminated => none
  | .ub _ => none

/-- The destructor of `boost::asio::thread_pool` drops the tasks that have not begun.
Assignment in include/readout/models/DefaultRequestHandlerModel.hpp l.162. -/
def newPool (l : Link) : Link :=
  { l with pool := some l.threads, lost := l.lost + l.queued, queued := 0 }

/-- `do_start`, plugins/DataLinkHandler.cpp l.75-87: a new pool (DefaultRequestHandlerModel.hpp l.162), then
the assignment to `m_waiting_queue_thread` (l.166-167), then the threads of `ReadoutModel::start` (l.151-156). -/
def start (l : Link) : Res :=
  let l := newPool l
  if l.waiter then .terminated
  else .returned { l with waiter := true, busy := true }

/-- `do_stop`, plugins/DataLinkHandler.cpp l.89-97: `DefaultRequestHandlerModel::stop` (DefaultRequestHandlerModel.hpp l.170-182) waits for
the recording, joins the waiting thread (which throws if there is none) and then the pool: its threads, if
it has any, empty its queue; then `ReadoutModel::stop` waits for the other threads (ReadoutModel.hpp l.163-175). -/
def stop (l : Link) : Res :=
  let l := { l with recording := false }
  if l.waiter then
    let l := { l with waiter := false }
    match l.pool with
    | none => .ub .nullDeref
    | some 0 => .returned { l with busy := false }
    | some (_ + 1) => .returned { l with busy := false, handled := l.handled + l.queued, queued := 0 }
  else .threw l

/-- `do_conf`, plugins/DataLinkHandler.cpp l.59-66: the buffer is released and allocated anew
(IterableQueueModel.hpp l.440-446) whatever the threads are doing; the file is opened at most once
(DefaultRequestHandlerModel.hpp l.123-131). -/
def conf (l : Link) (c : Conf) : Res :=
  if l.busy || l.recording then .ub .danglingBlock
  else .returned { l with flag := true, threads := c.threads, slots := c.slots, file := l.file || c.raw }

/-- `record`, include/readout/models/DefaultRequestHandlerModel.hpp l.184-248: refused with a report while a
recording runs and when no file is open. -/
def record (l : Link) : Res :=
  if l.recording then .returned l
  else if l.file then .returned { l with recording := true }
  else .returned l

/-- `run_requests` posts a request to the pool while it is at work,
include/readout/models/ReadoutModel.hpp l.309-340, DefaultRequestHandlerModel.hpp l.264. -/
def request (l : Link) : Res :=
  if l.busy then
    match l.pool with
    | none => .ub .nullDeref
    | some _ => .returned { l with queued := l.queued + 1 }
  else .returned l

/-- A pool thread, if there is one, takes a request.
include/readout/models/DefaultRequestHandlerModel.hpp l.264-300. -/
def handle (l : Link) : Res :=
  match l.pool with
  | some (_ + 1) =>
    if l.queued = 0 then .returned l
    else .returned { l with queued := l.queued - 1, handled := l.handled + 1 }
  | some 0 => .returned l
  | none => .returned l

/-- One command or event; `do_scrap` only clears the flag, which nobody reads
(plugins/DataLinkHandler.cpp l.68-74). -/
def step (l : Link) : Ev → Res
  | .conf c => conf l c
  | .scrap => .returned { l with flag := false }
  | .start => start l
  | .stop => stop l
  | .record => record l
  | .request => request l
  | .handle => handle l
  | .recorded => .returned { l with recording := false }

/-- A sequence of commands: the results, up to the first that the process does not survive, and the state
left. Commands of plugins/DataLinkHandler.cpp l.59-105. -/
def run : Link → List Ev → List Res × Option Link
  | l, [] => ([], some l)
  | l, e :: es =>
    match (step l e).link? with
    | some l' => (step l e :: (run l' es).1, (run l' es).2)
    | none => ([step l e], none)

end Verif.Cmd
