import Verif.Basic
/-
Stopping a link: what every thread of a `DataLinkHandler` does from the moment the stop command clears the run markers
until the command returns. plugins/DataLinkHandler.cpp l.75-97 (markers), include/readout/models/ReadoutModel.hpp
l.135-176 (start, stop), l.228-257 (consumer), l.259-307 (time sync), l.309-346 (requests),
include/readout/models/DefaultRequestHandlerModel.hpp l.144-182 (start, stop), l.184-248 (recording), l.250-259, 407-438
(cleanup), l.261-305 (requests in the pool), l.440-502 (waiting list),
include/readout/models/TaskRawDataProcessorModel.hpp l.65-86, 136-147 (post-processing),
include/readout/utils/ReusableThread.hpp l.72-85 (launching work).

Payloads and requests are counted, not looked at: their contents only matter for which of several ways a thread takes,
and all ways are allowed. Left out: waiting loops that change nothing (a step is only taken if something happens), the
monitoring, the lengths of time. Queue operations and the processing of one item are assumed to return. A wait on
the condition variable is over as soon as its condition holds (no notification is lost there, module Protocol, C18).
Any number of post-processing threads. Clearing the two markers of link and request handler (DataLinkHandler.cpp l.93,
DefaultRequestHandlerModel.hpp l.172) is one step, and so is starting all threads.
-/
namespace Verif.StopLink

/-- What becomes of `set_work` (module Thread, C44): the worker starts, or the call is refused because the worker is
about to finish its last task, or the worker misses the notification. ReusableThread.hpp l.75-85, 102-117. -/
inductive Launch where
  | runs | refused | lost
  deriving DecidableEq

/-- Recording thread, DefaultRequestHandlerModel.hpp l.194-247. `k`: rounds until the duration is over. -/
inductive Rec where
  | off
  | lost
  | loop (k : Nat)     -- l.202
  | wait (k : Nat)     -- l.213: waits until no cleanup is requested
  | inside (k : Nat)   -- l.214-221: counted as a running request
  deriving DecidableEq

/-- Cleanup thread, DefaultRequestHandlerModel.hpp l.250-259, 407-438. -/
inductive Cl where
  | off
  | lost
  | top                -- l.409
  | check              -- l.410
  | wait               -- l.254: cleanup requested, waits for the running requests
  | clean (n : Nat)    -- l.424-431: `n` payloads to go
  deriving DecidableEq

/-- Thread of the waiting list, DefaultRequestHandlerModel.hpp l.440-502 (a `std::thread`, l.166-167). -/
inductive Wt where
  | off | loop
  deriving DecidableEq

/-- Consumer, ReadoutModel.hpp l.228-257. -/
inductive Cn where
  | off
  | lost
  | top      -- l.236
  | trying   -- l.241, entered while the run was on
  | got      -- l.242-248
  deriving DecidableEq

/-- Requester, ReadoutModel.hpp l.309-346. -/
inductive Rq where
  | off
  | lost
  | top               -- l.316
  | round (k : Nat)   -- l.318-333: `k` queues to go
  | clear             -- l.339-344
  deriving DecidableEq

/-- Time sync and fake triggers, ReadoutModel.hpp l.259-307. -/
inductive Ts where
  | off
  | lost
  | top               -- l.265
  | issue (k : Nat)   -- l.288-290: `k` response queues to go
  deriving DecidableEq

/-- Post-processing thread, TaskRawDataProcessorModel.hpp l.136-147. -/
inductive Pp where
  | off | lost | loop | busy
  deriving DecidableEq

/-- Progress of the stop command. ReadoutModel.hpp l.159-176, DefaultRequestHandlerModel.hpp l.170-182. -/
inductive Ph where
  | idle         -- not started, or the stop command has returned
  | running
  | waitRec      -- DefaultRequestHandlerModel.hpp l.174-176
  | waitClean    -- l.177-179
  | waitWaiter   -- l.180
  | joinPool     -- l.181
  | waitSync     -- ReadoutModel.hpp l.163-165
  | waitCons     -- l.166-168
  | waitReq      -- l.169-171
  | flush        -- l.173
  | waitPost     -- TaskRawDataProcessorModel.hpp l.81-85
  deriving DecidableEq

/-- A link. ReadoutModel.hpp l.352-404, DefaultRequestHandlerModel.hpp l.625-695. -/
structure St where
  ph : Ph
  marker : Bool     -- DataLinkHandler's run marker
  hmarker : Bool    -- the request handler's
  pmarker : Bool    -- the raw data processor's
  rc : Rec
  cl : Cl
  wt : Wt
  cn : Cn
  rq : Rq
  ts : Ts
  pps : List (Pp × Nat)   -- post-processing threads, each with the pointers in its queue
  raw : Nat         -- payloads in the input queue
  reqs : Nat        -- requests in the request queues
  flag : Bool       -- m_cleanup_requested
  inside : Nat      -- m_requests_running
  pool : Bool       -- the thread pool runs
  posted : Nat      -- requests posted to it, not begun (l.264)
  running : Nat     -- between l.269 and l.277
  toPush : Nat      -- l.278-287
  toPark : Nat      -- l.288-293
  waiting : Nat     -- m_waiting_requests
  deriving DecidableEq

/-- DataLinkHandler.cpp l.26-37: nothing runs. -/
def St.init : St :=
  ⟨.idle, false, false, false, .off, .off, .off, .off, .off, .off, [], 0, 0, false, 0, false, 0, 0, 0, 0, 0⟩

/-! ### Recording thread -/

/-- DefaultRequestHandlerModel.hpp l.212-215 -/
def recEnter (s : St) (k : Nat) : St := { s with rc := .inside k, inside := s.inside + 1 }
/-- DefaultRequestHandlerModel.hpp l.220-223 -/
def recLeave (s : St) (k : Nat) : St := { s with rc := .loop k, inside := s.inside - 1 }

/-- Steps of the recording thread, DefaultRequestHandlerModel.hpp l.202-246. -/
inductive RecStep : St → St → Prop where
  /-- l.202, 241-245: the duration is over -/
  | finish (s : St) (h : s.rc = .loop 0) : RecStep s { s with rc := .off }
  /-- l.203: nothing is done while a cleanup is requested -/
  | skip (s : St) (k : Nat) (h : s.rc = .loop (k + 1)) (hf : s.flag = true) : RecStep s { s with rc := .loop k }
  /-- l.203-213 -/
  | begin (s : St) (k : Nat) (h : s.rc = .loop (k + 1)) : RecStep s { s with rc := .wait k }
  | enter (s : St) (k : Nat) (h : s.rc = .wait k) (hf : s.flag = false) : RecStep s (recEnter s k)
  /-- l.218-240: the payloads found are written -/
  | leave (s : St) (k : Nat) (h : s.rc = .inside k) : RecStep s (recLeave s k)

/-! ### Cleanup -/

/-- Steps of the cleanup thread, DefaultRequestHandlerModel.hpp l.250-259, 407-431. -/
inductive ClStep : St → St → Prop where
  | round (s : St) (h : s.cl = .top) (hm : s.hmarker = true) : ClStep s { s with cl := .check }
  | finish (s : St) (h : s.cl = .top) (hm : s.hmarker = false) : ClStep s { s with cl := .off }
  /-- l.253: not needed -/
  | skip (s : St) (h : s.cl = .check) : ClStep s { s with cl := .top }
  /-- l.253: more payloads than the limit -/
  | request (s : St) (h : s.cl = .check) : ClStep s { s with cl := .wait, flag := true }
  /-- l.254, 422: any number of payloads to be removed -/
  | begin (s : St) (n : Nat) (h : s.cl = .wait) (hi : s.inside = 0) : ClStep s { s with cl := .clean n }
  | pop (s : St) (n : Nat) (h : s.cl = .clean (n + 1)) : ClStep s { s with cl := .clean n }
  /-- l.256-257 -/
  | done (s : St) (h : s.cl = .clean 0) : ClStep s { s with cl := .top, flag := false }

/-! ### Requests -/

/-- `issue_request`, DefaultRequestHandlerModel.hpp l.264: posted to the pool, which may have been joined already. -/
def post (s : St) (n : Nat) : St := { s with posted := s.posted + n }

/-- DefaultRequestHandlerModel.hpp l.266-270 -/
def poolBegin (s : St) : St := { s with posted := s.posted - 1, running := s.running + 1, inside := s.inside + 1 }
/-- DefaultRequestHandlerModel.hpp l.272-278 -/
def evalDone (s : St) : St := { s with running := s.running - 1, inside := s.inside - 1, toPush := s.toPush + 1 }
/-- DefaultRequestHandlerModel.hpp l.272-277, 288 -/
def evalNotYet (s : St) : St := { s with running := s.running - 1, inside := s.inside - 1, toPark := s.toPark + 1 }

/-- Steps of the pool's threads, DefaultRequestHandlerModel.hpp l.264-305. -/
inductive PoolStep : St → St → Prop where
  | begin (s : St) (h : 0 < s.posted) (hp : s.pool = true) (hf : s.flag = false) : PoolStep s (poolBegin s)
  | done (s : St) (h : 0 < s.running) : PoolStep s (evalDone s)
  /-- only while the run is on, l.587-594 -/
  | notYet (s : St) (h : 0 < s.running) (hm : s.hmarker = true) : PoolStep s (evalNotYet s)
  /-- l.279-287: pushed, or given up with a warning -/
  | push (s : St) (h : 0 < s.toPush) : PoolStep s { s with toPush := s.toPush - 1 }
  | park (s : St) (h : 0 < s.toPark) : PoolStep s { s with toPark := s.toPark - 1, waiting := s.waiting + 1 }

/-- One pass over the waiting list: `a` requests reissued, `b` answered, `c` kept. DefaultRequestHandlerModel.hpp
l.443-500. -/
def pass (s : St) (a c : Nat) : St := { s with waiting := c, posted := s.posted + a }

/-- Steps of the thread of the waiting list, DefaultRequestHandlerModel.hpp l.440-502. -/
inductive WtStep : St → St → Prop where
  | pass (s : St) (a b c : Nat) (h : s.wt = .loop) (hm : s.hmarker = true) (hn : s.waiting = a + b + c) :
      WtStep s (pass s a c)
  /-- after the end of the run nothing is kept, l.477-493 -/
  | last (s : St) (a b : Nat) (h : s.wt = .loop) (hm : s.hmarker = false) (hw : 0 < s.waiting)
      (hn : s.waiting = a + b) : WtStep s (pass s a 0)
  | finish (s : St) (h : s.wt = .loop) (hm : s.hmarker = false) (hw : s.waiting = 0) : WtStep s { s with wt := .off }

/-! ### Link threads -/

/-- The pointer is offered to every post-processing queue, some of which may be full.
TaskRawDataProcessorModel.hpp l.99-106. -/
def offer : List Bool → List (Pp × Nat) → List (Pp × Nat)
  | full :: fs, (p, q) :: l => (p, if full then q else q + 1) :: offer fs l
  | [], l => l
  | _, [] => []

/-- A payload was stored. ReadoutModel.hpp l.242-248. -/
def stored (s : St) (full : List Bool) : St := { s with cn := .top, pps := offer full s.pps }

/-- Steps of the consumer, ReadoutModel.hpp l.236-256. -/
inductive CnStep : St → St → Prop where
  | round (s : St) (h : s.cn = .top) (hm : s.marker = true) : CnStep s { s with cn := .trying }
  /-- l.236, 241: after the end of the run as long as there are payloads -/
  | drain (s : St) (h : s.cn = .top) (hm : s.marker = false) (hr : 0 < s.raw) :
      CnStep s { s with cn := .got, raw := s.raw - 1 }
  | finish (s : St) (h : s.cn = .top) (hm : s.marker = false) (hr : s.raw = 0) : CnStep s { s with cn := .off }
  | pop (s : St) (h : s.cn = .trying) (hr : 0 < s.raw) : CnStep s { s with cn := .got, raw := s.raw - 1 }
  /-- l.252 -/
  | timeout (s : St) (h : s.cn = .trying) (hr : s.raw = 0) : CnStep s { s with cn := .top }
  | store (s : St) (full : List Bool) (h : s.cn = .got) : CnStep s (stored s full)

/-- Steps of the requester with `nq` queues, ReadoutModel.hpp l.316-345. -/
inductive RqStep (nq : Nat) : St → St → Prop where
  | round (s : St) (h : s.rq = .top) (hm : s.marker = true) : RqStep nq s { s with rq := .round nq }
  | stop (s : St) (h : s.rq = .top) (hm : s.marker = false) : RqStep nq s { s with rq := .clear }
  | pop (s : St) (k : Nat) (h : s.rq = .round (k + 1)) (hr : 0 < s.reqs) :
      RqStep nq s (post { s with rq := .round k, reqs := s.reqs - 1 } 1)
  | none (s : St) (k : Nat) (h : s.rq = .round (k + 1)) : RqStep nq s { s with rq := .round k }
  | back (s : St) (h : s.rq = .round 0) : RqStep nq s { s with rq := .top }
  | clear (s : St) (h : s.rq = .clear) (hr : 0 < s.reqs) : RqStep nq s { s with reqs := s.reqs - 1 }
  | finish (s : St) (h : s.rq = .clear) (hr : s.reqs = 0) : RqStep nq s { s with rq := .off }

/-- Steps of the time sync thread, ReadoutModel.hpp l.265-306. -/
inductive TsStep (nq : Nat) : St → St → Prop where
  /-- l.267-288; without fake triggers or before the first payload nothing is issued -/
  | round (s : St) (k : Nat) (h : s.ts = .top) (hm : s.marker = true) (hk : k ≤ nq) :
      TsStep nq s { s with ts := .issue k }
  | issue (s : St) (k : Nat) (h : s.ts = .issue (k + 1)) : TsStep nq s (post { s with ts := .issue k } 1)
  | back (s : St) (h : s.ts = .issue 0) : TsStep nq s { s with ts := .top }
  | finish (s : St) (h : s.ts = .top) (hm : s.marker = false) : TsStep nq s { s with ts := .off }

/-- Steps of the post-processing threads, TaskRawDataProcessorModel.hpp l.139-146. -/
inductive PpStep : St → St → Prop where
  | take (s : St) (a b : List (Pp × Nat)) (q : Nat) (h : s.pps = a ++ (.loop, q + 1) :: b) :
      PpStep s { s with pps := a ++ (.busy, q) :: b }
  | processed (s : St) (a b : List (Pp × Nat)) (q : Nat) (h : s.pps = a ++ (.busy, q) :: b) :
      PpStep s { s with pps := a ++ (.loop, q) :: b }
  | finish (s : St) (a b : List (Pp × Nat)) (h : s.pps = a ++ (.loop, 0) :: b) (hm : s.pmarker = false) :
      PpStep s { s with pps := a ++ (.off, 0) :: b }

/-! ### The stop command -/

/-- Steps of the stop command after it cleared the markers, DefaultRequestHandlerModel.hpp l.174-181, ReadoutModel.hpp
l.163-175. A wait is over when the thread is ready; the pool has been joined when it has nothing left to do. -/
inductive StopStep : St → St → Prop where
  | recorded (s : St) (h : s.ph = .waitRec) (ht : s.rc = .off) : StopStep s { s with ph := .waitClean }
  | cleaned (s : St) (h : s.ph = .waitClean) (ht : s.cl = .off) : StopStep s { s with ph := .waitWaiter }
  | waited (s : St) (h : s.ph = .waitWaiter) (ht : s.wt = .off) : StopStep s { s with ph := .joinPool }
  | joined (s : St) (h : s.ph = .joinPool) (h1 : s.posted = 0) (h2 : s.running = 0) (h3 : s.toPush = 0)
      (h4 : s.toPark = 0) : StopStep s { s with ph := .waitSync, pool := false }
  | synced (s : St) (h : s.ph = .waitSync) (ht : s.ts = .off) : StopStep s { s with ph := .waitCons }
  | consumed (s : St) (h : s.ph = .waitCons) (ht : s.cn = .off) : StopStep s { s with ph := .waitReq }
  | requested (s : St) (h : s.ph = .waitReq) (ht : s.rq = .off) : StopStep s { s with ph := .flush }
  | flushed (s : St) (h : s.ph = .flush) : StopStep s { s with ph := .waitPost, pmarker := false }
  | returned (s : St) (h : s.ph = .waitPost) (ht : ∀ x ∈ s.pps, x.1 = .off) : StopStep s { s with ph := .idle }

/-- Steps of the link itself. ReadoutModel.hpp l.228-346, DefaultRequestHandlerModel.hpp l.184-502. -/
inductive Link (nq : Nat) : St → St → Prop where
  | rc (s s' : St) (h : RecStep s s') : Link nq s s'
  | cl (s s' : St) (h : ClStep s s') : Link nq s s'
  | wt (s s' : St) (h : WtStep s s') : Link nq s s'
  | pool (s s' : St) (h : PoolStep s s') : Link nq s s'
  | cn (s s' : St) (h : CnStep s s') : Link nq s s'
  | rq (s s' : St) (h : RqStep nq s s') : Link nq s s'
  | ts (s s' : St) (h : TsStep nq s s') : Link nq s s'
  | pp (s s' : St) (h : PpStep s s') : Link nq s s'
  | stop (s s' : St) (h : StopStep s s') : Link nq s s'

/-- A payload or a request arrives from outside. The queues ReadoutModel.hpp l.241, 322 reads. -/
inductive Arrive : St → St → Prop where
  | payload (s : St) : Arrive s { s with raw := s.raw + 1 }
  | request (s : St) : Arrive s { s with reqs := s.reqs + 1 }

/-! ### Commands -/

/-- What `start` did to each worker thread. ReadoutModel.hpp l.149-156, DefaultRequestHandlerModel.hpp l.165,
TaskRawDataProcessorModel.hpp l.70-75. -/
structure Launches where
  cl : Launch
  cn : Launch
  rq : Launch
  ts : Launch
  pp : List Launch

/-- A worker given work: `now` if it has nothing to do and takes it. ReusableThread.hpp l.75-85. -/
def launch {α : Type} (now run lost : α) : Launch → α
  | .runs => run
  | .refused => now
  | .lost => lost

/-- Launches of the post-processing threads; one without entry is refused. TaskRawDataProcessorModel.hpp l.70-75. -/
def relaunch : List Launch → List (Pp × Nat) → List (Pp × Nat)
  | l :: ls, (p, q) :: r => (if p = .off then launch .off .loop .lost l else p, q) :: relaunch ls r
  | [], l => l
  | _, [] => []

/-- `start`, DataLinkHandler.cpp l.75-87, ReadoutModel.hpp l.135-157, DefaultRequestHandlerModel.hpp l.144-168: a new
pool, and every thread that is ready gets work. -/
def start (s : St) (l : Launches) : St :=
  { s with
    ph := .running, marker := true, hmarker := true, pmarker := true, pool := true, posted := 0, wt := .loop,
    cl := if s.cl = .off then launch .off .top .lost l.cl else s.cl,
    cn := if s.cn = .off then launch .off .top .lost l.cn else s.cn,
    rq := if s.rq = .off then launch .off .top .lost l.rq else s.rq,
    ts := if s.ts = .off then launch .off .top .lost l.ts else s.ts,
    pps := relaunch l.pp s.pps }

/-- `record`, DefaultRequestHandlerModel.hpp l.184-248, for `k` rounds of the loop. -/
def record (s : St) (k : Nat) (l : Launch) : St :=
  { s with rc := if s.rc = .off then launch .off (.loop k) .lost l else s.rc }

/-- The stop command begins: DataLinkHandler.cpp l.93, DefaultRequestHandlerModel.hpp l.172. -/
def stop (s : St) : St := { s with ph := .waitRec, marker := false, hmarker := false }

/-- `conf` of the raw data processor, src/wib/WIBFrameProcessor.hpp (`add_postprocess_task`), TaskRawDataProcessorModel.hpp l.53-57,
123-127: `k` more post-processing threads with empty queues (every time, C61). -/
def conf (s : St) (k : Nat) : St := { s with pps := s.pps ++ List.replicate k (.off, 0) }

/-- Commands, one at a time. DataLinkHandler.cpp l.32-36. -/
inductive Command : St → St → Prop where
  | conf (s : St) (k : Nat) (h : s.ph = .idle) : Command s (conf s k)
  | start (s : St) (l : Launches) (h : s.ph = .idle) : Command s (start s l)
  | record (s : St) (k : Nat) (l : Launch) (h : s.ph = .idle ∨ s.ph = .running) : Command s (record s k l)
  | stop (s : St) (h : s.ph = .running) : Command s (stop s)

/-- Reachable states. DataLinkHandler.cpp l.26-97, ReadoutModel.hpp l.135-346. -/
inductive Reach (nq : Nat) : St → Prop where
  | init : Reach nq St.init
  | link (s s' : St) (h : Reach nq s) (st : Link nq s s') : Reach nq s'
  | arrive (s s' : St) (h : Reach nq s) (st : Arrive s s') : Reach nq s'
  | command (s s' : St) (h : Reach nq s) (st : Command s s') : Reach nq s'

end Verif.StopLink
