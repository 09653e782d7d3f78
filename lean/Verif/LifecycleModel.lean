import Verif.Basic
/-
Life cycle of data requests in `DefaultRequestHandlerModel`
(include/readout/models/DefaultRequestHandlerModel.hpp): `issue_request` l.261-305,
`check_waiting_requests` l.440-502, `stop` l.170-182, and the callers in
include/readout/models/ReadoutModel.hpp l.159-176 (stop order), l.309-346 (requester thread).

Each pool task, the waiting-list thread, the requester and `stop()` interleave freely. A request is
a number (every call of `issue_request` from outside gets a fresh one). Simplifications: a task's
evaluation of `data_request` is one step (its result may be anything allowed by the run marker
at that moment, l.588); the waiting-list thread treats one parked request per step and may treat
any request at any time (more behaviours than the code, where a pass holds the list lock).
-/
namespace Verif.Lifecycle

/-- Progress of `stop()` (l.170-182). -/
inductive Phase where
  | running        -- stop not called
  | waitingThread  -- l.172 done, waiting for the waiting-list thread (l.180)
  | waitingPool    -- l.180 done, waiting for the pool (l.181)
  | joined         -- stop returned
  deriving DecidableEq

/-- Where each request currently is.
include/readout/models/DefaultRequestHandlerModel.hpp l.261-305, 440-502, 645-650. -/
structure St where
  issued : List Nat     -- handed to issue_request from outside, in order
  pool : List Nat       -- posted to the pool, not evaluated (l.264)
  toPush : List Nat     -- evaluated as found / not found (l.278)
  toPark : List Nat     -- evaluated as not yet (l.288), not parked yet
  waiting : List Nat    -- in m_waiting_requests (l.292)
  answered : List Nat   -- fragment pushed (l.284, 467, 486)
  lost : List Nat       -- push threw (l.285, 469, 488): warning only
  dropped : List Nat    -- posted to a pool that was already joined: never runs
  lateParked : List Nat -- ghost: parked after the waiting-list thread had exited
  run : Bool            -- m_run_marker
  waiterGone : Bool     -- the waiting-list thread has returned
  phase : Phase
  deriving DecidableEq

/-- State after `start()`, l.144-168. -/
def St.init : St := ⟨[], [], [], [], [], [], [], [], [], true, false, .running⟩

/-- A request arrives from outside (ReadoutModel.hpp l.324, l.288): the task is posted, l.264.
The requester thread is stopped only after the handler (ReadoutModel.hpp l.162-171), so this can
happen at any time; a joined pool never runs the task. -/
inductive Issue : St → St → Prop where
  | post (s : St) (id : Nat) (hf : id ∉ s.issued) (hp : s.phase ≠ .joined) :
      Issue s { s with issued := s.issued ++ [id], pool := s.pool ++ [id] }
  | late (s : St) (id : Nat) (hf : id ∉ s.issued) (hp : s.phase = .joined) :
      Issue s { s with issued := s.issued ++ [id], dropped := s.dropped ++ [id] }

/-- Steps of the handler's own threads and of `stop()`.
include/readout/models/DefaultRequestHandlerModel.hpp l.170-182, 264-304, 440-502. -/
inductive Internal : St → St → Prop where
  /-- l.272, 278: evaluated as found or not found. -/
  | evalDone (s : St) (id : Nat) (h : id ∈ s.pool) :
      Internal s { s with pool := s.pool.erase id, toPush := id :: s.toPush }
  /-- l.588-589: not yet, only while the run marker is set. -/
  | evalNotYet (s : St) (id : Nat) (h : id ∈ s.pool) (hr : s.run = true) :
      Internal s { s with pool := s.pool.erase id, toPark := id :: s.toPark }
  /-- l.284: push succeeds. -/
  | push (s : St) (id : Nat) (h : id ∈ s.toPush) :
      Internal s { s with toPush := s.toPush.erase id, answered := id :: s.answered }
  /-- l.285-287: push fails. -/
  | pushFail (s : St) (id : Nat) (h : id ∈ s.toPush) :
      Internal s { s with toPush := s.toPush.erase id, lost := id :: s.lost }
  /-- l.291-292: park. -/
  | park (s : St) (id : Nat) (h : id ∈ s.toPark) :
      Internal s { s with toPark := s.toPark.erase id, waiting := id :: s.waiting,
                          lateParked := if s.waiterGone then id :: s.lateParked else s.lateParked }
  /-- l.452-456: reissue. -/
  | reissue (s : St) (id : Nat) (h : id ∈ s.waiting) (hw : s.waiterGone = false) :
      Internal s { s with waiting := s.waiting.erase id, pool := s.pool ++ [id] }
  /-- l.457-468, 477-487: empty fragment pushed. -/
  | giveUp (s : St) (id : Nat) (h : id ∈ s.waiting) (hw : s.waiterGone = false) :
      Internal s { s with waiting := s.waiting.erase id, answered := id :: s.answered }
  /-- l.469-473, 488-490: empty fragment could not be pushed. -/
  | giveUpFail (s : St) (id : Nat) (h : id ∈ s.waiting) (hw : s.waiterGone = false) :
      Internal s { s with waiting := s.waiting.erase id, lost := id :: s.lost }
  /-- l.442: the waiting-list thread leaves its loop. -/
  | waiterExit (s : St) (hr : s.run = false) (he : s.waiting = []) (hw : s.waiterGone = false) :
      Internal s { s with waiterGone := true }
  /-- l.172: stop called. -/
  | stopCall (s : St) (hp : s.phase = .running) :
      Internal s { s with run := false, phase := .waitingThread }
  /-- l.180. -/
  | joinWaiter (s : St) (hp : s.phase = .waitingThread) (hw : s.waiterGone = true) :
      Internal s { s with phase := .waitingPool }
  /-- l.181: all posted tasks have finished. -/
  | joinPool (s : St) (hp : s.phase = .waitingPool) (h1 : s.pool = []) (h2 : s.toPush = [])
      (h3 : s.toPark = []) :
      Internal s { s with phase := .joined }

/-- Reachable states. From include/readout/models/DefaultRequestHandlerModel.hpp l.144-168 on. -/
inductive Reach : St → Prop where
  | init : Reach St.init
  | issue (s t : St) (h : Reach s) (st : Issue s t) : Reach t
  | internal (s t : St) (h : Reach s) (st : Internal s t) : Reach t

end Verif.Lifecycle
