import Verif.Basic
/-
Mutual exclusion of cleanups and requests in `DefaultRequestHandlerModel`
(include/readout/models/DefaultRequestHandlerModel.hpp): `cleanup_check` l.250-259,
`issue_request` l.266-277 and the recording thread l.211-223 (same protocol), with
`m_cv_mutex`, `m_cv`, `m_cleanup_requested`, `m_requests_running` (l.639-642).

Any number of request threads and one cleanup thread (`m_cleanup_thread`, l.165). One step per
mutex operation, predicate test, counter update or notification. A thread blocked in
`m_cv.wait` becomes runnable only through `notify_all` (`spurious` wake-ups are separate steps
which the progress theorems do not rely on).
-/
namespace Verif.Protocol

/-- A request thread (l.266-277; recording l.211-223). -/
inductive RPc where
  | idle       -- outside the protocol
  | want       -- about to lock m_cv_mutex (l.267) or re-lock it after a wake-up
  | test       -- holds the mutex, tests !m_cleanup_requested (l.268)
  | blocked    -- in m_cv.wait, mutex released
  | entered    -- m_requests_running incremented, mutex released, notify pending (l.271)
  | active     -- reads the latency buffer (l.272)
  | wantOut    -- about to lock the mutex (l.274)
  | out        -- holds the mutex, about to decrement (l.275)
  | left       -- mutex released, notify pending (l.277)
  deriving DecidableEq

/-- The cleanup thread (l.250-259). -/
inductive CPc where
  | idle
  | want       -- about to lock (l.252)
  | check      -- holds the mutex, evaluates the condition of l.253
  | test       -- holds the mutex, tests m_requests_running == 0 (l.254)
  | blocked    -- in m_cv.wait, mutex released
  | rewant     -- woken, about to re-lock
  | cleaning   -- holds the mutex, pops the latency buffer (l.255)
  | reset      -- cleanup done, about to clear the flag (l.256)
  | notify     -- flag cleared, about to notify (l.257), still holds the mutex
  | unlock     -- about to release the mutex (end of scope)
  deriving DecidableEq

/-- Owner of `m_cv_mutex`. include/readout/models/DefaultRequestHandlerModel.hpp l.639. -/
inductive Owner where
  | req (i : Nat)
  | cleaner
  deriving DecidableEq

/-- Shared state, DefaultRequestHandlerModel.hpp l.639-642, and where every thread is. -/
structure St where
  threads : List RPc
  cleaner : CPc
  mutex : Option Owner
  flag : Bool        -- m_cleanup_requested
  running : Nat      -- m_requests_running
  deriving DecidableEq

/-- Initially everything is idle.
include/readout/models/DefaultRequestHandlerModel.hpp l.641-642. -/
def St.init (n : Nat) : St := ⟨List.replicate n .idle, .idle, none, false, 0⟩

/-- `m_cv.notify_all()`: every thread blocked on the condition variable becomes runnable.
include/readout/models/DefaultRequestHandlerModel.hpp l.257, 271, 277. -/
def wakeR : RPc → RPc
  | .blocked => .want
  | p => p

/-- Effect of `notify_all` on the cleanup thread.
include/readout/models/DefaultRequestHandlerModel.hpp l.271, 277. -/
def wakeC : CPc → CPc
  | .blocked => .rewant
  | p => p

/-- Steps of request threads, except the start of a new request.
include/readout/models/DefaultRequestHandlerModel.hpp l.266-277. -/
inductive ReqStep : St → St → Prop where
  /-- l.267 (or re-lock inside wait). -/
  | lock (s : St) (i : Nat) (h : s.threads[i]? = some .want) (hm : s.mutex = none) :
      ReqStep s { s with threads := s.threads.set i .test, mutex := some (.req i) }
  /-- l.268: cleanup pending, wait. -/
  | wait (s : St) (i : Nat) (h : s.threads[i]? = some .test) (hf : s.flag = true) :
      ReqStep s { s with threads := s.threads.set i .blocked, mutex := none }
  /-- l.268-270: no cleanup pending, enter. -/
  | enter (s : St) (i : Nat) (h : s.threads[i]? = some .test) (hf : s.flag = false) :
      ReqStep s { s with threads := s.threads.set i .entered, mutex := none,
                         running := s.running + 1 }
  /-- l.271. -/
  | notifyIn (s : St) (i : Nat) (h : s.threads[i]? = some .entered) :
      ReqStep s { s with threads := (s.threads.map wakeR).set i .active, cleaner := wakeC s.cleaner }
  /-- l.272: the request has been served. -/
  | served (s : St) (i : Nat) (h : s.threads[i]? = some .active) :
      ReqStep s { s with threads := s.threads.set i .wantOut }
  /-- l.274. -/
  | lockOut (s : St) (i : Nat) (h : s.threads[i]? = some .wantOut) (hm : s.mutex = none) :
      ReqStep s { s with threads := s.threads.set i .out, mutex := some (.req i) }
  /-- l.275-276. -/
  | leave (s : St) (i : Nat) (h : s.threads[i]? = some .out) :
      ReqStep s { s with threads := s.threads.set i .left, mutex := none,
                         running := s.running - 1 }
  /-- l.277. -/
  | notifyOut (s : St) (i : Nat) (h : s.threads[i]? = some .left) :
      ReqStep s { s with threads := (s.threads.map wakeR).set i .idle, cleaner := wakeC s.cleaner }

/-- Steps of the cleanup thread, except the start of a new check.
include/readout/models/DefaultRequestHandlerModel.hpp l.250-259. -/
inductive CleanStep : St → St → Prop where
  /-- l.252. -/
  | lock (s : St) (h : s.cleaner = .want) (hm : s.mutex = none) :
      CleanStep s { s with cleaner := .check, mutex := some .cleaner }
  /-- l.253: nothing to do (buffer small enough, or flag already set). -/
  | skip (s : St) (h : s.cleaner = .check) :
      CleanStep s { s with cleaner := .idle, mutex := none }
  /-- l.253: request the cleanup. -/
  | request (s : St) (h : s.cleaner = .check) (hf : s.flag = false) :
      CleanStep s { s with cleaner := .test, flag := true }
  /-- l.254: requests running, wait. -/
  | wait (s : St) (h : s.cleaner = .test) (hr : s.running ≠ 0) :
      CleanStep s { s with cleaner := .blocked, mutex := none }
  /-- l.254-255. -/
  | go (s : St) (h : s.cleaner = .test) (hr : s.running = 0) :
      CleanStep s { s with cleaner := .cleaning }
  /-- re-lock after a wake-up. -/
  | relock (s : St) (h : s.cleaner = .rewant) (hm : s.mutex = none) :
      CleanStep s { s with cleaner := .test, mutex := some .cleaner }
  /-- l.255 done. -/
  | cleaned (s : St) (h : s.cleaner = .cleaning) :
      CleanStep s { s with cleaner := .reset }
  /-- l.256. -/
  | clear (s : St) (h : s.cleaner = .reset) :
      CleanStep s { s with cleaner := .notify, flag := false }
  /-- l.257. -/
  | notify (s : St) (h : s.cleaner = .notify) :
      CleanStep s { s with cleaner := .unlock, threads := s.threads.map wakeR }
  /-- l.258. -/
  | unlock (s : St) (h : s.cleaner = .unlock) :
      CleanStep s { s with cleaner := .idle, mutex := none }

/-- New work from outside, and spurious wake-ups.
Start of include/readout/models/DefaultRequestHandlerModel.hpp l.264 and l.410. -/
inductive EnvStep : St → St → Prop where
  | newRequest (s : St) (i : Nat) (h : s.threads[i]? = some .idle) :
      EnvStep s { s with threads := s.threads.set i .want }
  | newCheck (s : St) (h : s.cleaner = .idle) : EnvStep s { s with cleaner := .want }
  | spuriousR (s : St) (i : Nat) (h : s.threads[i]? = some .blocked) :
      EnvStep s { s with threads := s.threads.set i .want }
  | spuriousC (s : St) (h : s.cleaner = .blocked) : EnvStep s { s with cleaner := .rewant }

/-- A step the handler itself takes.
include/readout/models/DefaultRequestHandlerModel.hpp l.250-277. -/
def Own (s t : St) : Prop := ReqStep s t ∨ CleanStep s t

/-- Reachable states with `n` request threads.
All interleavings of include/readout/models/DefaultRequestHandlerModel.hpp l.250-277. -/
inductive Reach (n : Nat) : St → Prop where
  | init : Reach n (St.init n)
  | own (s t : St) (h : Reach n s) (st : Own s t) : Reach n t
  | env (s t : St) (h : Reach n s) (st : EnvStep s t) : Reach n t

end Verif.Protocol
