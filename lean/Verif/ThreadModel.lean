import Verif.Basic
/-
`ReusableThread`, include/readout/utils/ReusableThread.hpp: a worker thread (l.102-117) and one
controlling thread that calls `set_work` (l.76-85), `get_readiness` (l.72) and finally the destructor
(l.37-48). One step per access to an atomic variable, to `m_task`, or to the condition variable;
sequentially consistent accesses (all atomics use the default ordering).

The mutex is only ever locked by the worker itself (l.104); `notify_all` does not take it. A blocked
worker continues when notified, or spuriously (only if `sp` is true).
-/
namespace Verif.Thread

/-- Worker: next access to perform. ReusableThread.hpp l.102-117. -/
inductive WPc where
  | top                   -- l.106 read m_thread_quit
  | rdE                   -- l.107 read m_task_executed
  | rdA                   -- l.107 read m_task_assigned (m_task_executed was false)
  | exec                  -- l.108 about to call m_task
  | running (id : Nat)    -- l.108 inside the task
  | setE                  -- l.109
  | setA                  -- l.110
  | enter                 -- l.112 about to block
  | blocked (ntf : Bool)  -- l.112 blocked; notified?
  | fin                   -- l.116 about to set m_worker_done
  | exited
  deriving DecidableEq

/-- Controlling thread: next access to perform. ReusableThread.hpp l.37-48, 76-85. -/
inductive CPc where
  | idle
  | chk (id : Nat)        -- l.78 read m_task_assigned
  | xchg (id : Nat)       -- l.78 m_task_executed.exchange(false)
  | bind (id : Nat)       -- l.79
  | assign                -- l.80
  | notify                -- l.81
  | dWait                 -- l.39 read m_task_assigned
  | dQuit                 -- l.42
  | dLoop                 -- l.43 read m_worker_done
  | dNotify               -- l.45
  | destroyed             -- l.47 joined
  deriving DecidableEq

/-- Shared state and ghost logs: tasks accepted by `set_work`, tasks started, tasks finished; `last` is
the result of the last `set_work`. ReusableThread.hpp l.89-99. -/
structure St where
  executed : Bool
  assigned : Bool
  quit : Bool
  done : Bool
  task : Option Nat
  w : WPc
  c : CPc
  accepted : List Nat
  started : List Nat
  finished : List Nat
  last : Option Bool
  deriving DecidableEq

/-- Construction, l.28-35. -/
def init : St := ⟨true, false, false, false, none, .top, .idle, [], [], [], none⟩

/-- Effect of `notify_all` on the worker. ReusableThread.hpp l.45, 81. -/
def wake : WPc → WPc
  | .blocked _ => .blocked true
  | w => w

/-- One step of either thread; `sp` allows spurious wake-ups.
ReusableThread.hpp l.37-48, 76-85, 102-117. -/
inductive Step (sp : Bool) : St → St → Prop where
  -- worker
  | wTop (s : St) (h : s.w = .top) : Step sp s { s with w := if s.quit then .fin else .rdE }
  | wRdE (s : St) (h : s.w = .rdE) : Step sp s { s with w := if s.executed then .enter else .rdA }
  | wRdA (s : St) (h : s.w = .rdA) : Step sp s { s with w := if s.assigned then .exec else .enter }
  | wExec (s : St) (id : Nat) (h : s.w = .exec) (ht : s.task = some id) :
      Step sp s { s with w := .running id, started := s.started ++ [id] }
  | wReturn (s : St) (id : Nat) (h : s.w = .running id) :
      Step sp s { s with w := .setE, finished := s.finished ++ [id] }
  | wSetE (s : St) (h : s.w = .setE) : Step sp s { s with w := .setA, executed := true }
  | wSetA (s : St) (h : s.w = .setA) : Step sp s { s with w := .top, assigned := false }
  | wEnter (s : St) (h : s.w = .enter) : Step sp s { s with w := .blocked false }
  | wWake (s : St) (h : s.w = .blocked true) : Step sp s { s with w := .top }
  | wSpurious (s : St) (h : s.w = .blocked false) (hs : sp = true) : Step sp s { s with w := .top }
  | wFin (s : St) (h : s.w = .fin) : Step sp s { s with w := .exited, done := true }
  -- controlling thread
  | cCall (s : St) (id : Nat) (h : s.c = .idle) : Step sp s { s with c := .chk id }
  | cChk (s : St) (id : Nat) (h : s.c = .chk id) :
      Step sp s (if s.assigned then { s with c := .idle, last := some false } else { s with c := .xchg id })
  | cXchg (s : St) (id : Nat) (h : s.c = .xchg id) :
      Step sp s (if s.executed then
          { s with c := .bind id, executed := false, accepted := s.accepted ++ [id] }
        else { s with c := .idle, last := some false })
  | cBind (s : St) (id : Nat) (h : s.c = .bind id) : Step sp s { s with c := .assign, task := some id }
  | cAssign (s : St) (h : s.c = .assign) : Step sp s { s with c := .notify, assigned := true }
  | cNotify (s : St) (h : s.c = .notify) : Step sp s { s with c := .idle, w := wake s.w, last := some true }
  | cDestroy (s : St) (h : s.c = .idle) : Step sp s { s with c := .dWait }
  | cDWait (s : St) (h : s.c = .dWait) : Step sp s { s with c := if s.assigned then .dWait else .dQuit }
  | cDQuit (s : St) (h : s.c = .dQuit) : Step sp s { s with c := .dLoop, quit := true }
  | cDLoop (s : St) (h : s.c = .dLoop) : Step sp s { s with c := if s.done then .destroyed else .dNotify }
  | cDNotify (s : St) (h : s.c = .dNotify) : Step sp s { s with c := .dLoop, w := wake s.w }

/-- Reachable states. All interleavings of ReusableThread.hpp l.37-117. -/
inductive Reach (sp : Bool) : St → Prop where
  | init : Reach sp Thread.init
  | step (s s' : St) (h : Reach sp s) (st : Step sp s s') : Reach sp s'

/-- Steps of two concurrent callers of `set_work` (l.76-85) on one thread: the second one at `c2`. Its
accesses are those of the first one. -/
inductive Step2 : St × CPc → St × CPc → Prop where
  | one (s s' : St) (c : CPc) (h : Step false s s') : Step2 (s, c) (s', c)
  | two (s s' : St) (c : CPc) (h : Step false { s with c := c } s') :
      Step2 (s, c) ({ s' with c := s.c }, s'.c)

/-- Reachability with two callers. All interleavings of ReusableThread.hpp l.76-117. -/
inductive Reach2 : St × CPc → Prop where
  | init : Reach2 (Thread.init, .idle)
  | step (x y : St × CPc) (h : Reach2 x) (st : Step2 x y) : Reach2 y

end Verif.Thread
