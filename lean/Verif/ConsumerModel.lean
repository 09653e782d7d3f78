import Verif.Basic
/-
The consumer modules at the end of a queue (plugins/DummyConsumer.cpp, FragmentConsumer.cpp,
ErroredFrameConsumer.cpp, TimeSyncConsumer.cpp): start, stop, the work loop and the reported number. The work
thread is the reusable thread of C43/C44. What the derived modules do with a packet only reaches the log (the
validation of FragmentConsumer.cpp l.40 returns at once, see module Valid; the error count of ErroredFrameConsumer.cpp l.42 starts
from uninitialised memory and is never reported).
-/
namespace Verif.Consumer

/-- State of the module and its work thread: idle, in the loop, or holding a packet between the pop and the
counting. plugins/DummyConsumer.cpp l.73-87. -/
inductive Thread (P : Type)
  | idle
  | loop
  | holding (p : P)
  | seen (p : P)

/-- plugins/DummyConsumer.hpp l.50-58. Ghosts: `pushed`, everything ever put into the queue; `handed`, what was given to
the callback, with the run; `run`, the number of starts. -/
structure St (P : Type) where
  marker : Bool
  started : Bool
  thread : Thread P
  queue : List P
  count : Int
  run : Nat
  pushed : List P
  handed : List (Nat × P)

/-- plugins/DummyConsumer.cpp l.25-31. -/
def St.init (P : Type) : St P := ⟨false, false, .idle, [], 0, 0, [], []⟩

/-- Increment of a 32-bit signed atomic (l.82): wraps around. -/
def inc32 (c : Int) : Int := if c = 2147483647 then -2147483648 else c + 1

/-- Steps of the module, its thread and the producer. -/
inductive Step {P : Type} : St P → St P → Prop where
  /-- The producer. -/
  | push (s : St P) (p : P) : Step s { s with queue := s.queue ++ [p], pushed := s.pushed ++ [p] }
  /-- `do_start`, l.54-60. -/
  | start (s : St P) (h : s.started = false) :
      Step s { s with started := true, marker := true, count := 0, run := s.run + 1, thread := .loop }
  /-- l.77-79: the thread pops a packet while the run marker is set. -/
  | pop (s : St P) (p : P) (rest : List P) (h : s.thread = .loop) (hm : s.marker = true) (hq : s.queue = p :: rest) :
      Step s { s with thread := .holding p, queue := rest }
  /-- The marker was read as set before it was cleared, and the pop succeeds afterwards. -/
  | popLate (s : St P) (p : P) (rest : List P) (h : s.thread = .loop) (hm : s.marker = false)
      (hs : s.started = true) (hq : s.queue = p :: rest) :
      Step s { s with thread := .holding p, queue := rest }
  /-- l.80: the callback. -/
  | callback (s : St P) (p : P) (h : s.thread = .holding p) :
      Step s { s with thread := .seen p, handed := s.handed ++ [(s.run, p)] }
  /-- l.81: the count. -/
  | count (s : St P) (p : P) (h : s.thread = .seen p) : Step s { s with thread := .loop, count := inc32 s.count }
  /-- `do_stop` clears the marker, l.66. -/
  | clear (s : St P) (h : s.started = true) (hm : s.marker = true) : Step s { s with marker := false }
  /-- l.77: the thread leaves its loop. -/
  | leave (s : St P) (h : s.thread = .loop) (hm : s.marker = false) : Step s { s with thread := .idle }
  /-- l.67-69: `do_stop` saw the thread ready and returns. -/
  | stopped (s : St P) (h : s.started = true) (hm : s.marker = false) (ht : s.thread = .idle) :
      Step s { s with started := false }

/-- Reachable states. plugins/DummyConsumer.cpp l.54-87. -/
inductive Reach {P : Type} : St P → Prop where
  | init : Reach (St.init P)
  | step (s s' : St P) (h : Reach s) (st : Step s s') : Reach s'

end Verif.Consumer
