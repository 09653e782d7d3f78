import Verif.Basic
/-
The consumer thread (`run_consume`, include/readout/models/ReadoutModel.hpp l.228-257), one
post-processing thread (include/readout/models/TaskRawDataProcessorModel.hpp l.99-106, 136-147), the
cleanup of the ring buffer and the stop sequence (ReadoutModel.hpp l.159-176, DataLinkHandler.cpp
l.90-97), interleaved step by step.

The ring buffer is abstracted to the list of stored payloads, oldest first, of bounded length (module
Ring proves the ring queue implements this, module Spsc proves the queue to the post-processing thread
is a bounded FIFO). Payloads are numbered in the order in which they are popped from the input. The
payload number is what a pointer to its slot stands for; whether the slot still holds it is `live`.
-/
namespace Verif.Consume

/-- Capacities of buffer and queue, and the number of payloads a cleanup always leaves behind.
Sizes from include/readout/models/ReadoutModel.hpp l.113-121 (conf) and include/readout/models/TaskRawDataProcessorModel.hpp l.50-57; `keep` abstracts include/readout/models/DefaultRequestHandlerModel.hpp l.421. -/
structure Cfg where
  cap : Nat
  qcap : Nat
  keep : Nat
  deriving DecidableEq

/-- Where the consumer is: before `pop`; after `preprocess_item`; after `write`; finished.
include/readout/models/ReadoutModel.hpp l.236-254. -/
inductive CPc where
  | idle | have_ (i : Nat) | wrote | done
  deriving DecidableEq

/-- Where the stop sequence is. include/readout/models/ReadoutModel.hpp l.159-176. -/
inductive SPc where
  | running | stopping | flushed | postStopped | stopped
  deriving DecidableEq

/-- Program counters, buffer, queue and observations.
Shared by include/readout/models/ReadoutModel.hpp l.228-257 and include/readout/models/TaskRawDataProcessorModel.hpp l.136-147. -/
structure St where
  c : CPc
  sp : SPc
  tDone : Bool                 -- post-processing thread has left its loop
  buf : List Nat
  q : List (Option Nat)        -- `none` is a null pointer
  popped : Nat                 -- payloads popped from the input so far
  pre : List Nat               -- payloads preprocessed
  stored : List Nat            -- ghost: payloads ever stored
  dropped : Nat                -- m_num_payloads_overwritten
  num : Nat                    -- m_sum_payloads
  accepted : List (Option Nat) -- ghost: everything the queue accepted
  lost : Nat                   -- warnings PostprocessingNotKeepingUp
  seen : List (Option Nat × Bool) -- invocations of the function: pointer, and whether it is live
  deriving DecidableEq

/-- After start (ReadoutModel.hpp l.137-156). -/
def init : St := ⟨.idle, .running, false, [], [], 0, [], [], 0, 0, [], 0, []⟩

/-- Is the payload behind a pointer stored?
Whether the slot of include/readout/models/IterableQueueModel.hpp l.406-419 still holds it. -/
def live (buf : List Nat) (p : Option Nat) : Bool :=
  match p with
  | none => false
  | some i => decide (i ∈ buf)

/-- l.245-250 after the write: `back()` goes to the post-processing queue, counters move. -/
def backStep (c : Cfg) (s : St) : St :=
  if s.q.length < c.qcap then
    { s with c := .idle, num := s.num + 1, q := s.q ++ [s.buf.getLast?],
             accepted := s.accepted ++ [s.buf.getLast?] }
  else { s with c := .idle, num := s.num + 1, lost := s.lost + 1 }

/-- Steps of all threads.
include/readout/models/ReadoutModel.hpp l.159-176, 228-257; include/readout/models/TaskRawDataProcessorModel.hpp l.76-84, 99-106, 136-147; include/readout/models/DefaultRequestHandlerModel.hpp l.415-438. -/
inductive Step (c : Cfg) : St → St → Prop where
  /-- consumer: pop and preprocess (l.241-242); possible while running or as long as input is left -/
  | pop (s : St) (h : s.c = .idle) :
      Step c s { s with c := .have_ s.popped, popped := s.popped + 1, pre := s.pre ++ [s.popped] }
  /-- consumer: write to the latency buffer (l.243-246) -/
  | write (s : St) (i : Nat) (h : s.c = .have_ i) :
      Step c s (if s.buf.length < c.cap then { s with c := .wrote, buf := s.buf ++ [i], stored := s.stored ++ [i] }
        else { s with c := .wrote, dropped := s.dropped + 1 })
  /-- consumer: postprocess_item(back()) (l.247-250) -/
  | back (s : St) (h : s.c = .wrote) : Step c s (backStep c s)
  /-- consumer leaves its loop after the run marker was cleared (l.236) -/
  | leave (s : St) (h : s.c = .idle) (hs : s.sp = .stopping) : Step c s { s with c := .done }
  /-- cleanup removes the oldest `n` payloads (DefaultRequestHandlerModel.hpp l.415-438); it no longer
  runs once the stop sequence went past the request handler -/
  | clean (s : St) (n : Nat) (h : n + c.keep ≤ s.buf.length) (hs : s.sp = .running) :
      Step c s { s with buf := s.buf.drop n }
  /-- post-processing thread takes one pointer and invokes the function (TaskRawDataProcessorModel.hpp
  l.140-142) -/
  | post (s : St) (p : Option Nat) (q : List (Option Nat)) (h : s.q = p :: q) (ht : s.tDone = false) :
      Step c s { s with q := q, seen := s.seen ++ [(p, live s.buf p)] }
  /-- post-processing thread leaves its loop: marker cleared and queue empty (l.139) -/
  | postLeave (s : St) (h : s.q = []) (hs : s.sp = .postStopped) (ht : s.tDone = false) :
      Step c s { s with tDone := true }
  /-- stop command: run marker cleared (DataLinkHandler.cpp l.93), request handler stopped (ReadoutModel.hpp l.162) -/
  | stop (s : St) (hs : s.sp = .running) : Step c s { s with sp := .stopping }
  /-- consumer has ended (ReadoutModel.hpp l.166-168): the latency buffer is flushed (l.173) -/
  | flush (s : St) (hs : s.sp = .stopping) (h : s.c = .done) : Step c s { s with sp := .flushed, buf := [] }
  /-- the raw processor's run marker is cleared (ReadoutModel.hpp l.174; TaskRawDataProcessorModel.hpp l.80) -/
  | postStop (s : St) (hs : s.sp = .flushed) : Step c s { s with sp := .postStopped }
  /-- stop returns after the post-processing thread ended (TaskRawDataProcessorModel.hpp l.81-85) -/
  | ret (s : St) (hs : s.sp = .postStopped) (ht : s.tDone = true) : Step c s { s with sp := .stopped }

/-- Reachable states.
All interleavings of the steps above (no counterpart in one place of the code; start is include/readout/models/ReadoutModel.hpp l.135-157). -/
inductive Reach (c : Cfg) : St → Prop where
  | init : Reach c Consume.init
  | step (s s' : St) (h : Reach c s) (st : Step c s s') : Reach c s'

/-- The vectors of the raw data processor (TaskRawDataProcessorModel.hpp l.155-157): registered functions
(by kind) and number of queues; function `i` reads queue `i`. -/
structure Tasks where
  fns : List Nat
  queues : Nat
  deriving DecidableEq

/-- `conf` of the WIB processor (src/wib/WIBFrameProcessor.hpp l.230-236 registers its post-processing
function `f` when the software TPG is enabled, then TaskRawDataProcessorModel.hpp l.54-58). -/
def confTask (f : Nat) (t : Tasks) : Tasks :=
  let fns := t.fns ++ [f]
  ⟨fns, t.queues + fns.length⟩

/-- `n` successive conf commands. Repeated include/readout/models/ReadoutModel.hpp l.103-133. -/
def confs (f : Nat) : Nat → Tasks
  | 0 => ⟨[], 0⟩
  | n + 1 => confTask f (confs f n)

/-- Functions invoked for one payload when all threads keep up (l.99-106: the pointer goes to every
queue; l.69-74: queue `i` is read by function `i`). -/
def invoked (t : Tasks) : List Nat := t.fns.take t.queues

/-- Queues that are filled but never read.
Queues of include/readout/models/TaskRawDataProcessorModel.hpp l.54-58 for which l.69-74 starts no thread. -/
def unread (t : Tasks) : Nat := t.queues - t.fns.length

end Verif.Consume
