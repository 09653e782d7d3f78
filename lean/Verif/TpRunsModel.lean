import Verif.LinkTpModel
/-
A link with a post-processing function over many runs: the consumer thread (`run_consume`,
include/readout/models/ReadoutModel.hpp l.228-257), the post-processing thread
(include/readout/models/TaskRawDataProcessorModel.hpp l.99-106, 136-147), the cleanup thread
(include/readout/models/DefaultRequestHandlerModel.hpp l.407-438) and the start and stop commands
(ReadoutModel.hpp l.135-176), interleaved step by step, with the memory of the latency buffer.

Other than in the module Consume, a pointer is the number of a slot, and what the function sees is what the slot
holds while the function runs: if the slot is written meanwhile, anything at all. Payloads are written to the
buffer in two steps, in between the slot holds anything.

Simplifications: the ring buffer is given by the numbers of payloads ever written and removed (module Ring proves
that the ring queue implements this; payload number `k` is in slot `k % n`); the queue of pointers is a bounded FIFO
(module Spsc). One post-processing function, that is one conf command (C61). Recording (which only holds cleanups
back) is left out.
-/
namespace Verif.TpRuns

/-- Sizes and settings. `n`: slots of the buffer; `qcap`: capacity of the pointer queue
(TaskRawDataProcessorModel.hpp l.55-56); `limit`: m_pop_limit_size, `pop`: the number of payloads to remove for an
occupancy (DefaultRequestHandlerModel.hpp l.419-421). -/
structure Cfg where
  n : Nat
  qcap : Nat
  limit : Nat
  pop : Nat → Nat

/-- Where the consumer is: waiting for a payload; with one in hand; writing it; after the write; finished.
ReadoutModel.hpp l.236-254. -/
inductive CPc (P : Type) where
  | idle | have_ (p : P) | writing (p : P) | wrote | done

/-- Where the commands are. ReadoutModel.hpp l.135-176. -/
inductive Ph where
  | idle | running | stopping | flushed | postStopped
  deriving DecidableEq

/-- A finished run: what was received, the inputs other than payloads of each call of the function, the state of
the function at the beginning and at the end, and the two kinds of loss (ghost; ReadoutModel.hpp l.245,
TaskRawDataProcessorModel.hpp l.103). -/
structure Ended (P σ ι : Type) where
  recv : List P
  used : List ι
  tp0 : σ
  tp : σ
  refused : Nat
  lost : Nat

/-- State of the link. ReadoutModel.hpp l.348-395, TaskRawDataProcessorModel.hpp l.149-165. -/
structure St (P σ ι : Type) where
  ph : Ph
  c : CPc P
  mem : Nat → P                    -- contents of the slots
  w : Nat                          -- payloads ever written to the buffer
  r : Nat                          -- payloads ever removed from it
  cl : Option Nat                  -- cleanup in progress: how many it may still remove
  q : List (Option Nat)            -- pointers to slots, `none` is null
  hand : Option (Option Nat × Bool) -- pointer being processed; whether the slot was written meanwhile
  tDone : Bool                     -- the post-processing thread has left its loop
  tp : σ                           -- state of the post-processing function
  refused : Nat                    -- m_num_payloads_overwritten
  lost : Nat                       -- warnings PostprocessingNotKeepingUp
  w0 : Nat                         -- ghost: `w` when the run started
  recv : List P                    -- ghost: payloads of the run
  used : List ι                    -- ghost: other inputs of the calls of the run
  tp0 : σ                          -- ghost: state of the function when the run started
  ended : List (Ended P σ ι)       -- ghost: finished runs

variable {P σ ι : Type}

/-- After `conf`. ReadoutModel.hpp l.103-133. -/
def St.init (mem : Nat → P) (tp : σ) : St P σ ι :=
  ⟨.idle, .done, mem, 0, 0, none, [], none, true, tp, 0, 0, 0, [], [], tp, []⟩

/-- A write to a slot, seen by a function working on it. IterableQueueModel.hpp l.230-248. -/
def touch (h : Option (Option Nat × Bool)) (slot : Nat) : Option (Option Nat × Bool) :=
  h.map fun x => (x.1, x.2 || decide (x.1 = some slot))

/-- A slot gets a value. IterableQueueModel.hpp l.230-248. -/
def store (mem : Nat → P) (slot : Nat) (p : P) : Nat → P := fun i => if i = slot then p else mem i

/-- `start`, ReadoutModel.hpp l.135-157: counters are reset, the processor is set up anew (WIBFrameProcessor.hpp
l.91-173: state `tp`), threads start. Buffer and pointer queue are left as they are. -/
def startCmd (s : St P σ ι) (tp : σ) : St P σ ι :=
  { s with ph := .running, c := .idle, tDone := false, tp := tp, refused := 0, lost := 0,
           w0 := s.w, recv := [], used := [], tp0 := tp }

/-- A payload arrives, ReadoutModel.hpp l.241-242. -/
def arrive (s : St P σ ι) (p : P) : St P σ ι := { s with c := .have_ p, recv := s.recv ++ [p] }

/-- The write begins, or finds the buffer full: l.243-246, IterableQueueModel.hpp l.230-248 (one slot stays
free). `g` is what the slot holds half written. -/
def beginWrite (c : Cfg) (s : St P σ ι) (p g : P) : St P σ ι :=
  if s.w - s.r < c.n - 1 then
    { s with c := .writing p, mem := store s.mem (s.w % c.n) g, hand := touch s.hand (s.w % c.n) }
  else { s with c := .wrote, refused := s.refused + 1 }

/-- The write ends. IterableQueueModel.hpp l.236-241. -/
def endWrite (c : Cfg) (s : St P σ ι) (p : P) : St P σ ι :=
  { s with c := .wrote, mem := store s.mem (s.w % c.n) p, hand := touch s.hand (s.w % c.n), w := s.w + 1 }

/-- `back()`: the slot of the newest payload, or null. IterableQueueModel.hpp l.406-419. -/
def back (c : Cfg) (s : St P σ ι) : Option Nat := if s.w = s.r then none else some ((s.w - 1) % c.n)

/-- `postprocess_item(back())`, ReadoutModel.hpp l.247; TaskRawDataProcessorModel.hpp l.99-106. -/
def postBack (c : Cfg) (s : St P σ ι) : St P σ ι :=
  if s.q.length < c.qcap then { s with c := .idle, q := s.q ++ [back c s] }
  else { s with c := .idle, lost := s.lost + 1 }

/-- The call of the function returns with the new state `t`, having used the inputs `i`.
TaskRawDataProcessorModel.hpp l.142. -/
def called (s : St P σ ι) (t : σ) (i : ι) : St P σ ι :=
  { s with hand := none, tp := t, used := s.used ++ [i] }

/-- `stop` returns, ReadoutModel.hpp l.174-175. -/
def stopped (s : St P σ ι) : St P σ ι :=
  { s with ph := .idle, ended := s.ended ++ [⟨s.recv, s.used, s.tp0, s.tp, s.refused, s.lost⟩] }

/-- Steps of all threads and commands, for a function `f` of payload and other inputs and its possible states
`start` at the beginning of a run. ReadoutModel.hpp l.135-176, 228-257; TaskRawDataProcessorModel.hpp l.63-84,
99-106, 136-147; DefaultRequestHandlerModel.hpp l.407-438. -/
inductive Step (c : Cfg) (start : σ → Prop) (f : σ → P → ι → Outcome σ) : St P σ ι → St P σ ι → Prop where
  | start (s : St P σ ι) (tp : σ) (h : s.ph = .idle) (ht : start tp) : Step c start f s (startCmd s tp)
  /-- consumer: l.241-242; possible while running or as long as input is left -/
  | arrive (s : St P σ ι) (p : P) (h : s.c = .idle) : Step c start f s (arrive s p)
  | beginWrite (s : St P σ ι) (p g : P) (h : s.c = .have_ p) : Step c start f s (beginWrite c s p g)
  | endWrite (s : St P σ ι) (p : P) (h : s.c = .writing p) : Step c start f s (endWrite c s p)
  | postBack (s : St P σ ι) (h : s.c = .wrote) : Step c start f s (postBack c s)
  /-- consumer leaves its loop after the run marker was cleared (l.236) -/
  | leave (s : St P σ ι) (h : s.c = .idle) (hs : s.ph = .stopping) : Step c start f s { s with c := .done }
  /-- cleanup begins: occupancy `o` over the limit (DefaultRequestHandlerModel.hpp l.250-258, 419-421) -/
  | cleanBegin (s : St P σ ι) (h : s.ph = .running ∨ s.ph = .stopping) (hc : s.cl = none)
      (hl : c.limit < s.w - s.r) : Step c start f s { s with cl := some (c.pop (s.w - s.r)) }
  /-- cleanup removes the oldest payload (l.424-430) -/
  | cleanPop (s : St P σ ι) (b : Nat) (hc : s.cl = some (b + 1)) :
      Step c start f s { s with cl := some b, r := s.r + 1 }
  /-- cleanup ends (l.432-437), also early (l.425-427) -/
  | cleanEnd (s : St P σ ι) (b : Nat) (hc : s.cl = some b) : Step c start f s { s with cl := none }
  /-- post-processing thread takes a pointer (TaskRawDataProcessorModel.hpp l.140-141) -/
  | take (s : St P σ ι) (x : Option Nat) (q : List (Option Nat)) (hd : s.tDone = false) (hh : s.hand = none)
      (h : s.q = x :: q) : Step c start f s { s with q := q, hand := some (x, false) }
  /-- the function returns at once for a null pointer (WIBFrameProcessor.hpp l.371-372) -/
  | callNull (s : St P σ ι) (d : Bool) (hh : s.hand = some (none, d)) : Step c start f s { s with hand := none }
  /-- the function has worked on the contents `v` of the slot -/
  | call (s : St P σ ι) (slot : Nat) (d : Bool) (v : P) (i : ι) (t : σ) (hh : s.hand = some (some slot, d))
      (hv : d = false → v = s.mem slot) (he : f s.tp v i = .ok t) : Step c start f s (called s t i)
  /-- post-processing thread leaves its loop: marker cleared and queue empty (l.139) -/
  | postLeave (s : St P σ ι) (hq : s.q = []) (hh : s.hand = none) (hs : s.ph = .postStopped) :
      Step c start f s { s with tDone := true }
  /-- stop command: run markers cleared (DataLinkHandler.cpp l.93) -/
  | stop (s : St P σ ι) (hs : s.ph = .running) : Step c start f s { s with ph := .stopping }
  /-- the cleanup thread and the consumer have ended (DefaultRequestHandlerModel.hpp l.177-179, ReadoutModel.hpp
  l.166-168): the buffer is flushed (l.173) -/
  | flush (s : St P σ ι) (hs : s.ph = .stopping) (hc : s.c = .done) (hl : s.cl = none) :
      Step c start f s { s with ph := .flushed, r := s.w }
  /-- the processor's run marker is cleared (ReadoutModel.hpp l.174; TaskRawDataProcessorModel.hpp l.78) -/
  | postStop (s : St P σ ι) (hs : s.ph = .flushed) : Step c start f s { s with ph := .postStopped }
  /-- stop returns after the post-processing thread ended (TaskRawDataProcessorModel.hpp l.79-83) -/
  | ret (s : St P σ ι) (hs : s.ph = .postStopped) (ht : s.tDone = true) : Step c start f s (stopped s)

/-- Reachable states. All interleavings of the steps above, from `conf` on (ReadoutModel.hpp l.103-176). -/
inductive Reach (c : Cfg) (start : σ → Prop) (f : σ → P → ι → Outcome σ) : St P σ ι → Prop where
  | init (mem : Nat → P) (tp : σ) : Reach c start f (.init mem tp)
  | step (s s' : St P σ ι) (h : Reach c start f s) (st : Step c start f s s') : Reach c start f s'

/-! ### The software trigger primitives of a WIB link -/

/-- Inputs of a call other than the payload: contents of the uninitialised registers, what the output queues do,
and the eight bytes behind the slot, which are read as well (C67). WIBFrameProcessor.hpp l.377-381, 503. -/
structure Aside where
  junk : Nat → Expand.V
  push : TpChain.Push
  behind : Nat → Nat

/-- A slot with the bytes behind it. WIBFrameProcessor.hpp l.369. -/
def slotMem (v behind : Nat → Nat) : Expand.Mem := ⟨5576, fun i => if i < 5568 then v i else behind i % 256⟩

/-- `find_collection_hits` on the bytes `v` of a superchunk, WIBFrameProcessor.hpp l.369-504. `stamp` decodes the
timestamp of the first frame header. -/
def findCollectionHits (taps : Nat → Int)
    (pick : List TpChain.TrigPrim → Option (TpChain.TrigPrim × List TpChain.TrigPrim)) (c : TpHandler.Cfg)
    (stamp : (Nat → Nat) → Nat) (s : LinkTp.St) (v : Nat → Nat) (i : Aside) : Outcome LinkTp.St :=
  LinkTp.superchunk taps pick c (slotMem v i.behind) (fun _ => stamp v) s 0 i.junk i.push

/-- The states at the start of a run, WIBFrameProcessor.hpp l.91-173. -/
def fresh (s : LinkTp.St) : Prop := ∃ old, old.length = Tpg.bufEntries ∧ s = LinkTp.atStart old

end Verif.TpRuns
