import Verif.Basic
/-
Resources of the hit finding in software over configurations and runs: constructor, destructor, `start`, `stop`,
`conf` and the beginning of `find_collection_hits` of `WIBFrameProcessor` (src/wib/WIBFrameProcessor.hpp l.61-90,
92-197, 215-238, 369-396) with `conf`, `start`, `stop`, `postprocess_item` and the post-processing threads of
`TaskRawDataProcessorModel` (include/readout/models/TaskRawDataProcessorModel.hpp l.47-86, 99-119, 136-147).

Four buffers are allocated and released by hand; the hit finder keeps pointers to them in its parameter block. What
the hit finder computes is in `Tpg*`, `LinkTp*`, `TpRuns*`; here a call of it only uses its resources.

Simplified: the post-processing functions search a payload one after the other and before the next event (with
several functions the code races, C61); pointer queues are only counted (their contents: `TpRuns*`); allocation
succeeds; of the configuration only `enable_software_tpg` and a number standing for the settings of the TP handler
are kept.
-/
namespace Verif.TpgLife

/-- Commands, and a payload given to the post-processing functions. ReadoutModel.hpp l.103-176, 247. -/
inductive Ev where
  | conf (tpg : Bool) (settings : Nat)
  | start
  | payload
  | stop
  deriving DecidableEq, Repr

/-- Heap blocks: those allocated and not released, and the next to be allocated. WIBFrameProcessor.hpp l.105. -/
structure Heap where
  live : List Nat
  next : Nat
  deriving DecidableEq, Repr

/-- The processor. `enabled`: m_sw_tpg_enabled; `fns`: m_post_process_functions and m_post_process_threads;
`queues`: m_items_to_postprocess_queues; `handler`: m_tphandler with its settings; `ind`: number of items in
m_induction_items_to_process; the four buffers; `collPi`, `indPi`: destination and taps in the parameter blocks;
`busy`: threads running `run_post_processing_thread`; `searches` (ghost): settings used by each call of
`find_collection_hits`. WIBFrameProcessor.hpp l.522-591, TaskRawDataProcessorModel.hpp l.154-156. -/
structure St where
  enabled : Bool
  fns : Nat
  queues : Nat
  handler : Option Nat
  ind : Option Nat
  heap : Heap
  collTaps : Option Nat
  indTaps : Option Nat
  collDest : Option Nat
  indDest : Option Nat
  collPi : Option (Nat × Nat)
  indPi : Option (Nat × Nat)
  busy : Nat
  searches : List Nat
  deriving DecidableEq, Repr

/-- The constructor, WIBFrameProcessor.hpp l.61-74. -/
def St.init : St := ⟨false, 0, 0, none, none, ⟨[], 0⟩, none, none, none, none, none, none, 0, []⟩

/-- Slots of the queue of induction items, WIBFrameProcessor.hpp l.230; one stays free
(IterableQueueModel.hpp l.236-247). -/
def indSlots : Nat := 200000

/-- `if (p == nullptr) p = new …`, WIBFrameProcessor.hpp l.104-106, 111-113, 119-124. -/
def alloc (h : Heap) : Option Nat → Heap × Nat
  | some p => (h, p)
  | none => (⟨h.next :: h.live, h.next + 1⟩, h.next)

/-- Access to a block, WIBFrameProcessor.hpp l.107-109, 114-116, 395, 401. -/
def use (h : Heap) (p : Nat) : Outcome Unit := if p ∈ h.live then .ok () else .ub .danglingBlock

/-- `if (p) { delete[] p; p = nullptr; }`, WIBFrameProcessor.hpp l.78-89, 180-195. -/
def release (h : Heap) : Option Nat → Outcome Heap
  | none => .ok h
  | some p => if p ∈ h.live then .ok { h with live := h.live.erase p } else .ub .badFree

/-- `conf`, WIBFrameProcessor.hpp l.215-238 and TaskRawDataProcessorModel.hpp l.47-63. `sinks`: both output queues
are connected (WIBFrameProcessor.hpp l.203-208), otherwise a null pointer is dereferenced (WIBFrameProcessor.hpp l.227). The TP handler and the queue of
induction items are replaced, which the threads at work may be using. One more queue for every function
registered so far (TaskRawDataProcessorModel.hpp l.54-58). -/
def confCmd (sinks : Bool) (s : St) (tpg : Bool) (settings : Nat) : Outcome St :=
  if tpg then
    if sinks then
      if s.busy = 0 then
        .ok { s with enabled := true, handler := some settings, ind := some 0, fns := s.fns + 1,
                     queues := s.queues + (s.fns + 1) }
      else .ub .danglingBlock
    else .ub .nullDeref
  else .ok { s with queues := s.queues + s.fns }

/-- `start`, WIBFrameProcessor.hpp l.92-173, TaskRawDataProcessorModel.hpp l.65-76. The parameter blocks are
replaced, which the threads at work may be using. -/
def startCmd (s : St) : Outcome St :=
  if s.enabled then
    match s.handler with
    | none => .ub .nullDeref
    | some _ => do
      let (h1, ct) := alloc s.heap s.collTaps
      use h1 ct
      let (h2, it) := alloc h1 s.indTaps
      use h2 it
      let (h3, cd) := alloc h2 s.collDest
      let (h4, id) := alloc h3 s.indDest
      if s.busy = 0 then
        .ok { s with heap := h4, collTaps := some ct, indTaps := some it, collDest := some cd, indDest := some id,
                     collPi := some (cd, ct), indPi := some (id, it), busy := s.fns }
      else .ub .danglingBlock
  else .ok { s with busy := s.fns }

/-- `stop`, WIBFrameProcessor.hpp l.175-197, TaskRawDataProcessorModel.hpp l.78-86. -/
def stopCmd (s : St) : Outcome St :=
  if s.enabled then do
    let h1 ← release s.heap s.collTaps
    let h2 ← release h1 s.collDest
    let h3 ← release h2 s.indTaps
    let h4 ← release h3 s.indDest
    .ok { s with heap := h4, collTaps := none, collDest := none, indTaps := none, indDest := none, busy := 0 }
  else .ok { s with busy := 0 }

/-- One call of `find_collection_hits`, WIBFrameProcessor.hpp l.369-396, 478, 504: the induction samples are
offered to their queue, whose refusal is ignored (l.382); the hits are written to and read from the
destination. -/
def search (s : St) : Outcome St :=
  match s.ind, s.collPi, s.collDest, s.handler with
  | some n, some (d, t), some d', some c => do
    use s.heap d'
    use s.heap d
    use s.heap t
    .ok { s with ind := some (if n + 1 < indSlots then n + 1 else n), searches := s.searches ++ [c] }
  | _, _, _, _ => .ub .nullDeref

/-- A payload is searched by every thread at work. TaskRawDataProcessorModel.hpp l.99-106, 136-147. -/
def searchAll : Nat → St → Outcome St
  | 0, s => .ok s
  | n + 1, s => do searchAll n (← search s)

/-- One event. ReadoutModel.hpp l.103-176, 247. -/
def step (sinks : Bool) (s : St) : Ev → Outcome St
  | .conf tpg settings => confCmd sinks s tpg settings
  | .start => startCmd s
  | .payload => searchAll s.busy s
  | .stop => stopCmd s

/-- A sequence of events; it ends with the first that has undefined behaviour. ReadoutModel.hpp l.103-176. -/
def run (sinks : Bool) : St → List Ev → Outcome St
  | s, [] => .ok s
  | s, e :: es => do run sinks (← step sinks s e) es

/-- The destructor, WIBFrameProcessor.hpp l.76-90; result: blocks never released. -/
def destroy (s : St) : Outcome (List Nat) := do
  let h1 ← release s.heap s.collTaps
  let h2 ← release h1 s.collDest
  let h3 ← release h2 s.indTaps
  let h4 ← release h3 s.indDest
  .ok h4.live

/-- Pointer queues no thread reads: every thread reads one (TaskRawDataProcessorModel.hpp l.70-75). -/
def unread (s : St) : Nat := s.queues - s.fns

end Verif.TpgLife
