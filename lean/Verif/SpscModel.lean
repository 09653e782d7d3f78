import Verif.RingModel
/-
Concurrent model of `IterableQueueModel` (include/readout/models/IterableQueueModel.hpp):
one producer thread in `write` (l.230-248), one consumer thread in `read` (l.251-267) or
`popFront` (l.270-282), interleaved at the granularity of single atomic accesses and
single element accesses.

Memory model: every atomic index is represented by its modification order (the list of
values ever stored). A thread's load of the *other* thread's index may return any value at
or after the last one it has observed (per-location coherence, so stale reads are allowed);
a thread's load of its *own* index returns its last store. Element memory is plain; the
theorems show the two threads never access the same slot concurrently, so plain accesses see
the latest value (release/acquire publication of l.238-240, 254, 265).

Simplification: `popFront` in the consumer is only entered after the consumer has observed a
non-empty buffer (documented precondition, l.269).
-/
namespace Verif.Spsc
open Verif.Ring (nextIdx)

/-- Producer program counter within `write(v)`.
include/readout/models/IterableQueueModel.hpp l.230-248. -/
inductive PPc (α : Type u) where
  | idle
  | gotW (v : α) (cw : Nat)          -- after l.232: own write index loaded
  | toConstruct (v : α) (cw : Nat)   -- after l.238: not full, about to construct (l.239)
  | toStore (v : α) (next : Nat)     -- after l.239: about to publish (l.240)

/-- Consumer program counter within `read` (`keep = true`) or `popFront` (`keep = false`).
include/readout/models/IterableQueueModel.hpp l.251-282. -/
inductive CPc (α : Type u) where
  | idle
  | gotR (keep : Bool) (cr : Nat)                    -- after l.253 / 272
  | toMove (cr : Nat)                                -- after l.254: about to move out (l.263)
  | toDestroy (keep : Bool) (cr : Nat)               -- about to destroy (l.264 / 280)
  | toStore (keep : Bool) (next : Nat) (a : α)       -- about to publish (l.265 / 281)

/-- Shared memory, thread states and ghost histories.
include/readout/models/IterableQueueModel.hpp l.513-518. -/
structure St (α : Type u) where
  slots : Nat → Option α
  wrHist : List Nat        -- modification order of writeIndex_
  rdHist : List Nat        -- modification order of readIndex_
  seenW : Nat              -- newest position of wrHist observed by the consumer
  seenR : Nat              -- newest position of rdHist observed by the producer
  p : PPc α
  c : CPc α
  moved : Option α         -- value held by the consumer between l.263 and l.265
  committed : List α       -- ghost: values of successful writes, in order
  removed : List α         -- ghost: values removed, in order
  delivered : List α       -- values returned to the caller of read, in order
  rejected : Nat

/-- Fresh buffer, IterableQueueModel.hpp l.92-120. -/
def St.init (α : Type u) : St α where
  slots := fun _ => none
  wrHist := [0]
  rdHist := [0]
  seenW := 0
  seenR := 0
  p := .idle
  c := .idle
  moved := none
  committed := []
  removed := []
  delivered := []
  rejected := 0

/-- One atomic step of either thread on a buffer of size `n`.
include/readout/models/IterableQueueModel.hpp l.230-282. -/
inductive Step {α : Type u} (n : Nat) : St α → St α → Prop where
  /-- l.232: load own write index. -/
  | pLoadW (s : St α) (v : α) (cw : Nat) (h : s.p = .idle) (hl : s.wrHist.getLast? = some cw) :
      Step n s { s with p := .gotW v cw }
  /-- l.233-238: load the read index (possibly stale), not full. -/
  | pLoadRFree (s : St α) (v : α) (cw j r : Nat) (h : s.p = .gotW v cw) (hj : s.seenR ≤ j)
      (hr : s.rdHist[j]? = some r) (hne : nextIdx n cw ≠ r) :
      Step n s { s with p := .toConstruct v cw, seenR := j }
  /-- l.238, 245-247: full, reject. -/
  | pLoadRFull (s : St α) (v : α) (cw j r : Nat) (h : s.p = .gotW v cw) (hj : s.seenR ≤ j)
      (hr : s.rdHist[j]? = some r) (he : nextIdx n cw = r) :
      Step n s { s with p := .idle, seenR := j, rejected := s.rejected + 1 }
  /-- l.239: placement new. -/
  | pConstruct (s : St α) (v : α) (cw : Nat) (h : s.p = .toConstruct v cw) :
      Step n s { s with p := .toStore v (nextIdx n cw),
                        slots := fun i => if i = cw then some v else s.slots i }
  /-- l.240: publish. -/
  | pStore (s : St α) (v : α) (next : Nat) (h : s.p = .toStore v next) :
      Step n s { s with p := .idle, wrHist := s.wrHist ++ [next],
                        committed := s.committed ++ [v] }
  /-- l.253 / l.272: load own read index. -/
  | cLoadR (s : St α) (keep : Bool) (cr : Nat) (h : s.c = .idle)
      (hl : s.rdHist.getLast? = some cr) :
      Step n s { s with c := .gotR keep cr }
  /-- l.254-257: empty (also the untaken branch of popFront's precondition). -/
  | cLoadWEmpty (s : St α) (keep : Bool) (cr j : Nat) (h : s.c = .gotR keep cr)
      (hj : s.seenW ≤ j) (hw : s.wrHist[j]? = some cr) :
      Step n s { s with c := .idle, seenW := j }
  /-- l.254: not empty; `read` goes on to move, `popFront` to destroy. -/
  | cLoadWFull (s : St α) (keep : Bool) (cr j w : Nat) (h : s.c = .gotR keep cr)
      (hj : s.seenW ≤ j) (hw : s.wrHist[j]? = some w) (hne : cr ≠ w) :
      Step n s { s with c := if keep then .toMove cr else .toDestroy false cr, seenW := j }
  /-- l.263: move the element out. -/
  | cMove (s : St α) (cr : Nat) (a : α) (h : s.c = .toMove cr) (hs : s.slots cr = some a) :
      Step n s { s with c := .toDestroy true cr, moved := some a }
  /-- l.264 / l.280: destroy. -/
  | cDestroy (s : St α) (keep : Bool) (cr : Nat) (a : α) (h : s.c = .toDestroy keep cr)
      (hs : s.slots cr = some a) :
      Step n s { s with c := .toStore keep (nextIdx n cr) a,
                        slots := fun i => if i = cr then none else s.slots i }
  /-- l.265 / l.281: publish; `read` returns the moved value. -/
  | cStore (s : St α) (keep : Bool) (next : Nat) (a : α) (h : s.c = .toStore keep next a) :
      Step n s { s with c := .idle, rdHist := s.rdHist ++ [next],
                        removed := s.removed ++ [a], moved := none,
                        delivered := if keep then s.delivered ++ s.moved.toList
                                     else s.delivered }

/-- States reachable in any interleaving.
All interleavings of include/readout/models/IterableQueueModel.hpp l.230-282. -/
inductive Reach {α : Type u} (n : Nat) : St α → Prop where
  | init : Reach n (St.init α)
  | step (s t : St α) (h : Reach n s) (st : Step n s t) : Reach n t

/-- The next element access of some thread is illegal: construction outside the block or over
a live object, or use/destruction of a slot that holds no live object.
Accesses of include/readout/models/IterableQueueModel.hpp l.239, 263-264, 280. -/
def Fault {α : Type u} (n : Nat) (s : St α) : Prop :=
  (∃ v cw, s.p = .toConstruct v cw ∧ (n ≤ cw ∨ s.slots cw ≠ none)) ∨
  (∃ cr, s.c = .toMove cr ∧ (n ≤ cr ∨ s.slots cr = none)) ∨
  (∃ k cr, s.c = .toDestroy k cr ∧ (n ≤ cr ∨ s.slots cr = none))

/-- Both threads are about to access the same slot non-atomically.
Accesses of include/readout/models/IterableQueueModel.hpp l.239, 263-264, 280. -/
def Race {α : Type u} (s : St α) : Prop :=
  ∃ v i, s.p = .toConstruct v i ∧ (s.c = .toMove i ∨ ∃ k, s.c = .toDestroy k i)

end Verif.Spsc
