import Verif.SearchModel
/-
`TPHandler`, include/readout/utils/TPHandler.hpp: buffering of trigger primitives (TPs) and grouping
into TP sets.

A TP is a value of an arbitrary type `α` with a start time `ts`. The priority queue (l.110-121) is a
list of TPs in no particular order; `top()` is any element with the least start time, chosen by
the parameter `pick` (the order among equal start times is unspecified in C++). Whether a queue
push succeeds or times out (l.60-65, 70-75) is an input of the call.
-/
namespace Verif.TpHandler
open Verif.Search (u64)

variable {α : Type}

/-- A priority queue choice function: the top element and the remaining ones.
`std::priority_queue` with the comparator of TPHandler.hpp l.110-121. -/
def PickSpec (ts : α → Nat) (pick : List α → Option (α × List α)) : Prop :=
  ∀ l, (pick l = none ↔ l = []) ∧
    ∀ a r, pick l = some (a, r) → l.Perm (a :: r) ∧ ∀ b ∈ l, ts a ≤ ts b

/-- `trigger::TPSet` as filled on l.51-56 and l.66 (type and origin are constants). -/
structure TPSet (α : Type) where
  startTime : Nat
  endTime : Nat
  seqno : Nat
  objects : List α
  deriving DecidableEq

/-- Constructor arguments, l.25-36. -/
structure Cfg where
  timeout : Nat   -- m_tp_timeout
  window : Nat    -- m_tpset_window_size
  deriving DecidableEq

/-- Members l.97-108, and the history since construction or the last `reset()`: what was handed to
the two queues, with the success flag of the push. -/
structure St (α : Type) where
  buf : List α
  seq : Nat          -- m_next_tpset_seqno
  sentTps : Nat      -- m_sent_tps
  sentSets : Nat     -- m_sent_tpsets
  sets : List (TPSet α × Bool)
  tps : List (α × Bool)
  deriving DecidableEq

/-- State after construction and after `reset()`, l.81-89. -/
def fresh : St α := ⟨[], 0, 0, 0, [], []⟩

/-- `add_tp(trigprim, currentTime)`, l.38-46. -/
def addTp (ts : α → Nat) (c : Cfg) (s : St α) (tp : α) (now : Nat) : St α × Bool :=
  if u64 (ts tp + c.timeout) > now then ({ s with buf := tp :: s.buf }, true) else (s, false)

/-- The loop l.58-68: `(taken in order, left in the queue)`. Every iteration removes an element, so
`buf.length` iterations suffice. -/
def drain (ts : α → Nat) (pick : List α → Option (α × List α)) (endTime : Nat) :
    Nat → List α → List α × List α
  | 0, buf => ([], buf)
  | fuel + 1, buf =>
    match pick buf with
    | none => ([], buf)
    | some (a, r) =>
      if ts a < endTime then
        let d := drain ts pick endTime fuel r
        (a :: d.1, d.2)
      else ([], buf)

/-- `try_sending_tpsets(currentTime)`, l.48-79. `okTp k` says whether pushing the `k`-th TP of this set
succeeds, `okSet` whether pushing the set does. -/
def trySend (ts : α → Nat) (pick : List α → Option (α × List α)) (c : Cfg) (s : St α) (now : Nat)
    (okTp : Nat → Bool) (okSet : Bool) : Outcome (St α) :=
  match pick s.buf with
  | none => .ok s
  | some (a, _) =>
    if u64 (u64 (ts a + c.window) + c.timeout) < now then
      if c.window = 0 then .ub .divByZero
      else
        let start := u64 ((ts a / c.window) * c.window)
        let endT := u64 (start + c.window)
        let d := drain ts pick endT s.buf.length s.buf
        let offered := d.1.zipIdx.map (fun p => (p.1, okTp p.2))
        .ok { buf := d.2
              seq := u64 (s.seq + 1)
              sentTps := s.sentTps + (offered.filter (·.2)).length
              sentSets := s.sentSets + (if okSet then 1 else 0)
              sets := s.sets ++ [(⟨start, endT, s.seq, d.1⟩, okSet)]
              tps := s.tps ++ offered }
    else .ok s

/-- Call histories since the last `reset()`: state, accepted TPs, last current time passed and last
current time at which sending was tried. Current times do not decrease; `pace` restricts the times
of consecutive sending attempts (`fun _ _ => True` for no restriction). The start times offered are
such that no 64-bit sum wraps around (`hb`). TPHandler.hpp l.38-91. -/
inductive Run (ts : α → Nat) (pick : List α → Option (α × List α)) (c : Cfg)
    (pace : Nat → Nat → Prop) : St α → List α → Nat → Nat → Prop where
  | reset (now : Nat) : Run ts pick c pace fresh [] now now
  | add (s : St α) (acc : List α) (last lastSend now : Nat) (tp : α)
      (h : Run ts pick c pace s acc last lastSend) (hm : last ≤ now)
      (hb : ts tp + c.window + c.timeout < 18446744073709551616) :
      Run ts pick c pace (addTp ts c s tp now).1
        (if (addTp ts c s tp now).2 then tp :: acc else acc) now lastSend
  | send (s s' : St α) (acc : List α) (last lastSend now : Nat) (okTp : Nat → Bool) (okSet : Bool)
      (h : Run ts pick c pace s acc last lastSend) (hm : last ≤ now) (hp : pace lastSend now)
      (he : trySend ts pick c s now okTp okSet = .ok s') : Run ts pick c pace s' acc now now

end Verif.TpHandler
