import Verif.DataReqModel
/-
The waiting-request list of `DefaultRequestHandlerModel`
(include/readout/models/DefaultRequestHandlerModel.hpp): parking l.288-293, scan l.440-502.
-/
namespace Verif.Waiting
open Verif.DataReq (Request)

/-- `RequestElement`, l.83-96. The response queue is identified by a number; `born` is a ghost
field: the number of scan passes done when the request was parked. -/
structure Parked where
  req : Request
  sink : Nat
  retries : Nat
  born : Nat
  deriving DecidableEq

/-- What the scan does with a request it takes off the list.
include/readout/models/DefaultRequestHandlerModel.hpp l.452-493. -/
inductive Action where
  | reissue      -- l.453: posted again to the thread pool
  | timeout      -- l.458-473: empty fragment, counted bad and timed out
  | endOfRun     -- l.478-490: empty fragment, counted bad
  deriving DecidableEq

/-- Requests taken off the list, with what was done and what had been stored.
include/readout/models/DefaultRequestHandlerModel.hpp l.452-493. -/
abbrev Log := List (Action × Parked)

/-- `std::swap(v[i], v.back()); v.pop_back();` (l.454-455, 474-475, 491-492). -/
def swapRemove (l : List Parked) (i : Nat) : List Parked :=
  match l.getLast? with
  | some x => (l.set i x).dropLast
  | none => l

/-- Counters advanced by the scan (l.461-462, 481). -/
structure Ctr where
  bad : Nat
  timedOut : Nat
  deriving DecidableEq

/-- The `for` loop l.451-498. `i` is the index, the list length is `size`; `run n` is the value of
the run marker if it is loaded in loop iteration `n` (it may change at any time). Every
iteration either removes an element or advances `i`; `fuel` bounds the iterations
(`fuel = size - i` suffices, see `scan`). -/
def scanLoop (newest limit : Nat) (run : Nat → Bool) :
    Nat → Nat → Nat → List Parked → Ctr → Log → Outcome (List Parked × Ctr × Log)
  | 0, _, i, l, c, log => if i < l.length then .throws .hang else .ok (l, c, log)
  | fuel + 1, n, i, l, c, log =>
    if i < l.length then
      match l[i]? with
      | none => .ub .outOfBounds
      | some x =>
        if x.req.wEnd < newest then
          scanLoop newest limit run fuel (n + 1) i (swapRemove l i) c (log ++ [(.reissue, x)])
        else if x.retries ≥ limit then
          scanLoop newest limit run fuel (n + 1) i (swapRemove l i)
            ⟨c.bad + 1, c.timedOut + 1⟩ (log ++ [(.timeout, x)])
        else if !run n then
          scanLoop newest limit run fuel (n + 1) i (swapRemove l i)
            ⟨c.bad + 1, c.timedOut⟩ (log ++ [(.endOfRun, x)])
        else
          scanLoop newest limit run fuel (n + 1) (i + 1)
            (l.set i { x with retries := x.retries + 1 }) c log
    else .ok (l, c, log)

/-- One pass under the list lock, l.443-499. -/
def scan (newest limit : Nat) (run : Nat → Bool) (l : List Parked) (c : Ctr) :
    Outcome (List Parked × Ctr × Log) :=
  scanLoop newest limit run l.length 0 0 l c []

/-- Life of the waiting list: requests are parked by pool threads (l.291-292) between passes;
`now` counts passes. -/
inductive Passes (limit : Nat) : Nat → List Parked → Prop where
  | start : Passes limit 0 []
  | park (now : Nat) (l : List Parked) (req : Request) (sink : Nat) (h : Passes limit now l) :
      Passes limit now (l ++ [⟨req, sink, 0, now⟩])
  | pass (now newest : Nat) (run : Nat → Bool) (l l' : List Parked) (c c' : Ctr) (log : Log)
      (h : Passes limit now l) (hs : scan newest limit run l c = .ok (l', c', log)) :
      Passes limit (now + 1) l'

end Verif.Waiting
