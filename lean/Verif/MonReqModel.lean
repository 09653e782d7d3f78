import Verif.DataReqProps
/-
Monitoring counters of the request handler, include/readout/models/DefaultRequestHandlerModel.hpp: the threads of
the pool and the waiting-request thread count (l.261-305, 440-502, 504-623), `get_info` takes the values one after
the other while they run (l.307-362), `start` zeroes them (l.144-158).

What a request meets (found, gone, ...) is left to the environment here; C12 and C15 say which it is. One step per
access to a counter. The counters are `std::atomic<int>` (l.675-688); the model keeps the exact number and applies
the wrap-around to 32 bits when a value is read, which is the same because they are only added to and zeroed.
-/
namespace Verif.MonReq
open Verif.DataReq

/-- The counters that are modelled, l.677-684. -/
inductive Ctr where
  | found | bad | oldWindow | delayed | uncategorized | timedOut | handled | time
  deriving DecidableEq

/-- What a thread still has to do for a request. DefaultRequestHandlerModel.hpp l.261-305, 440-502, 504-623. -/
inductive Act where
  | add (c : Ctr)         -- `++m_num_requests_…`
  | push (err : Bool)     -- the fragment is handed to its queue; error bit
  | park                  -- onto the list of waiting requests
  | time (us : Nat)       -- l.302 `m_response_time_acc.fetch_add`
  | done (us : Nat)       -- l.303 `m_handled_requests++`; `us` for the record
  deriving DecidableEq

/-- What an attempt to answer a request meets, l.514-597, 450-489. -/
inductive Met where
  | found                    -- l.531-541
  | gone                     -- l.568-572
  | late (running : Bool)    -- l.534-537, 573-575, 584-593
  | uncategorized            -- l.576-582
  | empty                    -- l.605-610
  | timedOut                 -- l.457-475, waiting-request thread
  | endOfRun                 -- l.476-489, waiting-request thread
  deriving DecidableEq

/-- Attempts made by a thread of the pool. DefaultRequestHandlerModel.hpp l.261-305. -/
def Met.pool : Met → Bool
  | .timedOut => false
  | .endOfRun => false
  | _ => true

/-- The accesses of one attempt in program order; `us` is the time it takes.
DefaultRequestHandlerModel.hpp l.261-305, 457-489, 504-623. -/
def prog (us : Nat) : Met → List Act
  | .found => [.add .found, .push false, .time us, .done us]
  | .gone => [.add .oldWindow, .add .bad, .push true, .time us, .done us]
  | .late true => [.add .delayed, .park, .time us, .done us]
  | .late false => [.add .delayed, .add .bad, .push true, .time us, .done us]
  | .uncategorized => [.add .uncategorized, .add .bad, .push true, .time us, .done us]
  | .empty => [.add .bad, .push true, .time us, .done us]
  | .timedOut => [.add .bad, .add .timedOut, .push true]
  | .endOfRun => [.add .bad, .push true]

/-- The value of an `int` that was counted up to `v`, l.677-684. -/
def int32 (v : Nat) : Int :=
  if v % 4294967296 < 2147483648 then (v % 4294967296 : Nat) else ((v % 4294967296 : Nat) : Int) - 4294967296

/-- An `int` in a report field of type u8 (64 bits), l.310-318. -/
def u64 (i : Int) : Nat := (i % 18446744073709551616).toNat

/-- The reported average, l.351-355 (the field is 0 if it is not set). -/
def average (handled time : Nat) : Nat :=
  if 0 < int32 handled then u64 ((int32 time).tdiv (int32 handled)) else 0

/-- The order in which `get_info` takes the values, l.310-329. -/
def order : List Ctr := [.found, .bad, .oldWindow, .delayed, .uncategorized, .timedOut, .handled, .time]

/-- The order in which `start` zeroes the counters, l.147-155. -/
def zeroed : List Ctr := [.found, .bad, .oldWindow, .delayed, .uncategorized, .timedOut, .handled, .time]

/-- Counters, threads, and what an observer sees in the current run. DefaultRequestHandlerModel.hpp l.625-688. -/
structure St where
  val : Ctr → Nat
  tasks : List (List Act)       -- requests being worked on: what remains to be done
  waiting : Nat                 -- parked requests
  mon : List Ctr                -- values the report being made has still to take
  got : Nat                     -- `handled_requests` of the report being made
  starting : List Ctr           -- counters `start` has still to zero
  -- what happened since the last `start` command:
  received : Nat                -- requests received
  frags : List Bool             -- fragments handed to a queue: error bits
  log : List (Ctr × Nat)        -- values reported
  since : List Nat              -- response times of attempts finished since the last report
  held : List Nat               -- the same, when the report being made took `m_handled_requests`
  avgs : List (Nat × List Nat)  -- reported averages with the response times they should be of
  overlap : Bool                -- a report took a value while `start` was zeroing
  torn : Bool                   -- a report took count and time with a request in between its two additions

/-- Before the first start, l.677-684. -/
def St.init : St := ⟨fun _ => 0, [], 0, [], 0, [], 0, [], [], [], [], [], false, false⟩

/-- One counter changed. DefaultRequestHandlerModel.hpp l.677-684. -/
def upd (f : Ctr → Nat) (c : Ctr) (v : Nat) : Ctr → Nat := fun d => if d = c then v else f d

/-- A finished list of actions disappears. DefaultRequestHandlerModel.hpp l.304. -/
def keep : List Act → List (List Act)
  | [] => []
  | r => [r]

/-- Between the two additions of l.302-303. -/
def isMid : List Act → Bool
  | [.done _] => true
  | _ => false

/-- The effect of one action; `r` is what remains of the task, `ts` the other tasks.
DefaultRequestHandlerModel.hpp l.261-305, 440-502, 504-623. -/
def perform (s : St) (ts : List (List Act)) : Act → St
  | .add c => { s with val := upd s.val c (s.val c + 1), tasks := ts }
  | .push err => { s with frags := s.frags ++ [err], tasks := ts }
  | .park => { s with waiting := s.waiting + 1, tasks := ts }
  | .time us => { s with val := upd s.val .time (s.val .time + us), tasks := ts,
                         torn := s.torn || decide (s.mon = [.time]) }
  | .done us => { s with val := upd s.val .handled (s.val .handled + 1), tasks := ts, since := s.since ++ [us],
                         torn := s.torn || decide (s.mon = [.time]) }

/-- `get_info` takes (and zeroes) one value, l.310-329; with the last one the average is reported, l.351-355. -/
def take (s : St) (c : Ctr) (r : List Ctr) : St :=
  { s with
    val := upd s.val c 0
    mon := r
    log := s.log ++ [(c, u64 (int32 (s.val c)))]
    got := if c = .handled then s.val .handled else s.got
    held := if c = .handled then s.since else s.held
    since := if c = .handled then [] else s.since
    torn := s.torn || (decide (c = .handled) && s.tasks.any isMid)
    avgs := if c = .time then s.avgs ++ [(average s.got (s.val .time), s.held)] else s.avgs
    overlap := s.overlap || decide (s.starting ≠ []) }

/-- The `start` command begins, l.144-158: no request is under way (l.172-181). -/
def begin (s : St) : St :=
  { s with starting := zeroed, received := 0, frags := [], log := [], since := [], avgs := [],
           overlap := false, torn := decide (s.mon = [.time]) }

/-- Steps of all threads. DefaultRequestHandlerModel.hpp l.144-158, 261-362, 440-502. -/
inductive Step : St → St → Prop where
  /-- l.264-265: a request is received and given to the pool. -/
  | issue (s : St) (m : Met) (us : Nat) (hm : m.pool = true) (hs : s.starting = []) :
      Step s { s with received := s.received + 1, tasks := s.tasks ++ [prog us m] }
  /-- l.451-455: a waiting request is given to the pool again. -/
  | again (s : St) (m : Met) (us : Nat) (hm : m.pool = true) (hs : s.starting = []) (w : Nat)
      (hw : s.waiting = w + 1) :
      Step s { s with waiting := w, tasks := s.tasks ++ [prog us m] }
  /-- l.456-489: a waiting request is given up. -/
  | giveUp (s : St) (m : Met) (hm : m.pool = false) (hs : s.starting = []) (w : Nat) (hw : s.waiting = w + 1) :
      Step s { s with waiting := w, tasks := s.tasks ++ [prog 0 m] }
  /-- A thread performs its next action. -/
  | act (s : St) (pre post : List (List Act)) (a : Act) (r : List Act) (h : s.tasks = pre ++ (a :: r) :: post) :
      Step s (perform s (pre ++ keep r ++ post) a)
  /-- l.307: a report begins. -/
  | report (s : St) (h : s.mon = []) : Step s { s with mon := order }
  | take (s : St) (c : Ctr) (r : List Ctr) (h : s.mon = c :: r) : Step s (take s c r)
  /-- l.144: the `start` command, after the requests of the previous run have ended (l.170-182). -/
  | start (s : St) (hs : s.starting = []) (ht : s.tasks = []) (hw : s.waiting = 0) : Step s (begin s)
  /-- l.147-155: one counter is zeroed. -/
  | zero (s : St) (c : Ctr) (r : List Ctr) (h : s.starting = c :: r) :
      Step s { s with val := upd s.val c 0, starting := r }

/-- Reachable states. DefaultRequestHandlerModel.hpp l.144-362, 440-502. -/
inductive Reach : St → Prop where
  | init : Reach St.init
  | step (s s' : St) (h : Reach s) (st : Step s s') : Reach s'

end Verif.MonReq
