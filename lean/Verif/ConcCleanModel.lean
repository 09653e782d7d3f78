import Verif.CleanupModel
import Verif.ConfModel
/-
A link whose cleanup thread works while data arrive: `cleanup()` (include/readout/models/DefaultRequestHandlerModel.hpp
l.250-259, 407-438) on a ring latency buffer (include/readout/models/IterableQueueModel.hpp), broken up into its reads of the
buffer and its removals, with the consumer (include/readout/models/ReadoutModel.hpp l.228-257), the recording thread and the
commands in between. In modules Retain and Session a cleanup is one step.

Left out: the error registry (l.435; C16), requests (evaluated while no cleanup runs, C19), and the memory accesses inside a
call of the buffer (C04): each call of the buffer is one step.
-/
namespace Verif.ConcClean
open Verif.Ring

variable {P : Type}

/-- Parameters: `m_pop_limit_size` (DefaultRequestHandlerModel.hpp l.119) and, for each occupancy, the value of
`m_pop_size_pct * occupancy()` converted to unsigned (l.421). -/
structure Cfg where
  limit : Nat
  pop : Nat → Nat

/-- The parameters stored by `conf`, DefaultRequestHandlerModel.hpp l.114-121, 421. -/
def cfgOf (rnd : ℚ → ℚ) (h : Conf.Handler) : Cfg := ⟨h.limitSize, Cleanup.toPopOf rnd h.sizePct⟩

/-- Where the cleanup stands. DefaultRequestHandlerModel.hpp l.253-256, 418-435. -/
inductive Clean where
  | off
  | counting            -- l.419 passed, before l.421
  | loop (n : Nat)      -- l.424, `n` rounds left
  | pop (n : Nat)       -- l.425 passed, before l.426; `n` rounds left afterwards
  | ending              -- before l.435
deriving DecidableEq

/-- A payload of this run and what `write` returned for it, ReadoutModel.hpp l.242-245. -/
structure Arrival (P : Type) where
  p : P
  stored : Bool

/-- State of the link. `next` is m_next_timestamp_to_record (DefaultRequestHandlerModel.hpp l.659). Ghosts: the arrivals of this
run; the number of them since the cleanup thread last compared the occupancy with the limit and found it small, or counted
(l.421), or since the run began; the greatest value of that number. -/
structure St (P : Type) where
  running : Bool
  q : Ring.Ring P
  next : Nat
  clean : Clean
  hist : List (Arrival P)
  since : Nat
  worst : Nat

/-- What happens. -/
inductive Act (P : Type) where
  | start
  | stop
  | recv (p : P)
  | record (t : Nat)    -- the recording thread sets its position
  | clean               -- the next step of the cleanup thread

/-- `std::numeric_limits<uint64_t>::max()`, DefaultRequestHandlerModel.hpp l.241, 659: no recording. -/
def noRecording : Nat := 18446744073709551615

/-- After `init` and `conf`. ReadoutModel.hpp l.82-133. -/
def St.init (P : Type) (n : Nat) : St P := ⟨false, Ring.Ring.init P n, noRecording, .off, [], 0, 0⟩

/-- The next step of the cleanup thread. DefaultRequestHandlerModel.hpp l.253-256 with l.418-419 (the test and its repetition:
nothing but the cleanup removes payloads, so the second gives the same), l.421, l.424-425, l.426, l.435. -/
def cleanStep (ts : P → Nat) (c : Cfg) (s : St P) : Outcome (St P) :=
  match s.clean with
  | .off => if s.q.occupancy > c.limit then .ok { s with clean := .counting } else .ok { s with since := 0 }
  | .counting => .ok { s with clean := .loop (c.pop s.q.occupancy), since := 0 }
  | .loop 0 => .ok { s with clean := .ending }
  | .loop (n + 1) => do
    let t ← Cleanup.frontTs ts s.q
    if t < s.next then .ok { s with clean := .pop n } else .ok { s with clean := .ending }
  | .pop n => do
    let q' ← s.q.pop 1
    .ok { s with q := q', clean := .loop n }
  | .ending => do
    let _ ← Cleanup.frontTs ts s.q
    .ok { s with clean := .off }

/-- An arrival. ReadoutModel.hpp l.236-248. -/
def receive (s : St P) (p : P) : Outcome (St P) := do
  let r ← s.q.write p
  .ok { s with
    q := r.1, hist := s.hist ++ [⟨p, r.2⟩], since := s.since + 1, worst := max s.worst (s.since + 1) }

/-- The end of a run. ReadoutModel.hpp l.159-176: the cleanup thread has been joined
(DefaultRequestHandlerModel.hpp l.170-182), then the buffer is flushed. -/
def stop (s : St P) : Outcome (St P) := do
  let q' ← s.q.flush
  .ok { s with running := false, q := q' }

/-- One step. What cannot happen in a state changes nothing. `start`: ReadoutModel.hpp l.135-157; `record`:
DefaultRequestHandlerModel.hpp l.200, 206, 231, 241. -/
def step (ts : P → Nat) (c : Cfg) (s : St P) : Act P → Outcome (St P)
  | .start => if s.running then .ok s else .ok { s with running := true, hist := [], since := 0 }
  | .stop => if s.running ∧ s.clean = .off then stop s else .ok s
  | .recv p => if s.running then receive s p else .ok s
  | .record t => .ok { s with next := t }
  | .clean => if s.running then cleanStep ts c s else .ok s

/-- Steps of any of the threads and commands, in any order. ReadoutModel.hpp l.82-176, 228-257. -/
def run (ts : P → Nat) (c : Cfg) (s : St P) : List (Act P) → Outcome (St P)
  | [] => .ok s
  | a :: as => do
    let s' ← step ts c s a
    run ts c s' as

end Verif.ConcClean
