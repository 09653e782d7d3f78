import Verif.ListLinkModel
import Verif.RetryModel
/-
The runs of a PACMAN link: the sorted latency buffer (include/readout/models/SkipListLatencyBufferModel.hpp) with the
request handler src/pacman/PACMANListRequestHandler.hpp l.36-58, which keeps the default cleanup
(include/readout/models/DefaultRequestHandlerModel.hpp l.250-259, 415-438). Types: src/CreateReadout.hpp l.146-154.

The consumer, the cleanup thread, the recording thread and the commands take turns; the cleanup is broken up into its reads
of the buffer and its removals, so that messages arrive in the middle of a pass. Left out: the error registry (l.435; C16),
the memory of the nodes (module ListMem).
-/
namespace Verif.PacLife
open Verif.DataReq

variable {P : Type}

/-- A PACMAN message as the request handler sees it: one frame with the time of the message; no tick between frames.
include/readout/NDReadoutTypes.hpp l.48-63, 121-132. -/
def pacman (ts : P → Nat) : PayloadType P := ⟨ts, fun _ => 1, fun p _ => ts p, 0⟩

/-- Parameters: `m_pop_limit_size` (DefaultRequestHandlerModel.hpp l.119) and, for each occupancy, the value of
`m_pop_size_pct * occupancy()` converted to unsigned (l.421). -/
structure Cfg where
  limit : Nat
  pop : Nat → Nat

/-- Where the cleanup stands. DefaultRequestHandlerModel.hpp l.253-256, 418-435. -/
inductive Clean where
  | off
  | counting            -- l.419 passed, before l.421
  | loop (n : Nat)      -- l.424, `n` rounds left
  | pop (n : Nat)       -- l.425 passed, before l.426; `n` rounds left afterwards
  | ending              -- before l.435
deriving DecidableEq

/-- State of the link. `next` is m_next_timestamp_to_record (DefaultRequestHandlerModel.hpp l.659); `hist` (ghost) are the messages
received in this run, in order of arrival. ReadoutModel.hpp l.228-257. -/
structure St (P : Type) where
  running : Bool
  l : List P
  next : Nat
  clean : Clean
  hist : List P

/-- What happens. -/
inductive Act (P : Type) where
  | start
  | stop
  | recv (p : P)
  | record (t : Nat)    -- the recording thread sets its position
  | clean               -- the next step of the cleanup thread

/-- `std::numeric_limits<uint64_t>::max()`, DefaultRequestHandlerModel.hpp l.241, 659: no recording. -/
def noRecording : Nat := 18446744073709551615

/-- After `init` and `conf`. ReadoutModel.hpp l.82-133. -/
def St.init (P : Type) : St P := ⟨false, [], noRecording, .off, []⟩

/-- The next step of the cleanup thread. DefaultRequestHandlerModel.hpp l.253-256 with l.418-419 (the test and its repetition:
nothing but the cleanup removes payloads, so the second gives the same), l.421, l.424-425, l.426, l.435. -/
def cleanStep (ts : P → Nat) (c : Cfg) (s : St P) : Outcome (St P) :=
  match s.clean with
  | .off => if SkipList.occupancy s.l > c.limit then .ok { s with clean := .counting } else .ok s
  | .counting => .ok { s with clean := .loop (c.pop (SkipList.occupancy s.l)) }
  | .loop 0 => .ok { s with clean := .ending }
  | .loop (n + 1) =>
    match SkipList.front s.l with
    | none => .ub .nullDeref
    | some a => if ts a < s.next then .ok { s with clean := .pop n } else .ok { s with clean := .ending }
  | .pop n => .ok { s with l := SkipList.pop s.l 1, clean := .loop n }
  | .ending =>
    match SkipList.front s.l with
    | none => .ub .nullDeref
    | some _ => .ok { s with clean := .off }

/-- One step. What cannot happen in a state changes nothing. `start`: ReadoutModel.hpp l.135-157; `stop`: l.159-176 (the cleanup
thread has been joined, DefaultRequestHandlerModel.hpp l.170-182; then the buffer is flushed); `recv`: ReadoutModel.hpp
l.236-248; `record`: DefaultRequestHandlerModel.hpp l.200, 206, 231, 241. -/
def step (ts : P → Nat) (c : Cfg) (s : St P) : Act P → Outcome (St P)
  | .start => if s.running then .ok s else .ok { s with running := true, hist := [] }
  | .stop => if s.running ∧ s.clean = .off then .ok { s with running := false, l := SkipList.flush s.l } else .ok s
  | .recv p => if s.running then .ok { s with l := (SkipList.write ts s.l p).1, hist := s.hist ++ [p] } else .ok s
  | .record t => .ok { s with next := t }
  | .clean => if s.running then cleanStep ts c s else .ok s

/-- Steps of any of the threads and commands, in any order. ReadoutModel.hpp l.82-176, 228-257. -/
def run (ts : P → Nat) (c : Cfg) (s : St P) : List (Act P) → Outcome (St P)
  | [] => .ok s
  | a :: as => do
    let s' ← step ts c s a
    run ts c s' as

/-- The answer to a request, DefaultRequestHandlerModel.hpp l.504-623, evaluated while no cleanup runs (C19). `key` is the time
found in the uninitialised search object (C64). -/
def answer (ts : P → Nat) (geo : GeoId) (ft : Nat) (s : St P) (key : Nat) (k : Counters) (dr : Request) :
    Outcome (Result P) :=
  ListLink.request (pacman ts) geo ft s.l key s.running k dr

/-- The link and one request during a run, as in module Retry; `evals` counts its evaluations (ghost).
DefaultRequestHandlerModel.hpp l.261-305, 440-502. -/
structure RSt (P : Type) where
  s : St P
  place : Retry.Place
  evals : Nat

/-- What happens to the link and the request; `eval key`: the pool evaluates it, with the time `key` in the search object. -/
inductive RAct (P : Type) where
  | recv (p : P)
  | record (t : Nat)
  | clean
  | eval (key : Nat)
  | park
  | pass

/-- Newest timestamp as the waiting-list thread sees it, DefaultRequestHandlerModel.hpp l.446-448. -/
def newest (ts : P → Nat) (s : St P) : Nat := ((SkipList.back s.l).map ts).getD 0

/-- A step of the link. ReadoutModel.hpp l.236-248, DefaultRequestHandlerModel.hpp l.206, 231, 415-438. -/
def linkStep (ts : P → Nat) (c : Cfg) (x : RSt P) (a : Act P) : Outcome (RSt P) := do
  let s' ← step ts c x.s a
  .ok { x with s := s' }

/-- One step; what cannot happen changes nothing. `eval`: DefaultRequestHandlerModel.hpp l.266-293 (no cleanup meanwhile, C19);
`park`: l.291-292; `pass`: l.442-500 for the retry limit `limit`. -/
def rstep (ts : P → Nat) (c : Cfg) (limit : Nat) (dr : Request) (x : RSt P) : RAct P → Outcome (RSt P)
  | .recv p => linkStep ts c x (.recv p)
  | .record t => linkStep ts c x (.record t)
  | .clean => linkStep ts c x .clean
  | .eval key =>
    if x.place = .pool ∧ x.s.clean = .off then do
      let r ← answer ts ⟨2, 0, 1⟩ 4 x.s key ⟨0, 0, 0, 0, 0, 0⟩ dr
      match r.fragment with
      | some _ => .ok { x with place := .answered false, evals := x.evals + 1 }
      | none => .ok { x with place := .toPark, evals := x.evals + 1 }
    else .ok x
  | .park => if x.place = .toPark then .ok { x with place := Retry.parked } else .ok x
  | .pass =>
    match x.place with
    | .waiting r => .ok { x with place := Retry.treat dr limit (newest ts x.s) r }
    | _ => .ok x

/-- Any such steps. DefaultRequestHandlerModel.hpp l.261-305, 440-502. -/
def rrun (ts : P → Nat) (c : Cfg) (limit : Nat) (dr : Request) (x : RSt P) : List (RAct P) → Outcome (RSt P)
  | [] => .ok x
  | a :: as => do
    let x' ← rstep ts c limit dr x a
    rrun ts c limit dr x' as

end Verif.PacLife
