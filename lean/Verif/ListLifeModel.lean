import Verif.ListLinkModel
import Verif.RetryModel
/-
The whole life of a photon-detector link with the sorted latency buffer (src/CreateReadout.hpp l.99-107): the commands start
and stop (include/readout/models/ReadoutModel.hpp l.135-176), the consumer (l.228-257), the cleanups
(src/daphne/DAPHNEListRequestHandler.hpp l.57-99), the request pool and the waiting-list thread
(include/readout/models/DefaultRequestHandlerModel.hpp l.144-182, 261-305, 440-502). A payload is represented by its first
timestamp; payloads may arrive in any order.

Simplifications: those of module Session (an evaluation and a cleanup are one step each; arrivals during them are treated
in modules ConcList and ListLink), a cleanup may run at any time (the code asks for a minimal occupancy first, l.253), the memory
of the nodes is unlimited.
-/
namespace Verif.ListLife
open Verif.DataReq Verif.Session

/-- Fixed parameters of a link: `expected_tick_difference` and frames per payload (include/readout/ReadoutTypes.hpp
l.228-289), the geo id and fragment type (DefaultRequestHandlerModel.hpp l.111-113, 376), and the time span the
cleanup leaves (DAPHNEListRequestHandler.hpp l.103). -/
structure Cfg where
  tick : Nat
  nf : Nat
  geo : GeoId
  ft : Nat
  m : Nat

/-- The payload type: `nf` frames, one every `tick` from the first timestamp on. ReadoutTypes.hpp l.228-289. -/
def Cfg.T (c : Cfg) : PayloadType Nat := ⟨id, fun _ => c.nf, fun t i => t + i * c.tick, c.tick⟩

/-- State of the link; the phases, requests, fragments and the log of arrivals are those of module Session.
ReadoutModel.hpp l.348-395, DefaultRequestHandlerModel.hpp l.625-695. -/
structure St where
  l : List Nat             -- the sorted buffer
  run : Nat                -- number of start commands so far (ghost)
  phase : Phase
  log : List Arrival       -- ghost: all payloads received, oldest first
  pool : List Issued
  toPark : List Issued
  waiting : List Issued
  waiterGone : Bool
  sent : List Sent

/-- After `init` and `conf`. ReadoutModel.hpp l.82-133. -/
def St.init : St := ⟨[], 0, .idle, [], [], [], [], true, []⟩

/-- `start`, ReadoutModel.hpp l.135-157; DefaultRequestHandlerModel.hpp l.144-168: new pool and waiting-list thread, the
waiting list and the buffer are kept. -/
def startCmd (s : St) : St := { s with run := s.run + 1, phase := .running, pool := [], waiterGone := false }

/-- A payload arrives, ReadoutModel.hpp l.236-248; refused by the buffer if its timestamp is there already. -/
def receive (s : St) (t : Nat) : St :=
  let r := SkipList.write id s.l t
  { s with l := r.1, log := s.log ++ [⟨s.run, t, r.2⟩] }

/-- A cleanup, DAPHNEListRequestHandler.hpp l.57-99. -/
def clean (c : Cfg) (s : St) : Outcome St := do
  let l ← SkipList.daphneCleanup id c.m s.l
  .ok { s with l := l }

/-- The answer to a request in the present state, DefaultRequestHandlerModel.hpp l.504-623; the search object carries the
beginning of the window (ReadoutTypes.hpp l.247-252). -/
def answer (c : Cfg) (s : St) (dr : Request) : Outcome (Result Nat) :=
  ListLink.request c.T c.geo c.ft s.l dr.wBegin (decide (s.phase = .running)) ⟨0, 0, 0, 0, 0, 0⟩ dr

/-- End of `stop`, ReadoutModel.hpp l.172-175. -/
def finish (s : St) : St := { s with l := SkipList.flush s.l, phase := .idle }

/-- One step of any thread or command.
ReadoutModel.hpp l.135-176, 228-257; DefaultRequestHandlerModel.hpp l.144-182, 261-305, 407-413, 440-502. -/
inductive Step (c : Cfg) : St → St → Prop where
  /-- ReadoutModel.hpp l.135-157 -/
  | start (s : St) (hp : s.phase = .idle) : Step c s (startCmd s)
  /-- ReadoutModel.hpp l.236-248 -/
  | receive (s : St) (t : Nat) (hp : s.phase ≠ .idle) : Step c s (receive s t)
  /-- l.407-413 -/
  | clean (s s' : St) (hp : s.phase = .running ∨ s.phase = .stopping) (he : clean c s = .ok s') : Step c s s'
  /-- l.261-264 -/
  | issue (s : St) (dr : Request) (hp : s.phase = .running ∨ s.phase = .stopping) :
      Step c s { s with pool := ⟨dr, s.run⟩ :: s.pool }
  /-- l.272, 278-284 -/
  | reply (s : St) (x : Issued) (r : Result Nat) (fr : Fragment Nat) (h : x ∈ s.pool)
      (hp : s.phase = .running ∨ s.phase = .stopping) (he : answer c s x.dr = .ok r) (hf : r.fragment = some fr) :
      Step c s { s with pool := s.pool.erase x, sent := ⟨x, s.run, fr⟩ :: s.sent }
  /-- l.272, 288 -/
  | notYet (s : St) (x : Issued) (r : Result Nat) (h : x ∈ s.pool)
      (hp : s.phase = .running ∨ s.phase = .stopping) (he : answer c s x.dr = .ok r) (hf : r.fragment = none) :
      Step c s { s with pool := s.pool.erase x, toPark := x :: s.toPark }
  /-- l.291-292 -/
  | park (s : St) (x : Issued) (h : x ∈ s.toPark) :
      Step c s { s with toPark := s.toPark.erase x, waiting := x :: s.waiting }
  /-- l.452-456 -/
  | reissue (s : St) (x : Issued) (h : x ∈ s.waiting) (hw : s.waiterGone = false) :
      Step c s { s with waiting := s.waiting.erase x, pool := x :: s.pool }
  /-- l.457-468, 477-487 -/
  | giveUp (s : St) (x : Issued) (h : x ∈ s.waiting) (hw : s.waiterGone = false) :
      Step c s { s with waiting := s.waiting.erase x,
                        sent := ⟨x, s.run, createEmpty Nat c.geo c.ft x.dr⟩ :: s.sent }
  /-- l.172 -/
  | stopCall (s : St) (hp : s.phase = .running) : Step c s { s with phase := .stopping }
  /-- l.442 -/
  | waiterExit (s : St) (hp : s.phase = .stopping) (h : s.waiting = []) : Step c s { s with waiterGone := true }
  /-- l.180-181 -/
  | join (s : St) (hp : s.phase = .stopping) (hw : s.waiterGone = true) (h1 : s.pool = []) (h2 : s.toPark = []) :
      Step c s { s with phase := .joined }
  /-- ReadoutModel.hpp l.172-175 -/
  | finish (s : St) (hp : s.phase = .joined) : Step c s (finish s)

/-- Reachable states. ReadoutModel.hpp l.82-176. -/
inductive Reach (c : Cfg) : St → Prop where
  | init : Reach c St.init
  | step (s s' : St) (h : Reach c s) (st : Step c s s') : Reach c s'

/-- The link and one request; `evals` and `passes` count the evaluations of the request and the passes that came upon it
(ghost), as in module Retry. DefaultRequestHandlerModel.hpp l.261-305, 440-502. -/
structure RSt where
  s : St
  place : Retry.Place
  evals : Nat
  passes : Nat

/-- Newest timestamp as the waiting-list thread sees it, DefaultRequestHandlerModel.hpp l.446-448. -/
def newest (s : St) : Nat := (SkipList.back s.l).getD 0

/-- One step of the link and the request during a run. DefaultRequestHandlerModel.hpp l.261-305, 440-502. -/
inductive RStep (c : Cfg) (limit : Nat) (dr : Request) : RSt → RSt → Prop where
  /-- anything else that happens during the run -/
  | link (x : RSt) (s' : St) (hp : x.s.phase = .running) (st : Step c x.s s') (hp' : s'.phase = .running) :
      RStep c limit dr x { x with s := s' }
  /-- l.272, 278-284 -/
  | reply (x : RSt) (r : Result Nat) (fr : Fragment Nat) (h : x.place = .pool) (he : answer c x.s dr = .ok r)
      (hf : r.fragment = some fr) : RStep c limit dr x { x with place := .answered false, evals := x.evals + 1 }
  /-- l.272, 288 -/
  | notYet (x : RSt) (r : Result Nat) (h : x.place = .pool) (he : answer c x.s dr = .ok r)
      (hf : r.fragment = none) : RStep c limit dr x { x with place := .toPark, evals := x.evals + 1 }
  | park (x : RSt) (h : x.place = .toPark) : RStep c limit dr x { x with place := Retry.parked }
  /-- l.442-500 -/
  | pass (x : RSt) (r : Nat) (h : x.place = .waiting r) :
      RStep c limit dr x { x with place := Retry.treat dr limit (newest x.s) r, passes := x.passes + 1 }

/-- Reachable states: the request is issued at some moment of some run. DefaultRequestHandlerModel.hpp l.261-264. -/
inductive RReach (c : Cfg) (limit : Nat) (dr : Request) : RSt → Prop where
  | issued (s : St) (h : Reach c s) (hp : s.phase = .running) : RReach c limit dr ⟨s, .pool, 0, 0⟩
  | step (x x' : RSt) (h : RReach c limit dr x) (st : RStep c limit dr x x') : RReach c limit dr x'

end Verif.ListLife
