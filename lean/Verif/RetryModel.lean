import Verif.SessionModel
import Verif.WaitingModel
/-
One data request during a run, from being issued to being answered: evaluations in the pool
(include/readout/models/DefaultRequestHandlerModel.hpp l.261-305, 504-623), parking (l.288-293) and the passes over the
waiting list (l.440-502) with the retry counter, while the link goes on receiving, cleaning up and answering other
requests (module Session).

Simplifications: those of the module Session; a pass treats the request as it would alone on the list (module Waiting,
C15: every parked request is treated exactly once and by its own fields).
-/
namespace Verif.Retry
open Verif.Ring Verif.DataReq Verif.Session

/-- Where the request is. DefaultRequestHandlerModel.hpp l.264, 288, 292, 284/467. -/
inductive Place where
  | pool                        -- posted, to be evaluated
  | toPark                      -- evaluated as not yet
  | waiting (retries : Nat)     -- on the waiting list
  | answered (timeout : Bool)   -- a fragment was sent, by the evaluation or by a pass
  deriving DecidableEq

/-- The link and the request; `evals` and `passes` count the evaluations of the request and the passes that came upon it
(ghost). DefaultRequestHandlerModel.hpp l.261-305, 440-502. -/
structure St where
  s : Session.St
  place : Place
  evals : Nat
  passes : Nat

/-- Newest timestamp as the waiting-list thread sees it, DefaultRequestHandlerModel.hpp l.446-448. -/
def newest (s : Session.St) : Outcome Nat :=
  match s.p.q.back with
  | none => .ok 0
  | some i => s.p.q.load i

/-- What a pass during the run does with the request, DefaultRequestHandlerModel.hpp l.452-497. -/
def treat (dr : Request) (limit newest retries : Nat) : Place :=
  if dr.wEnd < newest then .pool
  else if retries ≥ limit then .answered true
  else .waiting (retries + 1)

/-- Parking, DefaultRequestHandlerModel.hpp l.291-292. -/
def parked : Place := .waiting 0

/-- One step. DefaultRequestHandlerModel.hpp l.261-305, 440-502; the rest of the link: module Session. -/
inductive Step (c : Cfg) (limit : Nat) (dr : Request) : St → St → Prop where
  /-- anything else that happens during the run -/
  | link (x : St) (s' : Session.St) (hp : x.s.phase = .running) (st : Session.Step c x.s s')
      (hp' : s'.phase = .running) : Step c limit dr x { x with s := s' }
  /-- l.272, 278-284 -/
  | reply (x : St) (r : Result Nat) (fr : Fragment Nat) (h : x.place = .pool) (he : answer c x.s dr = .ok r)
      (hf : r.fragment = some fr) : Step c limit dr x { x with place := .answered false, evals := x.evals + 1 }
  /-- l.272, 288 -/
  | notYet (x : St) (r : Result Nat) (h : x.place = .pool) (he : answer c x.s dr = .ok r)
      (hf : r.fragment = none) : Step c limit dr x { x with place := .toPark, evals := x.evals + 1 }
  | park (x : St) (h : x.place = .toPark) : Step c limit dr x { x with place := parked }
  /-- l.442-500 -/
  | pass (x : St) (r t : Nat) (h : x.place = .waiting r) (hn : newest x.s = .ok t) :
      Step c limit dr x { x with place := treat dr limit t r, passes := x.passes + 1 }

/-- Reachable states: the request is issued at some moment of some run of a link with buffer size `n`.
DefaultRequestHandlerModel.hpp l.261-264. -/
inductive Reach (c : Cfg) (n limit : Nat) (dr : Request) : St → Prop where
  | issued (s : Session.St) (h : Session.Reach c n s) (hp : s.phase = .running) :
      Reach c n limit dr ⟨s, .pool, 0, 0⟩
  | step (x x' : St) (h : Reach c n limit dr x) (st : Step c limit dr x x') : Reach c n limit dr x'

end Verif.Retry
