import Verif.DataReqModel
/-
Which response queue a request is answered on: queue set-up and the request path of
include/readout/models/ReadoutModel.hpp l.211-226, 276-293, 309-346, the default handler
(DefaultRequestHandlerModel.hpp l.261-305, 440-502) and the handler of trigger primitive links
(EmptyFragmentRequestHandlerModel.hpp l.40-64).
-/
namespace Verif.Route
open Verif.DataReq

/-- Which queues the configuration names: `data_requests_i` and `data_response_i`. ReadoutModel.hpp l.213. -/
structure Names where
  req : List Nat
  resp : List Nat
  deriving DecidableEq

/-- `setup_request_response_queues`, ReadoutModel.hpp l.211-226: the indices, in order, of the queue pairs; the
list of requests names is finite, so `fuel` beyond its length is never used up. -/
def setupFrom (n : Names) : Nat → Nat → Outcome (List Nat)
  | 0, _ => .throws .hang
  | fuel + 1, index =>
    if index ∈ n.req then
      if index ∈ n.resp then do
        let rest ← setupFrom n fuel (index + 1)
        .ok (index :: rest)
      else .throws .configError
    else .ok []

/-- The whole set-up. ReadoutModel.hpp l.211-226. -/
def setup (n : Names) : Outcome (List Nat) := setupFrom n (n.req.length + 1) 0

/-- Which handler. src/CreateReadout.hpp l.66, 78, 90, 102, 113, 126, 137, 149. -/
inductive Handler
  | default | empty
  deriving DecidableEq

/-- A request on its way with the sink it was issued with: the captured `datarequest` and `fragment_queue`
(DefaultRequestHandlerModel.hpp l.264) or a `RequestElement` (l.292). -/
structure Job where
  dr : Request
  sink : Nat
  deriving DecidableEq

/-- A fragment on a response queue: header only; which frames is the subject of C11. -/
structure Sent where
  sink : Nat
  header : Header
  deriving DecidableEq

/-- ReadoutModel.hpp l.377-382, DefaultRequestHandlerModel.hpp l.625-695. `queue i` holds the requests in request
queue `i`. Ghosts: `asked`, every request sent to the link with the number of its request queue; `faked`, every
fake trigger with the response queue it was made up for (l.288-290); `lost`, those whose push failed; `dropped`,
those cleared at the end (l.339-344). -/
structure St where
  queue : Nat → List Request
  pool : List Job
  waiting : List Job
  out : List Sent
  asked : List Job
  faked : List Job
  lost : List Job
  dropped : List Job

/-- DefaultRequestHandlerModel.hpp l.625-695. -/
def St.init : St := ⟨fun _ => [], [], [], [], [], [], [], []⟩

/-- `issue_request`: default handler (posted to the pool, l.264), or trigger primitive handler, where `ok` tells
whether the push succeeded (EmptyFragmentRequestHandlerModel.hpp l.43-63). -/
def issue (h : Handler) (geo : GeoId) (ft : Nat) (ok : Bool) (s : St) (dr : Request) (sink : Nat) : St :=
  match h with
  | .default => { s with pool := s.pool ++ [⟨dr, sink⟩] }
  | .empty =>
    if ok then { s with out := s.out ++ [⟨sink, (createEmpty Unit geo ft dr).header⟩] }
    else { s with lost := s.lost ++ [⟨dr, sink⟩] }

/-- Steps; `n` is the number of queue pairs. -/
inductive Step (h : Handler) (geo : GeoId) (ft n : Nat) : St → St → Prop where
  /-- The environment sends a request. -/
  | request (s : St) (i : Nat) (dr : Request) :
      Step h geo ft n s { s with queue := fun j => if j = i then s.queue j ++ [dr] else s.queue j,
                                 asked := s.asked ++ [⟨dr, i⟩] }
  /-- ReadoutModel.hpp l.318-324: one request of queue `i` is popped and issued with sink `i`. -/
  | take (s : St) (i : Nat) (dr : Request) (rest : List Request) (ok : Bool) (hi : i < n) (hq : s.queue i = dr :: rest) :
      Step h geo ft n s
        (issue h geo ft ok { s with queue := fun j => if j = i then rest else s.queue j } dr i)
  /-- l.288-290: a fake trigger is issued with sink `i`, for each `i` in turn. -/
  | fake (s : St) (i : Nat) (dr : Request) (ok : Bool) (hi : i < n) :
      Step h geo ft n s (issue h geo ft ok { s with faked := s.faked ++ [⟨dr, i⟩] } dr i)
  /-- DefaultRequestHandlerModel.hpp l.272-287: a pool task answers; its header is that of `data_request`, with or
  without the error bit. -/
  | answer (s : St) (pre post : List Job) (j : Job) (bad ok : Bool) (hp : s.pool = pre ++ j :: post) :
      Step h geo ft n s { s with
        pool := pre ++ post,
        out := if ok then s.out ++ [⟨j.sink, { createHeader geo ft j.dr with dataNotFound := bad }⟩] else s.out,
        lost := if ok then s.lost else s.lost ++ [j] }
  /-- l.288-292: a pool task parks its request. -/
  | park (s : St) (pre post : List Job) (j : Job) (hp : s.pool = pre ++ j :: post) :
      Step h geo ft n s { s with pool := pre ++ post, waiting := s.waiting ++ [j] }
  /-- l.452-456: a parked request is issued again with the sink it was parked with. (The removal by swapping with
  the last element changes only the order of the list.) -/
  | retry (s : St) (pre post : List Job) (j : Job) (w' : List Job) (hp : s.waiting = pre ++ j :: post)
      (hw : w'.Perm (pre ++ post)) :
      Step h geo ft n s { s with waiting := w', pool := s.pool ++ [j] }
  /-- l.457-476, 477-493: a parked request is given up. -/
  | giveUp (s : St) (pre post : List Job) (j : Job) (w' : List Job) (ok : Bool) (hp : s.waiting = pre ++ j :: post)
      (hw : w'.Perm (pre ++ post)) :
      Step h geo ft n s { s with
        waiting := w',
        out := if ok then s.out ++ [⟨j.sink, (createEmpty Unit geo ft j.dr).header⟩] else s.out,
        lost := if ok then s.lost else s.lost ++ [j] }
  /-- ReadoutModel.hpp l.339-344: a queue is cleared at the end of the run. -/
  | clear (s : St) (i : Nat) (hi : i < n) :
      Step h geo ft n s { s with queue := fun j => if j = i then [] else s.queue j,
                                 dropped := s.dropped ++ (s.queue i).map (fun dr => ⟨dr, i⟩) }

/-- Reachable states. ReadoutModel.hpp l.276-346. -/
inductive Reach (h : Handler) (geo : GeoId) (ft n : Nat) : St → Prop where
  | init : Reach h geo ft n St.init
  | step (s s' : St) (r : Reach h geo ft n s) (st : Step h geo ft n s s') : Reach h geo ft n s'

end Verif.Route
