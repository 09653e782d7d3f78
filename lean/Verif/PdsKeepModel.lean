import Verif.PdsLinkModel
import Verif.RetainModel
import Verif.RetryModel
/-
Photon-detector links with a buffer searched by bisection (module PdsLink), over time: cleanups with the configured limit and
fraction (as in module Retain), and one request from being issued to being answered (as in module Retry).

Simplifications: those of the modules PdsLink, Retain and Retry.
-/
namespace Verif.PdsKeep
open Verif.Session Verif.DataReq

/-- One step of a link whose cleanups use the settings `h`: ReadoutModel.hpp l.135-176, 228-257;
DefaultRequestHandlerModel.hpp l.144-182, 261-305, 407-502. -/
inductive Step (rnd : ℚ → ℚ) (h : Conf.Handler) (c : Cfg) : St → St → Prop where
  /-- ReadoutModel.hpp l.135-157 -/
  | start (s : St) (hp : s.phase = .idle) : Step rnd h c s (startCmd c s)
  /-- ReadoutModel.hpp l.236-248 -/
  | receive (s s' : St) (t : Nat) (hp : s.phase ≠ .idle) (he : PdsLink.receive s t = .ok s') : Step rnd h c s s'
  /-- DefaultRequestHandlerModel.hpp l.407-438 -/
  | clean (s s' : St) (next : Nat) (hp : s.phase = .running ∨ s.phase = .stopping)
      (he : Retain.pass rnd h s next = .ok s') : Step rnd h c s s'
  /-- ReadoutModel.hpp l.172-175 -/
  | finish (s s' : St) (hp : s.phase = .joined) (he : Session.finish s = .ok s') : Step rnd h c s s'
  /-- the request threads and the phases of stop, DefaultRequestHandlerModel.hpp l.170-182, 261-305, 440-502; the data
  path is not touched -/
  | other (s s' : St) (st : Session.Step c s s') (hd : s'.p = s.p) (hl : s'.log = s.log) (hr : s'.run = s.run)
      (hi : s'.phase = .idle ↔ s.phase = .idle) : Step rnd h c s s'

/-- Reachable states, from a link with buffer size `n` whose handler has the settings `h`. ReadoutModel.hpp l.82-176. -/
inductive Reach (rnd : ℚ → ℚ) (h : Conf.Handler) (c : Cfg) (n : Nat) : St → Prop where
  | init : Reach rnd h c n (St.init n)
  | step (s s' : St) (hs : Reach rnd h c n s) (st : Step rnd h c s s') : Reach rnd h c n s'

/-- One step of a link and a request during a run, as in module Retry. DefaultRequestHandlerModel.hpp l.261-305,
440-502. -/
inductive RStep (c : Cfg) (limit : Nat) (dr : Request) : Retry.St → Retry.St → Prop where
  /-- anything else that happens during the run -/
  | link (x : Retry.St) (s' : St) (hp : x.s.phase = .running) (st : PdsLink.Step c x.s s')
      (hp' : s'.phase = .running) : RStep c limit dr x { x with s := s' }
  /-- l.272, 278-284 -/
  | reply (x : Retry.St) (r : Result Nat) (fr : Fragment Nat) (h : x.place = .pool) (he : answer c x.s dr = .ok r)
      (hf : r.fragment = some fr) : RStep c limit dr x { x with place := .answered false, evals := x.evals + 1 }
  /-- l.272, 288 -/
  | notYet (x : Retry.St) (r : Result Nat) (h : x.place = .pool) (he : answer c x.s dr = .ok r)
      (hf : r.fragment = none) : RStep c limit dr x { x with place := .toPark, evals := x.evals + 1 }
  | park (x : Retry.St) (h : x.place = .toPark) : RStep c limit dr x { x with place := Retry.parked }
  /-- l.442-500 -/
  | pass (x : Retry.St) (r t : Nat) (h : x.place = .waiting r) (hn : Retry.newest x.s = .ok t) :
      RStep c limit dr x { x with place := Retry.treat dr limit t r, passes := x.passes + 1 }

/-- Reachable states: the request is issued at some moment of some run. DefaultRequestHandlerModel.hpp l.261-264. -/
inductive RReach (c : Cfg) (n limit : Nat) (dr : Request) : Retry.St → Prop where
  | issued (s : St) (h : PdsLink.Reach c n s) (hp : s.phase = .running) : RReach c n limit dr ⟨s, .pool, 0, 0⟩
  | step (x x' : Retry.St) (h : RReach c n limit dr x) (st : RStep c limit dr x x') : RReach c n limit dr x'

end Verif.PdsKeep
