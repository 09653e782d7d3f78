import Verif.SessionModel
import Verif.ConfModel
/-
Runs of a readout link whose cleanups use the configured limit and fraction: the module Session, in which a cleanup may
have any parameters, restricted to the parameters that `conf` has stored
(include/readout/models/DefaultRequestHandlerModel.hpp l.114-121, 250-259, 407-438).

Simplifications: those of the module Session; a cleanup (l.415-438) is one step.
-/
namespace Verif.Retain
open Verif.Session

/-- The largest 64-bit number, `m_next_timestamp_to_record` while nothing is recorded,
DefaultRequestHandlerModel.hpp l.660. -/
def noRecording : Nat := 18446744073709551615

/-- A link, with ghosts: payloads received since the last cleanup pass (or the start of the run), the greatest value of
that number so far, and whether a cleanup pass has met a recording. ReadoutModel.hpp l.236-248,
DefaultRequestHandlerModel.hpp l.407-431. -/
structure St where
  s : Session.St
  since : Nat
  worst : Nat
  held : Bool

/-- After `init` and `conf`. ReadoutModel.hpp l.82-133. -/
def St.init (n : Nat) : St := ⟨Session.St.init n, 0, 0, false⟩

/-- A cleanup pass with the settings of the handler and the recording position `next`,
DefaultRequestHandlerModel.hpp l.250-259, 415-438. -/
def pass (rnd : ℚ → ℚ) (h : Conf.Handler) (s : Session.St) (next : Nat) : Outcome Session.St :=
  Session.clean s h.limitSize (Cleanup.toPopOf rnd h.sizePct s.p.q.occupancy) next

/-- Ghosts after an arrival. ReadoutModel.hpp l.240-245. -/
def arrived (x : St) (s' : Session.St) : St := ⟨s', x.since + 1, max x.worst (x.since + 1), x.held⟩

/-- Ghosts after a cleanup pass. DefaultRequestHandlerModel.hpp l.407-413. -/
def passed (x : St) (s' : Session.St) (next : Nat) : St := ⟨s', 0, x.worst, x.held || next != noRecording⟩

/-- One step of any thread or command. ReadoutModel.hpp l.135-176, 228-257; DefaultRequestHandlerModel.hpp l.144-182,
261-305, 407-502. -/
inductive Step (rnd : ℚ → ℚ) (h : Conf.Handler) (c : Cfg) : St → St → Prop where
  /-- ReadoutModel.hpp l.135-157 -/
  | start (x : St) (hp : x.s.phase = .idle) : Step rnd h c x ⟨startCmd c x.s, 0, x.worst, x.held⟩
  /-- ReadoutModel.hpp l.236-248 -/
  | receive (x : St) (s' : Session.St) (t : Nat) (hp : x.s.phase ≠ .idle) (he : Session.receive c x.s t = .ok s') :
      Step rnd h c x (arrived x s')
  /-- DefaultRequestHandlerModel.hpp l.407-438 -/
  | clean (x : St) (s' : Session.St) (next : Nat) (hp : x.s.phase = .running ∨ x.s.phase = .stopping)
      (he : pass rnd h x.s next = .ok s') : Step rnd h c x (passed x s' next)
  /-- ReadoutModel.hpp l.172-175 -/
  | finish (x : St) (s' : Session.St) (hp : x.s.phase = .joined) (he : Session.finish x.s = .ok s') :
      Step rnd h c x { x with s := s' }
  /-- everything else: the request threads and the phases of stop, DefaultRequestHandlerModel.hpp l.170-182, 261-305,
  440-502; the data path is not touched -/
  | other (x : St) (s' : Session.St) (st : Session.Step c x.s s') (hd : s'.p = x.s.p) (hl : s'.log = x.s.log)
      (hr : s'.run = x.s.run) (hi : s'.phase = .idle ↔ x.s.phase = .idle) : Step rnd h c x { x with s := s' }

/-- Reachable states, from a link with buffer size `n` whose handler has the settings `h`. ReadoutModel.hpp l.82-176. -/
inductive Reach (rnd : ℚ → ℚ) (h : Conf.Handler) (c : Cfg) (n : Nat) : St → Prop where
  | init : Reach rnd h c n (St.init n)
  | step (x x' : St) (hx : Reach rnd h c n x) (st : Step rnd h c x x') : Reach rnd h c n x'

end Verif.Retain
