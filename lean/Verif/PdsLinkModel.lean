import Verif.SessionModel
/-
Several runs of a photon-detector link whose latency buffer is searched by bisection (pds_queue: DAPHNE
superchunks of 12 frames, 16 ticks apart; ssp: one frame per payload; both outside emulator mode; src/CreateReadout.hpp l.88-100, 126-137).
The handler, the commands and the threads are those of the module Session; what differs is the frame processor:
src/daphne/DAPHNEFrameProcessor.hpp l.59-91 and src/ssp/SSPFrameProcessor.hpp l.67-88 compare no timestamps and
register no errors, so nothing about missing payloads is ever known to the link.

Simplifications: those of the module Session.
-/
namespace Verif.PdsLink
open Verif.Session

/-- A payload arrives, include/readout/models/ReadoutModel.hpp l.236-248: the processor only remembers the timestamp
for the time synchronisation (DAPHNEFrameProcessor.hpp l.72-90, SSPFrameProcessor.hpp l.67-88), then the payload is
written to the buffer, which may refuse it. -/
def receive (s : St) (t : Nat) : Outcome St := do
  let r ← s.p.q.write t
  .ok { s with p := ⟨{ s.p.ck with prev := t, last := t }, r.1⟩, log := s.log ++ [⟨s.run, t, r.2⟩] }

/-- One step of any thread or command: an arrival, or a step of the module Session that is not one (only arrivals
add to the log). ReadoutModel.hpp l.135-176, 228-257, 309-346; DefaultRequestHandlerModel.hpp l.144-182, 261-305, 407-502. -/
inductive Step (c : Cfg) : St → St → Prop where
  /-- ReadoutModel.hpp l.236-248 -/
  | receive (s s' : St) (t : Nat) (hp : s.phase ≠ .idle) (he : receive s t = .ok s') : Step c s s'
  /-- everything else -/
  | other (s s' : St) (st : Session.Step c s s') (hl : s'.log = s.log) : Step c s s'

/-- Reachable states, from a configured link with buffer size `n`. ReadoutModel.hpp l.82-176. -/
inductive Reach (c : Cfg) (n : Nat) : St → Prop where
  | init : Reach c n (St.init n)
  | step (s s' : St) (h : Reach c n s) (st : Step c s s') : Reach c n s'

end Verif.PdsLink
