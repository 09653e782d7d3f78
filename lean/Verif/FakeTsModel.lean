import Verif.PdsLinkModel
/-
Links in emulator mode (setting `emulator_mode`, include/readout/models/TaskRawDataProcessorModel.hpp l.50): the frame
processor overwrites the timestamps of every payload before anything else looks at it. WIB:
src/wib/WIBFrameProcessor.hpp l.282-321; WIB2: src/wib2/WIB2FrameProcessor.hpp l.58-98; DAPHNE:
src/daphne/DAPHNEFrameProcessor.hpp l.59-91. The handler, the commands and the other threads are those of the module Session.
(SSP and PACMAN processors do nothing in this mode: SSPFrameProcessor.hpp l.69-85 is a comment, PACMANFrameProcessor.hpp l.60-62
is empty.)

Simplifications: those of the modules Session and PdsLink; a payload is given by the timestamps of its frames.
-/
namespace Verif.FakeTs
open Verif.Session

/-- Timestamps written into a WIB or WIB2 payload with frame timestamps `orig`, WIBFrameProcessor.hpp l.285-294,
WIB2FrameProcessor.hpp l.61-71. -/
def rewrite (c : Cfg) (prev : Nat) (orig : List Nat) : List Nat :=
  TsCheck.emuLoop c.tick orig.length (Search.u64 (prev + c.tick * c.nf))

/-- A payload arrives at a WIB or WIB2 link, ReadoutModel.hpp l.236-248, WIBFrameProcessor.hpp l.282-321: overwritten,
then checked and written with its new first timestamp. -/
def receive (c : Cfg) (s : St) (orig : List Nat) : Outcome St :=
  Session.receive c s ((rewrite c s.p.ck.prev orig).headD 0)

/-- One step of a WIB or WIB2 link in emulator mode; a payload has `nf` frames, with any timestamps. ReadoutModel.hpp
l.135-176, 228-257, 309-346; DefaultRequestHandlerModel.hpp l.144-182, 261-305, 407-502. -/
inductive Step (c : Cfg) : St → St → Prop where
  /-- ReadoutModel.hpp l.236-248 -/
  | receive (s s' : St) (orig : List Nat) (hn : orig.length = c.nf) (hp : s.phase ≠ .idle)
      (he : receive c s orig = .ok s') : Step c s s'
  /-- everything else -/
  | other (s s' : St) (st : Session.Step c s s') (hl : s'.log = s.log) : Step c s s'

/-- Reachable states, from a configured link with buffer size `n`. ReadoutModel.hpp l.82-176. -/
inductive Reach (c : Cfg) (n : Nat) : St → Prop where
  | init : Reach c n (St.init n)
  | step (s s' : St) (h : Reach c n s) (st : Step c s s') : Reach c n s'

/-- A DAPHNE link: the link and `m_first_ts_fake` (DAPHNEFrameProcessor.hpp l.51), which no command sets again. -/
structure D where
  s : St
  first : Bool

/-- Timestamps written into a DAPHNE payload, DAPHNEFrameProcessor.hpp l.62-70 and ReadoutTypes.hpp l.254-263. -/
def rewriteD (c : Cfg) (prev : Nat) (first : Bool) (orig : List Nat) : List Nat :=
  TsCheck.emuLoop c.tick orig.length (if first then prev else Search.u64 (prev + c.tick * c.nf))

/-- A payload arrives at a DAPHNE link, ReadoutModel.hpp l.236-248, DAPHNEFrameProcessor.hpp l.59-91. -/
def receiveD (c : Cfg) (x : D) (orig : List Nat) : Outcome D := do
  let s' ← PdsLink.receive x.s ((rewriteD c x.s.p.ck.prev x.first orig).headD 0)
  .ok ⟨s', false⟩

/-- One step of a DAPHNE link in emulator mode. ReadoutModel.hpp l.135-176, 228-257, 309-346; DefaultRequestHandlerModel.hpp
l.144-182, 261-305, 407-502. -/
inductive StepD (c : Cfg) : D → D → Prop where
  /-- ReadoutModel.hpp l.236-248 -/
  | receive (x x' : D) (orig : List Nat) (hn : orig.length = c.nf) (hp : x.s.phase ≠ .idle)
      (he : receiveD c x orig = .ok x') : StepD c x x'
  /-- everything else -/
  | other (x : D) (s' : St) (st : Session.Step c x.s s') (hl : s'.log = x.s.log) : StepD c x ⟨s', x.first⟩

/-- Reachable states of a DAPHNE link with buffer size `n`. ReadoutModel.hpp l.82-176, DAPHNEFrameProcessor.hpp l.51. -/
inductive ReachD (c : Cfg) (n : Nat) : D → Prop where
  | init : ReachD c n ⟨St.init n, true⟩
  | step (x x' : D) (h : ReachD c n x) (st : StepD c x x') : ReachD c n x'

end Verif.FakeTs
