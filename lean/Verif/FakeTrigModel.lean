import Verif.RetainModel
import Verif.MiscModel
/-
A readout link with fake triggers: the time synchronisation thread (include/readout/models/ReadoutModel.hpp l.259-307)
takes the time of the newest payload and asks the link's own request handler for a window before it, once for every
response queue. The link is that of the module Retain; the requests are those of the module Misc.

Simplified: the trigger number does not overflow (C54); the fields of a request that the code does not set have any fixed
values; the time synchronisation messages themselves are left out (C78).
-/
namespace Verif.FakeTrig
open Verif.Session Verif.DataReq

/-- Fixed: the number of response queues (ReadoutModel.hpp l.92-99) and the initial values of the two fields of a request that
l.276-284 do not set. -/
structure Fake where
  nq : Nat
  run0 : Nat
  seq0 : Nat

/-- A request handed to the handler (ghost): run, DAQ time seen, trigger number, response queue, and whether the pool was
still there. ReadoutModel.hpp l.288-290. -/
structure Made where
  run : Nat
  daq : Nat
  num : Nat
  queue : Nat
  taken : Bool
  deriving DecidableEq

/-- The request, ReadoutModel.hpp l.276-284. -/
def reqOf (f : Fake) (num daq : Nat) : Request :=
  let r := Misc.fakeReq (num - 1) daq
  ⟨r.num, r.ts, r.wb, r.we, f.run0, f.seq0⟩

/-- The link, `m_current_fake_trigger_id`, the local variables of the loop body (DAQ time and index of the next response queue),
and the requests made so far. ReadoutModel.hpp l.266-292, 354. -/
structure St where
  x : Retain.St
  num : Nat
  seen : Option (Nat × Nat)
  made : List Made

/-- After `init` and `conf`. ReadoutModel.hpp l.70-71, 82-133. -/
def St.init (n : Nat) : St := ⟨Retain.St.init n, 0, none, []⟩

/-- Posting a request, DefaultRequestHandlerModel.hpp l.261-264. -/
def post (s : Session.St) (dr : Request) : Session.St := { s with pool := ⟨dr, s.run⟩ :: s.pool }

/-- One step of any thread or command. ReadoutModel.hpp l.135-176, 228-307; DefaultRequestHandlerModel.hpp l.144-182, 261-305,
407-502. -/
inductive Step (rnd : ℚ → ℚ) (h : Conf.Handler) (c : Cfg) (f : Fake) : St → St → Prop where
  /-- everything but this thread; stop waits for it (ReadoutModel.hpp l.163-165) -/
  | link (s : St) (x' : Retain.St) (st : Retain.Step rnd h c s.x x')
      (hj : x'.s.phase = .idle → s.x.s.phase = .idle ∨ s.seen = none) : Step rnd h c f s { s with x := x' }
  /-- l.265-279: the DAQ time is taken, the number incremented -/
  | load (s : St) (hp : s.x.s.phase ≠ .idle) (hn : s.seen = none) (hd : s.x.s.p.ck.last ≠ 0) :
      Step rnd h c f s { s with num := s.num + 1, seen := some (s.x.s.p.ck.last, 0) }
  /-- l.288-290 -/
  | issue (s : St) (d q : Nat) (hs : s.seen = some (d, q)) (hq : q < f.nq)
      (hp : s.x.s.phase = .running ∨ s.x.s.phase = .stopping) :
      Step rnd h c f s { s with x := { s.x with s := post s.x.s (reqOf f s.num d) }, seen := some (d, q + 1),
                                made := ⟨s.x.s.run, d, s.num, q, true⟩ :: s.made }
  /-- the same when the handler's stop has returned: the joined pool never runs the request -/
  | late (s : St) (d q : Nat) (hs : s.seen = some (d, q)) (hq : q < f.nq) (hp : s.x.s.phase = .joined) :
      Step rnd h c f s { s with seen := some (d, q + 1), made := ⟨s.x.s.run, d, s.num, q, false⟩ :: s.made }
  /-- l.291-303: the end of the loop body -/
  | done (s : St) (d q : Nat) (hs : s.seen = some (d, q)) (hq : f.nq ≤ q) : Step rnd h c f s { s with seen := none }

/-- Reachable states. ReadoutModel.hpp l.82-176, 259-307. -/
inductive Reach (rnd : ℚ → ℚ) (h : Conf.Handler) (c : Cfg) (f : Fake) (n : Nat) : St → Prop where
  | init : Reach rnd h c f n (St.init n)
  | step (s s' : St) (hs : Reach rnd h c f n s) (st : Step rnd h c f s s') : Reach rnd h c f n s'

end Verif.FakeTrig
