import Verif.PipelineModel
import Verif.DataReqModel
/-
Several runs of one readout link, end to end: the commands start and stop
(include/readout/models/ReadoutModel.hpp l.135-176), the consumer (l.228-257), the requester
(l.309-346), the cleanup thread, the request pool and the waiting-list thread
(include/readout/models/DefaultRequestHandlerModel.hpp l.144-182, 261-305, 407-502, 504-623), for
the fixed-rate detector types. A payload is represented by its first timestamp.

Simplifications: the evaluation of a data request is one step (no cleanup can run during it, see C19;
arrivals during it are treated in C04 and C63), a cleanup is one step, the retry counter is not kept (a
parked request may be given up at any time), and a fragment that cannot be pushed is treated like
one that was (it appears in `sent`; C17 separates the two).
-/
namespace Verif.Session
open Verif.Ring Verif.Registry Verif.TsCheck Verif.DataReq

/-- Fixed parameters of a link.
`expected_tick_difference` and frames per payload (include/readout/ReadoutTypes.hpp l.82-284), the
geo id and fragment type (DefaultRequestHandlerModel.hpp l.111-113, 376), and whether the frame
processor's `start` forgets the previous timestamp (src/wib/WIBFrameProcessor.hpp l.91-173 does,
src/wib2/WIB2FrameProcessor.hpp has no `start`). -/
structure Cfg where
  tick : Nat
  nf : Nat
  look : Lookup
  geo : GeoId
  ft : Nat
  resets : Bool

/-- The payload type: `nf` frames, one every `tick` from the first timestamp on.
include/readout/ReadoutTypes.hpp l.82-142, 158-214, 228-284. -/
def Cfg.T (c : Cfg) : PayloadType Nat := ⟨id, fun _ => c.nf, fun t i => t + i * c.tick, c.tick⟩

/-- Progress of a run. ReadoutModel.hpp l.159-176, DefaultRequestHandlerModel.hpp l.170-182. -/
inductive Phase where
  | idle      -- before the first start, or stop has returned
  | running   -- start has returned, stop not called
  | stopping  -- run marker cleared (l.172), handler threads still running
  | joined    -- the handler's stop has returned, the consumer still drains (ReadoutModel.hpp l.163-171)
  deriving DecidableEq

/-- A payload handed to the consumer: in which run, its timestamp, and whether the latency buffer
took it (ghost). ReadoutModel.hpp l.240-245. -/
structure Arrival where
  run : Nat
  ts : Nat
  stored : Bool
  deriving DecidableEq

/-- A request with the run in which it was issued (ghost).
DefaultRequestHandlerModel.hpp l.83-96, 261-264. -/
structure Issued where
  dr : Request
  run : Nat
  deriving DecidableEq

/-- A fragment handed to the output queue, with the run it was issued in and the run in which it
was sent (ghost). DefaultRequestHandlerModel.hpp l.284, 467, 486. -/
structure Sent where
  req : Issued
  run : Nat
  frag : Fragment Nat

/-- State of the link. ReadoutModel.hpp l.348-395, DefaultRequestHandlerModel.hpp l.625-695. -/
structure St where
  p : Pipeline.St
  run : Nat                -- number of start commands so far (ghost)
  phase : Phase
  log : List Arrival       -- ghost: all payloads received, oldest first
  pool : List Issued       -- posted, not evaluated (l.264)
  toPark : List Issued     -- evaluated as not yet (l.288), not parked yet
  waiting : List Issued    -- m_waiting_requests (l.292)
  waiterGone : Bool        -- the waiting-list thread has returned
  lateParked : Bool        -- ghost: some request was parked after that
  sent : List Sent

/-- After `init` and `conf` with a buffer of size `n` and an empty registry.
ReadoutModel.hpp l.82-133. -/
def St.init (n : Nat) : St :=
  ⟨⟨⟨0, 0, 0, []⟩, Ring.init Nat n⟩, 0, .idle, [], [], [], [], true, false, []⟩

/-- `start`, ReadoutModel.hpp l.135-157: the processor's start (WIBFrameProcessor.hpp l.91-173) and
the handler's (DefaultRequestHandlerModel.hpp l.144-168: new pool, new waiting-list thread). The
registry, the waiting list and, for some processors, the previous timestamp are kept. -/
def startCmd (c : Cfg) (s : St) : St :=
  { s with
    p := { s.p with ck := if c.resets then { s.p.ck with prev := 0, errors := 0 } else s.p.ck }
    run := s.run + 1
    phase := .running
    pool := []
    waiterGone := false }

/-- A payload arrives, ReadoutModel.hpp l.236-248. -/
def receive (c : Cfg) (s : St) (t : Nat) : Outcome St := do
  let r ← Pipeline.receive (c.tick * c.nf) s.p t
  .ok { s with p := r.1, log := s.log ++ [⟨s.run, t, r.2⟩] }

/-- A cleanup, DefaultRequestHandlerModel.hpp l.415-438. -/
def clean (s : St) (limit toPop next : Nat) : Outcome St := do
  let p ← Pipeline.clean limit toPop next s.p
  .ok { s with p := p }

/-- The answer to a request in the present state, DefaultRequestHandlerModel.hpp l.504-623: the error
flag comes from the shared registry (l.534), the run marker is set until stop (l.588). The counters
are treated in C12 and start from zero here. -/
def answer (c : Cfg) (s : St) (dr : Request) : Outcome (Result Nat) :=
  dataRequest c.T c.look c.geo c.ft s.p.q (hasErrorNamed s.p.ck.reg "MISSING_FRAMES")
    (decide (s.phase = .running)) ⟨0, 0, 0, 0, 0, 0⟩ dr

/-- End of `stop`, ReadoutModel.hpp l.172-175: the buffer is flushed, the last timestamp for the time
synchronisation is reset. -/
def finish (s : St) : Outcome St := do
  let q ← s.p.q.flush
  .ok { s with p := ⟨{ s.p.ck with last := 0 }, q⟩, phase := .idle }

/-- One step of any thread or command.
ReadoutModel.hpp l.135-176, 228-257, 309-346; DefaultRequestHandlerModel.hpp l.144-182, 261-305, 407-502. -/
inductive Step (c : Cfg) : St → St → Prop where
  /-- ReadoutModel.hpp l.135-157. -/
  | start (s : St) (hp : s.phase = .idle) : Step c s (startCmd c s)
  /-- ReadoutModel.hpp l.236-248: the consumer works from start until the queue is drained. -/
  | receive (s s' : St) (t : Nat) (hp : s.phase ≠ .idle) (he : receive c s t = .ok s') : Step c s s'
  /-- l.407-413: the cleanup thread is joined in `stop` (l.177-179). -/
  | clean (s s' : St) (limit toPop next : Nat) (hp : s.phase = .running ∨ s.phase = .stopping)
      (he : clean s limit toPop next = .ok s') : Step c s s'
  /-- l.261-264: a request is posted. A joined pool never runs it (C17), so only before that. -/
  | issue (s : St) (dr : Request) (hp : s.phase = .running ∨ s.phase = .stopping) :
      Step c s { s with pool := ⟨dr, s.run⟩ :: s.pool }
  /-- l.272, 278-284: evaluated, fragment sent. -/
  | reply (s : St) (x : Issued) (r : Result Nat) (fr : Fragment Nat) (h : x ∈ s.pool)
      (hp : s.phase = .running ∨ s.phase = .stopping) (he : answer c s x.dr = .ok r)
      (hf : r.fragment = some fr) :
      Step c s { s with pool := s.pool.erase x, sent := ⟨x, s.run, fr⟩ :: s.sent }
  /-- l.272, 288: evaluated as not yet. -/
  | notYet (s : St) (x : Issued) (r : Result Nat) (h : x ∈ s.pool)
      (hp : s.phase = .running ∨ s.phase = .stopping) (he : answer c s x.dr = .ok r)
      (hf : r.fragment = none) :
      Step c s { s with pool := s.pool.erase x, toPark := x :: s.toPark }
  /-- l.291-292. -/
  | park (s : St) (x : Issued) (h : x ∈ s.toPark) :
      Step c s { s with toPark := s.toPark.erase x, waiting := x :: s.waiting,
                        lateParked := s.lateParked || s.waiterGone }
  /-- l.452-456. -/
  | reissue (s : St) (x : Issued) (h : x ∈ s.waiting) (hw : s.waiterGone = false) :
      Step c s { s with waiting := s.waiting.erase x, pool := x :: s.pool }
  /-- l.457-468, 477-487. -/
  | giveUp (s : St) (x : Issued) (h : x ∈ s.waiting) (hw : s.waiterGone = false) :
      Step c s { s with waiting := s.waiting.erase x,
                        sent := ⟨x, s.run, createEmpty Nat c.geo c.ft x.dr⟩ :: s.sent }
  /-- l.172. -/
  | stopCall (s : St) (hp : s.phase = .running) : Step c s { s with phase := .stopping }
  /-- l.442: the waiting-list thread leaves its loop. -/
  | waiterExit (s : St) (hp : s.phase = .stopping) (h : s.waiting = []) :
      Step c s { s with waiterGone := true }
  /-- l.180-181: the waiting-list thread is gone and all posted tasks have finished. -/
  | join (s : St) (hp : s.phase = .stopping) (hw : s.waiterGone = true) (h1 : s.pool = [])
      (h2 : s.toPark = []) : Step c s { s with phase := .joined }
  /-- ReadoutModel.hpp l.172-175. -/
  | finish (s s' : St) (hp : s.phase = .joined) (he : finish s = .ok s') : Step c s s'

/-- Reachable states, from a configured link with buffer size `n`. ReadoutModel.hpp l.82-176. -/
inductive Reach (c : Cfg) (n : Nat) : St → Prop where
  | init : Reach c n (St.init n)
  | step (s s' : St) (h : Reach c n s) (st : Step c s s') : Reach c n s'

end Verif.Session
