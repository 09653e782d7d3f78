import Verif.EmuModel
import Verif.SessionModel
/-
An emulated front end and the link that reads it out, over any number of runs: the source emulator
(include/readout/models/SourceEmulatorModel.hpp l.129-143, 153-221) started and stopped by its card
(plugins/FakeCardReader.cpp l.135-160), the raw data queue between emulator and link, and the link
(module Session: include/readout/models/ReadoutModel.hpp, DefaultRequestHandlerModel.hpp). Run control
starts the link before the card and stops the card before the link, as in the generated application
(python/readout/app_confgen.py, module ConfGen).

Simplifications: those of the modules Emu and Session; the waiting of a push for room in the queue
(SourceEmulatorModel.hpp l.204, at most the configured timeout) is not a separate step: a push either
finds room, or finds the queue full and loses its payload. The consumer hands the timestamp of
a payload to the link model; the bytes of the payload stay with the record of what was emitted.
-/
namespace Verif.EmuLink
open Verif.Search (u64)

/-- The emulator's configuration, its first timestamp (SourceEmulatorModel.hpp l.172: `set_t0_to` or the first
timestamp of the file), the link (src/CreateReadout.hpp l.62-87) and the capacity of the queue between them
(python/readout/app_confgen.py l.66-74). -/
structure Cfg where
  emu : Emu.Cfg
  t0 : Nat
  link : Session.Cfg
  cap : Nat

/-- What run control has commanded so far in this run: nothing, link started, card started, card stopped, link
stop called. Order of python/readout/app_confgen.py l.424-460. -/
inductive Ctl where
  | down | linkUp | up | cardDown | ending
  deriving DecidableEq

/-- Both modules and the queue between them. SourceEmulatorModel.hpp l.159-175 (locals of the producer thread,
`none` while it has no work), ReadoutModel.hpp l.348-395. -/
structure St where
  ctl : Ctl
  prod : Option Emu.St
  queue : List (List Nat × Nat)
  link : Session.St
  warned : Nat             -- warnings CannotWriteToQueue (SourceEmulatorModel.hpp l.206)
  taken : List (Nat × List Nat × Nat)  -- ghost: payloads taken from the queue, with the run
  iters : Nat → Nat        -- ghost: loop iterations of the producer, by run
  lost : Nat → Nat         -- ghost: payloads that found the queue full, by run

/-- After `init` and `conf` of both modules; `n` is the latency buffer's size. ReadoutModel.hpp l.82-133,
FakeCardReader.cpp l.48-120. -/
def St.init (n : Nat) : St := ⟨.down, none, [], Session.St.init n, 0, [], fun _ => 0, fun _ => 0⟩

/-- Locals at the beginning of `run_produce`, SourceEmulatorModel.hpp l.159-175. -/
def begin (c : Cfg) : Emu.St := ⟨0, 0, c.t0, []⟩

/-- Ghost: add `k` to the entry of run `r`. Counts iterations and losses of SourceEmulatorModel.hpp l.177-219. -/
def bump (f : Nat → Nat) (r k : Nat) : Nat → Nat := fun x => if x = r then f x + k else f x

/-- What an iteration pushes: nothing or the payload it created, SourceEmulatorModel.hpp l.183-204. -/
def fresh (e e' : Emu.St) : List (List Nat × Nat) := e'.out.drop e.out.length

/-- The push of an iteration's payload, SourceEmulatorModel.hpp l.203-208: into the queue if there is room,
otherwise the payload is lost with a warning. -/
def push (c : Cfg) (s : St) (e : Emu.St) (xs : List (List Nat × Nat)) : St :=
  if s.queue.length + xs.length ≤ c.cap then
    { s with prod := some e, queue := s.queue ++ xs, iters := bump s.iters s.link.run 1 }
  else
    { s with prod := some e, warned := s.warned + xs.length, iters := bump s.iters s.link.run 1,
             lost := bump s.lost s.link.run xs.length }

/-- A payload taken from the queue goes to the link, ReadoutModel.hpp l.241-245. -/
def St.take (s : St) (x : List Nat × Nat) (rest : List (List Nat × Nat)) (l : Session.St) : St :=
  { s with queue := rest, link := l, taken := s.taken ++ [(s.link.run, x)] }

/-- One step of run control, of the producer, of the consumer or of any other thread of the link.
FakeCardReader.cpp l.135-160; SourceEmulatorModel.hpp l.129-143, 153-221; ReadoutModel.hpp l.135-176, 228-257. -/
inductive Step (c : Cfg) : St → St → Prop where
  /-- start of the link, ReadoutModel.hpp l.135-157 -/
  | startLink (s : St) (h : s.ctl = .down) :
      Step c s { s with ctl := .linkUp, link := Session.startCmd c.link s.link }
  /-- start of the card, FakeCardReader.cpp l.135-147; the producer's locals are set up anew -/
  | startCard (s : St) (h : s.ctl = .linkUp) : Step c s { s with ctl := .up, prod := some (begin c) }
  /-- one iteration of the producer, SourceEmulatorModel.hpp l.177-219 -/
  | produce (s : St) (e e' : Emu.St) (h : s.prod = some e) (he : Emu.iter c.emu e = .ok e') :
      Step c s (push c s e' (fresh e e'))
  /-- stop of the card, FakeCardReader.cpp l.149-160: returns once the producer has left its loop -/
  | stopCard (s : St) (h : s.ctl = .up) : Step c s { s with ctl := .cardDown, prod := none }
  /-- the consumer takes a payload from the queue, ReadoutModel.hpp l.236-248 -/
  | consume (s : St) (x : List Nat × Nat) (rest : List (List Nat × Nat)) (l : Session.St)
      (hq : s.queue = x :: rest) (hp : s.link.phase ≠ .idle)
      (he : Session.receive c.link s.link x.2 = .ok l) : Step c s (s.take x rest l)
  /-- stop of the link begins, DefaultRequestHandlerModel.hpp l.172 -/
  | stopLink (s : St) (h : s.ctl = .cardDown) (hp : s.link.phase = .running) :
      Step c s { s with ctl := .ending, link := { s.link with phase := .stopping } }
  /-- requests, cleanups, parking, retries and the joins of the link's other threads,
  DefaultRequestHandlerModel.hpp l.144-182, 261-305, 407-502 -/
  | other (s : St) (l : Session.St) (st : Session.Step c.link s.link l) (hlog : l.log = s.link.log)
      (hph : l.phase = s.link.phase ∨ (s.link.phase = .stopping ∧ l.phase = .joined)) :
      Step c s { s with link := l }
  /-- the consumer has drained the queue and the stop of the link returns, ReadoutModel.hpp l.166-175 -/
  | finish (s : St) (l : Session.St) (hq : s.queue = []) (hp : s.link.phase = .joined)
      (hc : s.ctl = .ending) (he : Session.finish s.link = .ok l) : Step c s { s with ctl := .down, link := l }

/-- Reachable states with a latency buffer of size `n`. FakeCardReader.cpp l.135-160, ReadoutModel.hpp l.82-176. -/
inductive Reach (c : Cfg) (n : Nat) : St → Prop where
  | init : Reach c n (St.init n)
  | step (s s' : St) (h : Reach c n s) (st : Step c s s') : Reach c n s'

end Verif.EmuLink
