import Verif.EmuLinkModel
import Verif.PdsLinkModel
/-
An emulated DAPHNE front end (src/CreateSourceEmulator.hpp l.72-77: with dropouts) and the bisected link that reads it out
(src/CreateReadout.hpp l.88-100), over any number of runs: the modules EmuLink and PdsLink put together.

Simplifications: those of the modules EmuLink and PdsLink.
-/
namespace Verif.PdsEmu
open Verif.EmuLink (Cfg St push fresh)

/-- One step of run control, of the producer, of the consumer or of any other thread of the link.
FakeCardReader.cpp l.135-160; SourceEmulatorModel.hpp l.129-143, 153-221; ReadoutModel.hpp l.135-176, 228-257. -/
inductive Step (c : Cfg) : St → St → Prop where
  /-- start of the link, ReadoutModel.hpp l.135-157 -/
  | startLink (s : St) (h : s.ctl = .down) :
      Step c s { s with ctl := .linkUp, link := Session.startCmd c.link s.link }
  /-- start of the card, FakeCardReader.cpp l.135-147; the producer's locals are set up anew -/
  | startCard (s : St) (h : s.ctl = .linkUp) : Step c s { s with ctl := .up, prod := some (EmuLink.begin c) }
  /-- one iteration of the producer, SourceEmulatorModel.hpp l.172-217 -/
  | produce (s : St) (e e' : Emu.St) (h : s.prod = some e) (he : Emu.iter c.emu e = .ok e') :
      Step c s (push c s e' (fresh e e'))
  /-- stop of the card, FakeCardReader.cpp l.149-160: returns once the producer has left its loop -/
  | stopCard (s : St) (h : s.ctl = .up) : Step c s { s with ctl := .cardDown, prod := none }
  /-- the consumer takes a payload from the queue, ReadoutModel.hpp l.236-248;
  the processor compares nothing (module PdsLink) -/
  | consume (s : St) (x : List Nat × Nat) (rest : List (List Nat × Nat)) (l : Session.St)
      (hq : s.queue = x :: rest) (hp : s.link.phase ≠ .idle)
      (he : PdsLink.receive s.link x.2 = .ok l) : Step c s (s.take x rest l)
  /-- stop of the link begins, DefaultRequestHandlerModel.hpp l.172 -/
  | stopLink (s : St) (h : s.ctl = .cardDown) (hp : s.link.phase = .running) :
      Step c s { s with ctl := .ending, link := { s.link with phase := .stopping } }
  /-- requests, cleanups, parking, retries and the joins of the link's other threads,
  DefaultRequestHandlerModel.hpp l.144-182, 261-305, 407-502 -/
  | other (s : St) (l : Session.St) (st : Session.Step c.link s.link l) (hlog : l.log = s.link.log)
      (hph : l.phase = s.link.phase ∨ (s.link.phase = .stopping ∧ l.phase = .joined)) :
      Step c s { s with link := l }
  /-- the consumer has drained the queue and the stop of the link returns, ReadoutModel.hpp l.166-175 -/
  | finish (s : St) (l : Session.St) (hq : s.queue = []) (hp : s.link.phase = .joined)
      (hc : s.ctl = .ending) (he : Session.finish s.link = .ok l) : Step c s { s with ctl := .down, link := l }

/-- Reachable states with a latency buffer of size `n`. FakeCardReader.cpp l.135-160, ReadoutModel.hpp l.82-176. -/
inductive Reach (c : Cfg) (n : Nat) : St → Prop where
  | init : Reach c n (EmuLink.St.init n)
  | step (s s' : St) (h : Reach c n s) (st : Step c s s') : Reach c n s'

end Verif.PdsEmu
