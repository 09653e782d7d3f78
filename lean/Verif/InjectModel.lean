import Verif.EmuModel
import Verif.FrameErrModel
/-
Frame errors from the emulator that injects them to the reports and the queue of errored frames, over any number of
runs: the producer (include/readout/models/SourceEmulatorModel.hpp l.93-143, 153-221) with its error bit generator
(module Emu), the raw data queue, the consumer (include/readout/models/ReadoutModel.hpp l.228-257) with the error check
of the WIB processor (module FrameErr, src/wib/WIBFrameProcessor.hpp l.136-173, 240-270, 326-364), and reports at any
time. Run control starts the link before the card and stops the card before the link (module EmuLink).

A payload is the list of the error words of its twelve frames. As in EmuLink a push either finds room or loses its
payload. Whether the queue of errored frames takes a frame is left to the environment. One conf command; counters are
natural numbers (`m_frame_error_count` and `m_frames_processed` are 64 bits wide).
-/
namespace Verif.Inject

/-- The emulator's tables, dropout pattern and file (the error words of its payloads), capacity of the raw data queue
(python/readout/app_confgen.py l.66-74), settings of the error check, and whether the link is a WIB link. The payload
types of WIB2 and DAPHNE ignore the injected errors and their processors do not check for any
(include/readout/ReadoutTypes.hpp l.195-198, 265-268; src/wib2/WIB2FrameProcessor.hpp l.44,
src/daphne/DAPHNEFrameProcessor.hpp l.44). SourceEmulatorModel.hpp l.93-118. -/
structure Cfg where
  tables : Emu.Tables
  drops : List Bool
  file : List (List Nat)
  cap : Nat
  err : FrameErr.Cfg
  wib : Bool

/-- What run control has commanded so far in this run: nothing, link started, card started, card stopped.
Order of python/readout/app_confgen.py l.424-460. -/
inductive Ctl where
  | down | linkUp | up | cardDown
  deriving DecidableEq

/-- A payload created by the emulator (ghost): the run, the error words, and whether the queue had room.
SourceEmulatorModel.hpp l.185-208. -/
structure Made where
  run : Nat
  words : List Nat
  arrived : Bool
  deriving DecidableEq

/-- Emulator, queues and link: the generator (SourceEmulatorModel.hpp l.254), the producer's locals (l.159-175), the raw
data queue, the frames still to be checked of the payload in the consumer's hands, the state of the error check
(WIBFrameProcessor.hpp l.563-567, 593-594). Observable: the frames handed to the queue of errored frames and the
reported numbers, with the run. Ghost: the payloads created. -/
structure St where
  ctl : Ctl
  run : Nat
  gen : Emu.Gen
  di : Nat
  offset : Nat
  queue : List (List Nat)
  frames : List Nat
  fe : FrameErr.St
  sent : List (Nat × Nat)
  reports : List (Nat × Nat)
  made : List Made

/-- After `init` and `conf`. SourceEmulatorModel.hpp l.93-118, WIBFrameProcessor.hpp l.200-238. -/
def St.init : St := ⟨.down, 0, Emu.gen0, 0, 0, [], [], FrameErr.init, [], [], []⟩

/-- The words for a payload, SourceEmulatorModel.hpp l.196-199: `n` calls of `next`. -/
def draw (t : Emu.Tables) : Nat → Emu.Gen → Emu.Gen × List Nat
  | 0, g => (g, [])
  | n + 1, g =>
    let r := draw t n g
    ((Emu.next t r.1).1, r.2 ++ [(Emu.next t r.1).2])

/-- `fake_frame_errors`, ReadoutTypes.hpp l.119-126 (WIB: all twelve words are overwritten), l.195-198 and 265-268 (the
payload keeps its words). -/
def fakeErrors (wib : Bool) (old new : List Nat) : List Nat := if wib then new else old

/-- Which payload of the file is next, SourceEmulatorModel.hpp l.179-181 (module Emu, `wrapped_eq`). -/
def nextElem (c : Cfg) (s : St) : Nat := if s.offset < c.file.length then s.offset else 0

/-- The start of the link, WIBFrameProcessor.hpp l.169-170: two counters are zeroed, the one per error bit are not. -/
def startLink (s : St) : St :=
  { s with ctl := .linkUp, run := s.run + 1, fe := { s.fe with total := 0, processed := 0 } }

/-- An iteration that creates a payload, SourceEmulatorModel.hpp l.185-213. -/
def create (c : Cfg) (s : St) (old : List Nat) : St :=
  let r := draw c.tables 12 s.gen
  let p := fakeErrors c.wib old r.2
  let room : Bool := decide (s.queue.length + 1 ≤ c.cap)
  { s with gen := r.1, di := (s.di + 1) % c.drops.length, offset := nextElem c s + 1,
           queue := if room then s.queue ++ [p] else s.queue, made := s.made ++ [⟨s.run, p, room⟩] }

/-- The check of one frame, WIBFrameProcessor.hpp l.332-363. -/
def check (c : Cfg) (s : St) (w : Nat) (ws : List Nat) (ok : Nat → Bool) : St :=
  let r := FrameErr.frame c.err s.fe ⟨w, ok⟩
  { s with frames := ws, fe := r.1, sent := s.sent ++ List.replicate r.2.pushes (s.run, w) }

/-- One step of run control, the producer, the consumer or a report. -/
inductive Step (c : Cfg) : St → St → Prop where
  /-- ReadoutModel.hpp l.135-157 -/
  | startLink (s : St) (h : s.ctl = .down) : Step c s (startLink s)
  /-- plugins/FakeCardReader.cpp l.135-147; the producer's locals are set up anew, SourceEmulatorModel.hpp l.159-175 -/
  | startCard (s : St) (h : s.ctl = .linkUp) : Step c s { s with ctl := .up, di := 0, offset := 0 }
  /-- SourceEmulatorModel.hpp l.183-213 -/
  | create (s : St) (old : List Nat) (h : s.ctl = .up) (hd : c.drops[s.di]? = some true)
      (hf : c.file[nextElem c s]? = some old) : Step c s (create c s old)
  /-- SourceEmulatorModel.hpp l.183-185, 216: no payload is created -/
  | drop (s : St) (h : s.ctl = .up) (hd : c.drops[s.di]? = some false) :
      Step c s { s with di := (s.di + 1) % c.drops.length, offset := nextElem c s }
  /-- FakeCardReader.cpp l.149-160 -/
  | stopCard (s : St) (h : s.ctl = .up) : Step c s { s with ctl := .cardDown }
  /-- the consumer takes a payload, ReadoutModel.hpp l.236-242; only WIB links check for errors -/
  | take (s : St) (p : List Nat) (q : List (List Nat)) (h : s.ctl ≠ .down) (hf : s.frames = []) (hq : s.queue = p :: q) :
      Step c s { s with queue := q, frames := if c.wib then p else [] }
  /-- WIBFrameProcessor.hpp l.332-363 -/
  | check (s : St) (w : Nat) (ws : List Nat) (ok : Nat → Bool) (hf : s.frames = w :: ws) : Step c s (check c s w ws ok)
  /-- ReadoutModel.hpp l.159-176: the consumer ends when the queue is empty -/
  | stopLink (s : St) (h : s.ctl = .cardDown) (hq : s.queue = []) (hf : s.frames = []) : Step c s { s with ctl := .down }
  /-- `get_info`, WIBFrameProcessor.hpp l.249; the other processors report no frame errors
  (TaskRawDataProcessorModel.hpp l.88-91) -/
  | report (s : St) (h : c.wib = true) :
      Step c s { s with fe := { s.fe with total := 0 }, reports := s.reports ++ [(s.run, s.fe.total)] }

/-- Reachable states. -/
inductive Reach (c : Cfg) : St → Prop where
  | init : Reach c St.init
  | step (s s' : St) (h : Reach c s) (st : Step c s s') : Reach c s'

end Verif.Inject
