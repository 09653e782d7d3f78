import Verif.RecSessModel
import Verif.EmuLinkModel
/-
A recording of a link replayed by an emulator card: the file written by the recording thread
(include/readout/models/DefaultRequestHandlerModel.hpp l.184-248, module RecSess) is given to an emulator as its input
(include/readout/models/SourceEmulatorModel.hpp l.95-110, 159-174; include/readout/utils/FileSourceBuffer.hpp
l.41-80, module Emu), which may feed a link again (module EmuLink).

Simplified: recordings without compression (the emulator reads the file as it is and knows no compression);
no frame errors are injected.
-/
namespace Verif.Replay

/-- The emulator configured with a file and without dropouts. SourceEmulatorModel.hpp l.95-110. -/
def emulator (file : List Nat) (sz tick : Nat) : Emu.Cfg := ⟨file, sz, tick, Emu.dropsOf true 0 fun _ => true⟩

/-- The first timestamp: the configured one (`set_t0_to`, negative: none) or that of the first payload in the file.
`stamp` reads the timestamp out of the bytes of a payload. SourceEmulatorModel.hpp l.169-174. -/
def firstTs (setT0 : Option Nat) (stamp : List Nat → Nat) (file : List Nat) (sz : Nat) : Nat :=
  match setT0 with
  | some t => t
  | none => stamp (file.take sz)

end Verif.Replay
