import Verif.EmuModel
import Verif.TpEmuModel
/-
The data file of an emulator: `FileSourceBuffer` (include/readout/utils/FileSourceBuffer.hpp l.26-98), and the loops of
the two emulators (include/readout/models/SourceEmulatorModel.hpp l.153-221, src/wib/TPEmulatorModel.hpp l.198-252) with
the widths of their variables and with the number of elements as `FileSourceBuffer` reports it; the modules Emu and
TpEmu compute it from the contents.

The file is read twice, to measure it and to load it; other processes may change it in between, so the environment
says what each pass sees. If the loading pass fails for lack of memory, what it had loaded is left out of the model.
-/
namespace Verif.SrcFile
open Verif.Search (u64)

/-- Conversion to a 32-bit `int` (modulo 2^32, gcc). FileSourceBuffer.hpp l.29, 66; TPEmulatorModel.hpp l.237 -/
def toInt (n : Int) : Int := (n + 2147483648) % 4294967296 - 2147483648

/-- What the two passes see of a file that can be opened, and how many bytes can be allocated.
FileSourceBuffer.hpp l.53-74 -/
structure Disk where
  seen : Nat          -- bytes skipped by `ignore`, l.53-54
  bytes : List Nat    -- bytes delivered after `seekg`, l.71-74
  mem : Nat

/-- Members of `FileSourceBuffer`, l.91-98; `opened`: the stream is open (it is never closed). -/
structure Buf where
  opened : Bool
  count : Int         -- m_element_count
  bytes : List Nat    -- m_input_buffer
  deriving DecidableEq

/-- FileSourceBuffer.hpp l.29-34 -/
def Buf.init : Buf := ⟨false, 0, []⟩

/-- FileSourceBuffer.hpp l.56, 63 -/
inductive Warning where
  | limit | extra
  deriving DecidableEq

/-- `read`, FileSourceBuffer.hpp l.41-80: the new members, the warnings, and whether it returns (or throws
`GenericConfigurationError`, l.77-79). Opening an open stream fails (l.47-50). -/
def Buf.read (limit chunk : Int) (f : Option Disk) (b : Buf) : Buf × List Warning × Bool :=
  match f with
  | none => (b, [], false)
  | some d =>
    if b.opened then (b, [], false)
    else
      let w1 := if limit < (d.seen : Int) then [Warning.limit] else []
      let w2 := if 0 < chunk ∧ 0 < (d.seen : Int) % chunk then [Warning.extra] else []
      let n := if 0 < chunk then toInt ((d.seen : Int) / chunk) else b.count
      if d.seen ≤ d.mem ∧ d.bytes.length ≤ d.mem then (⟨true, n, d.bytes ++ b.bytes⟩, w1 ++ w2, true)
      else (⟨true, n, b.bytes⟩, w1 ++ w2, false)

/-- The file in the configuration command of an emulator: a new buffer, whose limit is the `uint4` of the configuration
converted to `int`. SourceEmulatorModel.hpp l.95-101, TPEmulatorModel.hpp l.92-99 -/
def confFile (limit : Nat) (sz : Nat) (f : Option Disk) : Buf × List Warning × Bool :=
  Buf.init.read (toInt limit) sz f

/-! ### Source emulator -/

/-- Conversion of an `int` to `size_t`. SourceEmulatorModel.hpp l.179 -/
def toSize (n : Int) : Nat := (n % 18446744073709551616).toNat

/-- l.179-181: the element index is an unsigned 32-bit number, the products have 64 bits; `num`: the reported number of
elements. SourceEmulatorModel.hpp -/
def wrapped (c : Emu.Cfg) (num : Int) (offset : Nat) : Nat :=
  if offset = u64 (toSize num * c.sz) ∨ u64 ((offset + 1) % 4294967296 * c.sz) > c.source.length then 0 else offset

/-- One iteration of the loop, SourceEmulatorModel.hpp l.177-219. -/
def iter (c : Emu.Cfg) (num : Int) (s : Emu.St) : Outcome Emu.St := do
  let offset := wrapped c num s.offset
  match c.drops[s.di]? with
  | none => .ub .outOfBounds
  | some create =>
    let di := (s.di + 1) % c.drops.length
    let ts' := u64 (s.ts + c.tick * 12)
    if create then do
      let b ← Emu.readAt c offset
      .ok ⟨(offset + 1) % 4294967296, di, ts', s.out ++ [(b, s.ts)]⟩
    else .ok ⟨offset, di, ts', s.out⟩

/-- `n` iterations, SourceEmulatorModel.hpp l.159-219. -/
def run (c : Emu.Cfg) (num : Int) (t0 : Nat) : Nat → Outcome Emu.St
  | 0 => .ok ⟨0, 0, t0, []⟩
  | n + 1 => do let s ← run c num t0 n; iter c num s

/-! ### Trigger primitive emulator -/

/-- The value fits into an `int`. TPEmulatorModel.hpp l.215 -/
def inInt (n : Int) : Bool := decide (-2147483648 ≤ n ∧ n < 2147483648)

/-- State: the byte offset is an `int`. TPEmulatorModel.hpp l.204 -/
structure TpSt where
  off : Int
  out : List (List Nat)
  deriving DecidableEq

/-- One round, TPEmulatorModel.hpp l.213-237: the product of l.215 is computed in `int`; the sum of l.237 in `size_t` and
converted. The contents are 32-bit words (module TpEmu); an offset that is negative or within a word is outside. -/
def tpIter (src : List Nat) (num : Int) (g : Nat → Nat) (s : TpSt) : Outcome TpSt :=
  if inInt (num * 12) then
    let off := if s.off = num * 12 then 0 else s.off
    if off < 0 ∨ off % 4 ≠ 0 then .ub .outOfBounds
    else do
      let w := (off / 4).toNat
      let hdr ← TpEmu.readSrc src w 6
      let blk ← TpEmu.unpack src g hdr w
      .ok ⟨toInt (off + 4 * (TpEmu.frameWords blk : Int)), s.out ++ [blk]⟩
  else .ub .overflow

/-- `n` rounds, TPEmulatorModel.hpp l.213-237. -/
def tpRun (src : List Nat) (num : Int) (g : Nat → Nat) : Nat → Outcome TpSt
  | 0 => .ok ⟨0, []⟩
  | n + 1 => do let s ← tpRun src num g n; tpIter src num g s

end Verif.SrcFile
