import Verif.Basic
import Verif.FormatModel
import Mathlib.Data.Nat.Digits.Defs
/-
Fields and printouts of raw trigger primitives: `include/readout/RawWIBTp.hpp`.

A structure is its 32-bit words. Bit fields are allocated from the low end of each word in the order of their
declaration (the ABI of gcc on x86-64). A printout is the sequence of its labels, each with the digits that follow it;
the headlines and line ends are left out.
-/
namespace Verif.RawTp

/-- The words of a structure. include/readout/RawWIBTp.hpp l.33-38, 124-126 -/
abbrev Words := Nat → Nat

/-- A bit field: word, lowest bit, number of bits. include/readout/RawWIBTp.hpp l.33-38, 124-126 -/
structure Place where
  word : Nat
  lo : Nat
  len : Nat
  deriving DecidableEq

/-- Reading a bit field. include/readout/RawWIBTp.hpp l.57, 62, 69-74 -/
def get (w : Words) (p : Place) : Nat := w p.word / 2 ^ p.lo % 2 ^ p.len

/-- Assigning to a bit field. include/readout/RawWIBTp.hpp l.30, 58 -/
def set (w : Words) (p : Place) (v : Nat) : Words := fun i =>
  if i = p.word then w i / 2 ^ (p.lo + p.len) * 2 ^ (p.lo + p.len) + v % 2 ^ p.len * 2 ^ p.lo + w i % 2 ^ p.lo
  else w i

/-- Fields of `TpHeader`, include/readout/RawWIBTp.hpp l.33-38. -/
inductive HField where
  | flags | slot | wire | fiber | crate | timestamp1 | timestamp2 | accumulator | median | padding1 | nhits
  | padding3 | padding2
  deriving DecidableEq

/-- include/readout/RawWIBTp.hpp l.33-38 -/
def HField.place : HField → Place
  | .flags => ⟨0, 0, 13⟩
  | .slot => ⟨0, 13, 3⟩
  | .wire => ⟨0, 16, 8⟩
  | .fiber => ⟨0, 24, 3⟩
  | .crate => ⟨0, 27, 5⟩
  | .timestamp1 => ⟨1, 0, 32⟩
  | .timestamp2 => ⟨2, 0, 32⟩
  | .accumulator => ⟨3, 0, 16⟩
  | .median => ⟨3, 16, 16⟩
  | .padding1 => ⟨4, 0, 16⟩
  | .nhits => ⟨4, 16, 16⟩
  | .padding3 => ⟨5, 0, 16⟩
  | .padding2 => ⟨5, 16, 16⟩

/-- Fields of `TpData`, include/readout/RawWIBTp.hpp l.124-126. -/
inductive DField where
  | endTime | startTime | peakTime | peakAdc | hitContinue | tpFlags | sumAdc
  deriving DecidableEq

/-- include/readout/RawWIBTp.hpp l.124-126 -/
def DField.place : DField → Place
  | .endTime => ⟨0, 0, 16⟩
  | .startTime => ⟨0, 16, 16⟩
  | .peakTime => ⟨1, 0, 16⟩
  | .peakAdc => ⟨1, 16, 16⟩
  | .hitContinue => ⟨2, 0, 1⟩
  | .tpFlags => ⟨2, 1, 15⟩
  | .sumAdc => ⟨2, 16, 16⟩

/-- The part of a header that module Format is about. include/readout/RawWIBTp.hpp l.34-35, 37 -/
def stamps (w : Words) : Format.TpHeader :=
  ⟨get w HField.timestamp1.place, get w HField.timestamp2.place, get w HField.nhits.place, []⟩

/-- `get_timestamp`, include/readout/RawWIBTp.hpp l.40-47. -/
def getTs (w : Words) : Nat := (stamps w).getTs

/-- `set_timestamp`, include/readout/RawWIBTp.hpp l.49-55. -/
def setTs (w : Words) (ts : Nat) : Words :=
  let h := (stamps w).setTs ts
  set (set w HField.timestamp1.place h.t1) HField.timestamp2.place h.t2

/-- How a stream writes integers: its base. Used in include/readout/RawWIBTp.hpp l.82, 85, 87, 141, 144. -/
inductive Base where
  | dec | hex | oct
  deriving DecidableEq

/-- The number of digits of a base (`std::hex`, `std::dec`). include/readout/RawWIBTp.hpp l.82, 87 -/
def Base.val : Base → Nat
  | .dec => 10
  | .hex => 16
  | .oct => 8

/-- `o << x` for an unsigned number, most significant digit first. include/readout/RawWIBTp.hpp l.69-74 -/
def num (b : Base) (x : Nat) : List Nat := if x = 0 then [0] else (Nat.digits b.val x).reverse

/-- `o << std::bitset<n>(x)`. include/readout/RawWIBTp.hpp l.93-99, 150-153 -/
def bits (n x : Nat) : List Nat := ((List.range n).map fun i => x / 2 ^ i % 2).reverse

/-- A printout: labels with digits; and the base that the stream has afterwards. include/readout/RawWIBTp.hpp l.66-115 -/
abbrev Out := List (String × List Nat) × Base

/-- `TpHeader::print`, include/readout/RawWIBTp.hpp l.66-77; `b`: the base of the stream. -/
def headerPrint (b : Base) (w : Words) : Out :=
  ([("flags", num b (get w HField.flags.place)), ("slot", num b (get w HField.slot.place)),
    ("wire", num b (get w HField.wire.place)), ("fiber", num b (get w HField.fiber.place)),
    ("crate", num b (get w HField.crate.place)), ("timestamp", num b (getTs w)),
    ("median", num b (get w HField.median.place)), ("accumulator", num b (get w HField.accumulator.place)),
    ("nhits", num b (get w HField.nhits.place)), ("padding_1", num b (get w HField.padding1.place)),
    ("padding_2", num b (get w HField.padding2.place)), ("padding_3", num b (get w HField.padding3.place))], b)

/-- `TpHeader::print_hex`, include/readout/RawWIBTp.hpp l.79-88. -/
def headerHex (_ : Base) (w : Words) : Out :=
  ([("flags", num .hex (get w HField.flags.place)), ("slot", num .hex (get w HField.slot.place)),
    ("wire", num .hex (get w HField.wire.place)), ("fiber", num .hex (get w HField.fiber.place)),
    ("crate", num .hex (get w HField.crate.place)), ("timestamp", num .hex (getTs w)),
    ("median", num .hex (get w HField.median.place)), ("accumulator", num .hex (get w HField.accumulator.place)),
    ("nhits", num .hex (get w HField.nhits.place)), ("padding_1", num .hex (get w HField.padding1.place)),
    ("padding_2", num .hex (get w HField.padding2.place)), ("padding_3", num .hex (get w HField.padding3.place))], .dec)

/-- `TpHeader::print_bits`, include/readout/RawWIBTp.hpp l.90-101 (l.97: the accumulator after "median:", the median after
"accumulator:"). -/
def headerBits (b : Base) (w : Words) : Out :=
  ([("flags", bits 13 (get w HField.flags.place)), ("slot", bits 3 (get w HField.slot.place)),
    ("wire", bits 8 (get w HField.wire.place)), ("fiber", bits 3 (get w HField.fiber.place)),
    ("crate", bits 5 (get w HField.crate.place)), ("timestamp", num b (getTs w)),
    ("median", bits 16 (get w HField.accumulator.place)), ("accumulator", bits 16 (get w HField.median.place)),
    ("nhits", bits 16 (get w HField.nhits.place)), ("padding_1", bits 16 (get w HField.padding1.place)),
    ("padding_2", bits 16 (get w HField.padding2.place)), ("padding_3", bits 16 (get w HField.padding3.place))], b)

/-- `operator<<` of a header, include/readout/RawWIBTp.hpp l.104-115. -/
def headerStream (b : Base) (w : Words) : Out :=
  ([("flags", num b (get w HField.flags.place)), ("slot", num b (get w HField.slot.place)),
    ("wire", num b (get w HField.wire.place)), ("fiber", num b (get w HField.fiber.place)),
    ("crate", num b (get w HField.crate.place)), ("timestamp", num b (getTs w)),
    ("median", num b (get w HField.median.place)), ("accumulator", num b (get w HField.accumulator.place)),
    ("nhits", num b (get w HField.nhits.place)), ("padding_1", num b (get w HField.padding1.place)),
    ("padding_2", num b (get w HField.padding2.place)), ("padding_3", num b (get w HField.padding3.place))], b)

/-- `TpData::print` and `operator<<` of a hit, include/readout/RawWIBTp.hpp l.128-136, 158-167. -/
def dataPrint (b : Base) (w : Words) : Out :=
  ([("start_time", num b (get w DField.startTime.place)), ("end_time", num b (get w DField.endTime.place)),
    ("peak_adc", num b (get w DField.peakAdc.place)), ("peak_time", num b (get w DField.peakTime.place)),
    ("sum_adc", num b (get w DField.sumAdc.place)), ("flags", num b (get w DField.tpFlags.place)),
    ("hit_continue", num b (get w DField.hitContinue.place))], b)

/-- `TpData::print_hex`, include/readout/RawWIBTp.hpp l.138-145. -/
def dataHex (_ : Base) (w : Words) : Out :=
  ([("start_time", num .hex (get w DField.startTime.place)), ("end_time", num .hex (get w DField.endTime.place)),
    ("peak_adc", num .hex (get w DField.peakAdc.place)), ("peak_time", num .hex (get w DField.peakTime.place)),
    ("sum_adc", num .hex (get w DField.sumAdc.place)), ("flags", num .hex (get w DField.tpFlags.place)),
    ("hit_continue", num .hex (get w DField.hitContinue.place))], .dec)

/-- `TpData::print_bits`, include/readout/RawWIBTp.hpp l.147-155. -/
def dataBits (b : Base) (w : Words) : Out :=
  ([("start_time", bits 16 (get w DField.startTime.place)), ("end_time", bits 16 (get w DField.endTime.place)),
    ("peak_adc", bits 16 (get w DField.peakAdc.place)), ("peak_time", bits 16 (get w DField.peakTime.place)),
    ("sum_adc", bits 16 (get w DField.sumAdc.place)), ("flags", bits 15 (get w DField.tpFlags.place)),
    ("hit_continue", bits 1 (get w DField.hitContinue.place))], b)

/-- A frame: the header, the hits behind it and its own counter `m_nhits`. include/readout/RawWIBTp.hpp l.172-180, 207 -/
structure Frame where
  head : Words
  hits : List Words
  count : Int

/-- `set_nhits`, include/readout/RawWIBTp.hpp l.183-187: conversion of an `int` to the 16-bit field. -/
def Frame.setNhits (f : Frame) (n : Int) : Frame :=
  { f with count := n, head := set f.head HField.nhits.place (n % 65536).toNat }

/-- `get_nhits`, include/readout/RawWIBTp.hpp l.57, 203. -/
def Frame.getNhits (f : Frame) : Nat := get f.head HField.nhits.place

/-- `operator<<` of a frame, include/readout/RawWIBTp.hpp l.210-216: only the header. -/
def frameStream (b : Base) (f : Frame) : Out := headerStream b f.head

end Verif.RawTp
