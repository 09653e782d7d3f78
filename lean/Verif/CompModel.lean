import Verif.FileModel
/-
Recordings with compression: `BufferedFileWriter` and `BufferedFileReader` with any of the four algorithms
(include/readout/utils/BufferedFileWriter.hpp, BufferedFileReader.hpp), the configurations that open the writer
(include/readout/models/RecorderModel.hpp l.64-75, DefaultRequestHandlerModel.hpp l.123-131) and the file names.

With an algorithm other than "None" the chain has two elements: the compressor and, behind it, the device with its
buffer (l.123-138). The compressor is a parameter (`Codec`): what it holds back and what it puts out is up to the
library. Trusted base besides that of File:
* a compressor is an automaton that is fed characters, may be told that a flush passes by (the chain hands it what
  its own buffer holds), and puts out its rest when the chain is closed; it "is not flushable" (comment l.183);
* whether a flush of the chain goes on to the device behind the compressor differs between libraries: `deep`;
* the operating system: `remove` takes a name away, the contents stay with the descriptors that have them open.
Simplified: a file name is a number; nobody else creates or removes files; no second writer on the same file.
-/
namespace Verif.Comp

open Verif.File

/-- What a compressor is told: a character, or that a flush passes by. BufferedFileWriter.hpp l.157, 184. -/
inductive Ev where
  | byte (x : Nat)
  | pass
  deriving DecidableEq

/-- A compressor with its decompressor, pushed at BufferedFileWriter.hpp l.123-131 and BufferedFileReader.hpp
l.94-102. Library code, a parameter of everything below. -/
structure Codec (σ : Type) where
  init : σ
  feed : σ → Nat → σ × List Nat
  pass : σ → σ × List Nat
  finish : σ → List Nat
  dec : List Nat → List Nat
  deep : Bool          -- does a flush of the chain reach the device behind this element?

/-- No compressor: the characters go straight to the device. BufferedFileWriter.hpp l.132-133. -/
def noCodec : Codec Unit := ⟨(), fun _ x => ((), [x]), fun _ => ((), []), fun _ => [], fun l => l, true⟩

/-- A writer with its compressor. Members l.193-205 of BufferedFileWriter.hpp. -/
structure CW (σ : Type) where
  enc : σ
  w : W
  deriving DecidableEq

/-- `open` of a file with contents `old`, BufferedFileWriter.hpp l.104-141. -/
def openC {σ : Type} (K : Codec σ) (c : Cfg) (old : List Nat) : CW σ := ⟨K.init, openW c old⟩

/-- One character into the chain. BufferedFileWriter.hpp l.157, the chain built at l.123-138. -/
def feed1 {σ : Type} (K : Codec σ) (c : Cfg) (s : CW σ) (x : Nat) : CW σ :=
  let r := K.feed s.enc x
  ⟨r.1, puts c s.w r.2⟩

/-- `m_output_stream.write`: stops at the first failing character. BufferedFileWriter.hpp l.157. -/
def feeds {σ : Type} (K : Codec σ) (c : Cfg) (s : CW σ) : List Nat → CW σ
  | [] => s
  | x :: xs => if s.w.bad then s else feeds K c (feed1 K c s x) xs

/-- `write`, BufferedFileWriter.hpp l.154-160. -/
def write {σ : Type} (K : Codec σ) (c : Cfg) (s : CW σ) (b : List Nat) : CW σ × Bool :=
  if s.w.isOpen = false then (s, false)
  else
    let s1 := feeds K c s b
    (s1, !s1.w.bad)

/-- What a flush of the chain does, BufferedFileWriter.hpp l.184: the compressor gets what its buffer holds; the device
is flushed if the flush goes on to it. -/
def chainFlush {σ : Type} (K : Codec σ) (c : Cfg) (s : CW σ) : CW σ :=
  let r := K.pass s.enc
  let w1 := puts c s.w r.2
  ⟨r.1, if K.deep then sync c w1 else w1⟩

/-- `flush`, BufferedFileWriter.hpp l.178-191. -/
def flush {σ : Type} (K : Codec σ) (c : Cfg) (s : CW σ) : CW σ :=
  let s1 : CW σ := ⟨s.enc, { s.w with direct := false }⟩
  let s2 := if s.w.bad = true ∧ c.syncBad = false then s1 else chainFlush K c s1
  ⟨s2.enc, { s2.w with direct := c.useDirect }⟩

/-- `close`, BufferedFileWriter.hpp l.165-172: the compressor puts out its rest, then the device writes its buffer. -/
def close {σ : Type} (K : Codec σ) (c : Cfg) (s : CW σ) : CW σ :=
  let w1 := puts c { s.w with direct := false, bad := false } (K.finish s.enc)
  ⟨K.init, { sync c w1 with isOpen := false, bad := false }⟩

/-- A sequence of calls, with the results of the writes. BufferedFileWriter.hpp l.154-191. -/
def ops {σ : Type} (K : Codec σ) (c : Cfg) (s : CW σ) : List Op → CW σ × List Bool
  | [] => (s, [])
  | .write b :: os =>
    let r := write K c s b
    let r' := ops K c r.1 os
    (r'.1, r.2 :: r'.2)
  | .flush :: os => ops K c (flush K c s) os

/-- A reader opened on a file, BufferedFileReader.hpp l.82-112: it reads what the decompressor makes of it. -/
def openR {σ : Type} (K : Codec σ) (file : List Nat) : R := ⟨true, K.dec file⟩

/-! ### Modules that record -/

/-- The known algorithms. BufferedFileWriter.hpp l.123-133. -/
inductive Alg where
  | zstd | lzma | zlib | none
  deriving DecidableEq

/-- The disk (names, contents) and a recording module with its writer: `ino` is the file it has open, whose contents are
`cw.w.file`; `total` is `m_packets_processed_total`. RecorderModel.hpp l.116-130, DefaultRequestHandlerModel.hpp
l.627-632. -/
structure Mod (σ : Type) where
  dir : Nat → Option Nat
  data : Nat → List Nat
  next : Nat
  alg : Alg
  cfg : Cfg
  ino : Nat
  cw : CW σ
  total : Nat

/-- A new module (RecorderModel.hpp l.32-36, 120) on a disk without files. -/
def fresh {σ : Type} (K : Alg → Codec σ) : Mod σ :=
  ⟨fun _ => Option.none, fun _ => [], 0, .none, ⟨0, false, 1, false⟩, 0, ⟨(K .none).init, closedW []⟩, 0⟩

/-- What somebody finds under a name. System below RecorderModel.hpp l.68-73. -/
def lookup {σ : Type} (s : Mod σ) (n : Nat) : Option (List Nat) :=
  match s.dir n with
  | Option.none => Option.none
  | some i => some (if s.cw.w.isOpen = true ∧ i = s.ino then s.cw.w.file else s.data i)

/-- Closing the writer if it is open: BufferedFileWriter.hpp l.105-107, and in the destructor l.78-82. -/
def shut {σ : Type} (K : Alg → Codec σ) (s : Mod σ) : Mod σ :=
  if s.cw.w.isOpen then
    let d := close (K s.alg) s.cfg s.cw
    { s with data := (fun i => if i = s.ino then d.w.file else s.data i), cw := d }
  else s

/-- `remove`, RecorderModel.hpp l.68, DefaultRequestHandlerModel.hpp l.125. -/
def unlink {σ : Type} (s : Mod σ) (n : Nat) : Mod σ := { s with dir := fun m => if m = n then Option.none else s.dir m }

/-- `::open` with O_CREAT and the chain, BufferedFileWriter.hpp l.109-141. -/
def create {σ : Type} (K : Alg → Codec σ) (s : Mod σ) (n : Nat) (a : Alg) (c : Cfg) : Mod σ :=
  match s.dir n with
  | some i => { s with alg := a, cfg := c, ino := i, cw := openC (K a) c (s.data i) }
  | Option.none =>
    ⟨fun m => if m = n then some s.next else s.dir m, s.data, s.next + 1, a, c, s.next, openC (K a) c [], s.total⟩

/-- `do_conf` of the recorder, RecorderModel.hpp l.64-75: the name is removed, then `open` closes what was open. -/
def confRec {σ : Type} (K : Alg → Codec σ) (s : Mod σ) (n : Nat) (a : Alg) (c : Cfg) : Mod σ :=
  create K (shut K (unlink s n)) n a c

/-- The recording part of the handler's `conf`, DefaultRequestHandlerModel.hpp l.123-131: the same, but only once in the
life of the link (`m_recording_configured`; the writer is open exactly since then). -/
def confLink {σ : Type} (K : Alg → Codec σ) (s : Mod σ) (n : Nat) (a : Alg) (c : Cfg) : Mod σ :=
  if s.cw.w.isOpen then s else confRec K s n a c

/-- The loop of `do_work`, RecorderModel.hpp l.98-110; for a link the payloads are those the recording writes,
DefaultRequestHandlerModel.hpp l.205-243. -/
def loop {σ : Type} (K : Codec σ) (c : Cfg) (s : CW σ) (t : Nat) : List Pop → CW σ × Nat
  | [] => (s, t)
  | .timeout :: ps => loop K c s t ps
  | .got b :: ps =>
    let x := write K c s b
    if x.2 then loop K c x.1 (t + 1) ps else (x.1, t + 1)

/-- One run: counter reset (RecorderModel.hpp l.79), loop, flush (l.111; DefaultRequestHandlerModel.hpp l.245). -/
def run {σ : Type} (K : Alg → Codec σ) (s : Mod σ) (ps : List Pop) : Mod σ :=
  let x := loop (K s.alg) s.cfg s.cw 0 ps
  { s with cw := flush (K s.alg) s.cfg x.1, total := x.2 }

/-- Commands. RecorderModel.hpp l.64-91. -/
inductive Cmd where
  | conf (n : Nat) (a : Alg) (c : Cfg)
  | run (ps : List Pop)

/-- A command at a recorder, or (`link`) at a link. RecorderModel.hpp l.64-91, DefaultRequestHandlerModel.hpp l.98-245. -/
def step {σ : Type} (K : Alg → Codec σ) (link : Bool) (s : Mod σ) : Cmd → Mod σ
  | .conf n a c => if link then confLink K s n a c else confRec K s n a c
  | .run ps => run K s ps

/-- A sequence of commands. RecorderModel.hpp l.64-91. -/
def exec {σ : Type} (K : Alg → Codec σ) (link : Bool) (s : Mod σ) (cs : List Cmd) : Mod σ := cs.foldl (step K link) s

/-- The module is destroyed: the destructor of the writer, BufferedFileWriter.hpp l.78-82. -/
def destroy {σ : Type} (K : Alg → Codec σ) (s : Mod σ) : Mod σ := shut K s

end Verif.Comp
