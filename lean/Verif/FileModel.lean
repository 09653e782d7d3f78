import Verif.Basic
/-
`BufferedFileWriter` (include/readout/utils/BufferedFileWriter.hpp), `BufferedFileReader`
(include/readout/utils/BufferedFileReader.hpp) and the recorder loop of
include/readout/models/RecorderModel.hpp, all with compression "None".

Below the code of the project lie two layers, modelled here and part of the trusted base:
* the boost stream chain with a single device: characters are put one at a time into a buffer of
  `cap` characters (`cap = 0`: no buffer); a character arriving at a full buffer first writes the
  whole buffer to the descriptor; an error of the descriptor makes the stream `bad`, which stays;
* the operating system: a write through a descriptor overwrites or extends the file at the
  descriptor's offset; with O_DIRECT it fails unless length and offset are multiples of `align`.
Disk-full and other device errors are not modelled. Bytes are natural numbers.
-/
namespace Verif.File

/-- A write of `b` at offset `off` (`write(2)`; the code never seeks, so `off ≤ length`).
System call below BufferedFileWriter.hpp l.104-141, part of the trusted base (no line of the project). -/
def pwrite (file : List Nat) (off : Nat) (b : List Nat) : List Nat :=
  file.take off ++ b ++ file.drop (off + b.length)

/-- Parameters of `open` (BufferedFileWriter.hpp l.99-102) and of the platform. -/
structure Cfg where
  cap : Nat          -- m_buffer_size
  useDirect : Bool   -- m_use_o_direct
  align : Nat        -- alignment demanded by O_DIRECT
  syncBad : Bool     -- does flush of a bad stream still write the buffer? (differs between libstdc++ releases)
  deriving DecidableEq

/-- The writer together with the file it writes to (members l.193-205). -/
structure W where
  isOpen : Bool
  direct : Bool      -- O_DIRECT currently set on the descriptor
  bad : Bool         -- badbit of m_output_stream
  buf : List Nat
  off : Nat
  file : List Nat
  deriving DecidableEq

/-- `open` of a file with contents `old`, l.104-141: no `O_TRUNC`. -/
def openW (c : Cfg) (old : List Nat) : W := ⟨true, c.useDirect, false, [], 0, old⟩

/-- A writer that was never opened (l.81). -/
def closedW (file : List Nat) : W := ⟨false, false, false, [], 0, file⟩

/-- Writing `b` to the descriptor.
Device below the chain built at BufferedFileWriter.hpp l.120-138. -/
def fdWrite (c : Cfg) (w : W) (b : List Nat) : Option W :=
  if w.direct = true ∧ (b.length % c.align ≠ 0 ∨ w.off % c.align ≠ 0) then none
  else some { w with file := pwrite w.file w.off b, off := w.off + b.length }

/-- Emptying the stream buffer to the descriptor.
Stream layer below BufferedFileWriter.hpp l.154-191. -/
def sync (c : Cfg) (w : W) : W :=
  match fdWrite c w w.buf with
  | none => { w with bad := true }
  | some w' => { w' with buf := [] }

/-- One character into the stream. Stream layer below BufferedFileWriter.hpp l.154-160. -/
def putc (c : Cfg) (w : W) (x : Nat) : W :=
  if c.cap = 0 then
    match fdWrite c w [x] with
    | none => { w with bad := true }
    | some w' => w'
  else
    let w1 := if w.buf.length = c.cap then sync c w else w
    if w1.bad then w1 else { w1 with buf := w1.buf ++ [x] }

/-- `m_output_stream.write`: stops at the first failing character. BufferedFileWriter.hpp l.157. -/
def puts (c : Cfg) (w : W) : List Nat → W
  | [] => w
  | x :: xs => if w.bad then w else puts c (putc c w x) xs

/-- `write`, l.154-160. -/
def write (c : Cfg) (w : W) (b : List Nat) : W × Bool :=
  if w.isOpen = false then (w, false)
  else
    let w1 := puts c w b
    (w1, !w1.bad)

/-- `flush`, l.178-191: O_DIRECT off, flush, O_DIRECT on again. -/
def flush (c : Cfg) (w : W) : W :=
  let w1 := { w with direct := false }
  let w2 := if w.bad = true ∧ c.syncBad = false then w1 else sync c w1
  { w2 with direct := c.useDirect }

/-- `close`, l.165-172: O_DIRECT off, the chain is reset, which writes the rest of the buffer. -/
def close (c : Cfg) (w : W) : W :=
  { sync c { w with direct := false } with isOpen := false, bad := false }

/-- Calls on a writer. BufferedFileWriter.hpp l.154-191. -/
inductive Op where
  | write (b : List Nat)
  | flush
  deriving DecidableEq

/-- A sequence of calls, with the results of the writes. BufferedFileWriter.hpp l.154-191. -/
def ops (c : Cfg) (w : W) : List Op → W × List Bool
  | [] => (w, [])
  | .write b :: os =>
    let r := write c w b
    let r' := ops c r.1 os
    (r'.1, r.2 :: r'.2)
  | .flush :: os => ops c (flush c w) os

/-- The reader (BufferedFileReader.hpp l.140-147) on an open file of which `rest` is unread. -/
structure R where
  isOpen : Bool
  rest : List Nat
  deriving DecidableEq

/-- `read` of an element of `k` bytes, BufferedFileReader.hpp l.122-128: the record read and
whether it is complete. -/
def read (k : Nat) (r : R) : R × Option (List Nat) :=
  if r.isOpen = false then (r, none)
  else ({ r with rest := r.rest.drop k }, if (r.rest.take k).length = k then some (r.rest.take k) else none)

/-- `n` reads in a row. BufferedFileReader.hpp l.122-128. -/
def reads (k : Nat) : Nat → R → List (Option (List Nat))
  | 0, _ => []
  | n + 1, r => (read k r).2 :: reads k n (read k r).1

/-- One attempt of the recorder to take a payload: a payload or a timeout
(RecorderModel.hpp l.98-109). -/
inductive Pop where
  | got (b : List Nat)
  | timeout
  deriving DecidableEq

/-- The recorder: its writer and `m_packets_processed_total` (l.128-129). -/
structure Rec where
  w : W
  total : Nat
  deriving DecidableEq

/-- `do_conf` (RecorderModel.hpp l.64-75): an existing file is removed first. -/
def conf (c : Cfg) : Rec := ⟨openW c [], 0⟩

/-- The loop of `do_work` (l.98-110) over the pops made before the run marker is cleared. Returns
the pops left untouched. -/
def loop (c : Cfg) (r : Rec) : List Pop → Rec × List Pop
  | [] => (r, [])
  | .timeout :: ps => loop c r ps
  | .got b :: ps =>
    let x := write c r.w b
    if x.2 then loop c ⟨x.1, r.total + 1⟩ ps else (⟨x.1, r.total + 1⟩, ps)

/-- One run: `do_start` (l.77-82) resets the counter, `do_work` ends with a flush (l.111). -/
def runOnce (c : Cfg) (r : Rec) (ps : List Pop) : Rec × List Pop :=
  let x := loop c ⟨r.w, 0⟩ ps
  (⟨flush c x.1.w, x.1.total⟩, x.2)

/-- Several runs without reconfiguring in between. RecorderModel.hpp l.77-111. -/
def runs (c : Cfg) (r : Rec) : List (List Pop) → Rec
  | [] => r
  | ps :: rs => runs c (runOnce c r ps).1 rs

end Verif.File
