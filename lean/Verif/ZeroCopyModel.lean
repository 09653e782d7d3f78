import Verif.Basic
/-
`ZeroCopyRecordingRequestHandlerModel` (include/readout/models/ZeroCopyRecordingRequestHandlerModel.hpp): recording
straight from the memory of the ring latency buffer. Pointers into the buffer are byte offsets from
`start_of_buffer()`; the memory is read anew in every step, so that the producer may change it concurrently. The clock
and the cleanup handshake (l.82-91, modelled in `Verif.RecordModel`) only decide how many steps are made. First
timestamps are taken to be non-zero (zero is the sentinel of l.95).
-/
namespace Verif.ZeroCopy

/-- Buffer geometry and configuration: `sz = ReadoutType::fixed_payload_size`, `n` ring slots, the alignment and base
address of the buffer memory, and `m_stream_buffer_size` (l.67-68, 76-78). -/
structure Cfg where
  sz : Nat
  n : Nat
  align : Nat
  base : Nat
  chunk : Nat
  deriving DecidableEq

/-- `end_of_buffer_pointer`, l.78. -/
def Cfg.B (c : Cfg) : Nat := c.n * c.sz

/-- The search for an aligned payload, l.103-114, from payload number `k` (payload `k` lives in slot `k % n`) with
`m` payloads left. If none is aligned the `continue` of l.112 stays in the inner loop and the condition of l.104
dereferences the exhausted iterator, slot 2^32-1. -/
def findStart (c : Cfg) (k : Nat) : Nat → Outcome Nat
  | 0 => .ub .outOfBounds
  | m + 1 =>
    if c.align = 0 then .ub .divByZero
    else if (c.base + k % c.n * c.sz) % c.align ≠ 0 then findStart c (k + 1) m
    else .ok k

/-- What one step sees: the buffer memory, the pointer `back()` read at l.119 (`none` for a null pointer) and the
result of the `write` call depending on the length offered (`none` for -1, otherwise the number of bytes taken). -/
structure Obs where
  mem : Nat → Nat
  back : Option Nat
  res : Nat → Option Nat

/-- State of a recording: the write pointer, the file, the `bytes_written` counter, whether the descriptor is open, and
a log of the writes made with `O_DIRECT`: offset, length, file position.
ZeroCopyRecordingRequestHandlerModel.hpp l.76-117. -/
structure St where
  cw : Nat
  file : List Nat
  reported : Nat
  isOpen : Bool
  direct : List (Nat × Nat × Nat)
  deriving DecidableEq

/-- `len` bytes of memory from offset `a`. ZeroCopyRecordingRequestHandlerModel.hpp l.131-147. -/
def slice (mem : Nat → Nat) (a len : Nat) : List Nat := (List.range len).map (fun i => mem (a + i))

/-- `::write(m_fd, p, len)` with the test `!::write(…)` of l.131-134, 139-142, 147-151, 178-181: only the result 0
counts as a failure. On a closed descriptor nothing is written and the result is -1. -/
def write (o : Obs) (len : Nat) (dir : Bool) (s : St) : St :=
  let res := if s.isOpen then o.res len else none
  { s with
    file := s.file ++ (match res with
      | none => []
      | some k => (slice o.mem s.cw len).take k)
    reported := if res = some 0 then s.reported else s.reported + len
    direct := if dir then s.direct ++ [(s.cw, len, s.file.length)] else s.direct }

/-- `current_write_pointer + chunk_size < current_end_pointer`, l.129; never true of a null pointer. -/
def roomBefore (p : Nat) : Option Nat → Bool
  | none => false
  | some e => p < e

/-- `current_end_pointer < current_write_pointer`, l.136; true of a null pointer. -/
def isBehind (p : Nat) : Option Nat → Bool
  | none => true
  | some e => e < p

/-- One round of the inner loop, l.122-164. -/
def step (c : Cfg) (s : St) (o : Obs) : St :=
  let s' :=
    if roomBefore (s.cw + c.chunk) o.back then
      { write o c.chunk true s with cw := s.cw + c.chunk }
    else if isBehind s.cw o.back then
      if s.cw + c.chunk < c.B then
        { write o c.chunk true s with cw := s.cw + c.chunk }
      else
        { write o (c.B - s.cw) false s with cw := 0 }
    else s
  if s'.cw = c.B then { s' with cw := 0 } else s'

/-- The rounds of a recording. ZeroCopyRecordingRequestHandlerModel.hpp l.121-165. -/
def run (c : Cfg) (s : St) (os : List Obs) : St := os.foldl (step c) s

/-- The end of the recording, l.173-185: complete the last started payload, close the descriptor. -/
def finish (c : Cfg) (s : St) (o : Obs) : St :=
  let last := s.cw / c.sz * c.sz
  let s' := if last ≠ s.cw then write o (last + c.sz - s.cw) false s else s
  { s' with isOpen := false }

/-- State at l.116 for the start payload `k`. -/
def begin (c : Cfg) (k : Nat) (file : List Nat) (isOpen : Bool) : St := ⟨k % c.n * c.sz, file, 0, isOpen, []⟩

end Verif.ZeroCopy
