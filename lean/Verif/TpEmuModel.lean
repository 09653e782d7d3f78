import Verif.Basic
/-
The raw trigger primitive emulator: `run_produce`, `unpack_tpframe_version_2` and `unpack_tpframe_version_1`
(src/wib/TPEmulatorModel.hpp l.136-252) on the file contents read by `FileSourceBuffer`. Contents are 32-bit words: a
subframe is 3 words, `TpHeader` 6 words, `TpData` 3 words, `RawWIBTp` 10 words (the private member `m_nhits` is
word 9, include/readout/RawWIBTp.hpp l.170-208). Files are shorter than 2^31 bytes (`offset` is an `int`; module SrcFile, C130). The
`reserve`d but not resized temporary vector of l.163-180 is treated as an array of the reserved size.
-/
namespace Verif.TpEmu

/-- `num_elements()` in subframes of 12 bytes (l.92, 206; FileSourceBuffer.hpp l.66, 82). -/
def numElem (src : List Nat) : Nat := src.length / 3

/-- `nhits` field of a header word 4: `m_padding_1 : 16, m_nhits : 16` (RawWIBTp.hpp l.37). -/
def hitsOf (blk : List Nat) : Nat := blk.getD 4 0 / 65536

/-- `get_frame_size()` in words (RawWIBTp.hpp l.194-197). -/
def frameWords (blk : List Nat) : Nat := 6 + 3 * hitsOf blk

/-- `RawWIBTp::set_nhits` on a heap block (RawWIBTp.hpp l.183-187): the member `m_nhits` is word 9 of the structure
whatever the size of the block; then the header field. -/
def setNhits (blk : List Nat) (n : Nat) : Outcome (List Nat) :=
  if 9 < blk.length then
    .ok ((blk.set 9 n).set 4 (blk.getD 4 0 % 65536 + n % 65536 * 65536))
  else .ub .outOfBounds

/-- `memcpy` of `len` words at `off` out of the file buffer.
TPEmulatorModel.hpp l.147-149, 168-182. -/
def readSrc (src : List Nat) (off len : Nat) : Outcome (List Nat) :=
  if off + len ≤ src.length then .ok ((src.drop off).take len) else .ub .outOfBounds

/-- `memcpy` of the first `len` words of `src` to the beginning of `dst`.
TPEmulatorModel.hpp l.190-192. -/
def copyTo (dst src : List Nat) (len : Nat) : Outcome (List Nat) :=
  if len ≤ src.length ∧ len ≤ dst.length then .ok (src.take len ++ dst.drop len) else .ub .outOfBounds

/-- `unpack_tpframe_version_2`, l.136-150. `g` is the contents of fresh heap memory. -/
def unpack2 (src : List Nat) (g : Nat → Nat) (nhits off : Nat) : Outcome (List Nat) := do
  let blk := (List.range (6 + 3 * nhits)).map g
  let blk ← setNhits blk nhits
  let data ← readSrc src off (frameWords blk)
  copyTo blk data (frameWords blk)

/-- The subframe count of l.156-160: the least `n ≥ 1` whose subframe ends with 0xDEADBEEF, searched with at most `fuel`
subframes; reading past the end of the file is undefined. -/
def countSub (src : List Nat) (off : Nat) (n : Nat) : Nat → Outcome Nat
  | 0 => .ub .outOfBounds
  | fuel + 1 =>
    match src[off + (n - 1) * 3 + 2]? with
    | none => .ub .outOfBounds
    | some w => if w = 0xDEADBEEF then .ok n else countSub src off (n + 1) fuel

/-- `unpack_tpframe_version_1`, l.151-196. For `n = 1` the number of hits is -1 and the size of the copy at l.180 is
enormous. -/
def unpack1 (src : List Nat) (g : Nat → Nat) (off : Nat) : Outcome (List Nat) := do
  let n ← countSub src off 1 (src.length + 1)
  if n < 2 then .ub .outOfBounds
  else do
    let nhits := n - 2
    let head ← readSrc src off 3
    let ped ← readSrc src (off + (n - 1) * 3) 3
    let hits ← readSrc src (off + 3) (nhits * 3)
    let blk := (List.range (6 + 3 * nhits)).map g
    let blk ← setNhits blk nhits
    let blk ← copyTo blk (head ++ ped ++ hits) (frameWords blk)
    setNhits blk nhits

/-- The choice of l.224-235 by the marker in the copied header. -/
def unpack (src : List Nat) (g : Nat → Nat) (hdr : List Nat) (off : Nat) : Outcome (List Nat) :=
  if hdr.getD 5 0 % 65536 = 48879 then unpack2 src g (hitsOf hdr) off else unpack1 src g off

/-- How a heap object was allocated. TPEmulatorModel.hpp l.139, 184, 220. -/
inductive Alloc | byMalloc | byNew
  deriving DecidableEq

/-- Loop state: offset in words, emitted payloads with the way they were allocated, and the number of objects whose
owner gave them up without releasing them. TPEmulatorModel.hpp l.203-206. -/
structure St where
  off : Nat
  out : List (List Nat × Alloc)
  leaked : Nat
  deriving DecidableEq

/-- One round of `run_produce`, l.213-237: the `new` object of l.220 is `release`d (not deleted) at l.143 or l.186 and
replaced by a `malloc` block. -/
def iter (src : List Nat) (g : Nat → Nat) (s : St) : Outcome St := do
  let off := if s.off = numElem src * 3 then 0 else s.off
  let hdr ← readSrc src off 6
  let blk ← unpack src g hdr off
  .ok ⟨off + frameWords blk, s.out ++ [(blk, .byMalloc)], s.leaked + 1⟩

/-- `n` rounds. Repeated TPEmulatorModel.hpp l.213-237. -/
def run (src : List Nat) (g : Nat → Nat) : Nat → Outcome St
  | 0 => .ok ⟨0, [], 0⟩
  | n + 1 => do let s ← run src g n; iter src g s

/-- Destruction of a payload: `std::unique_ptr<RawWIBTp>` with the default deleter uses `delete`
(include/readout/ReadoutTypes.hpp l.435). -/
def destroy (p : List Nat × Alloc) : Outcome Unit :=
  match p.2 with
  | .byNew => .ok ()
  | .byMalloc => .ub .badFree

end Verif.TpEmu
