import Verif.ExpandModel

/-!
# Views of expanded samples

Model of `WindowCollectionADCs` and of the accessors of `RegisterArray` in
`/repo/src/wib/tpg/FrameExpand.hpp` lines 21-97.

Simplifications:
* The messages of a window are one block of 16-bit words; reading outside it is undefined
  behaviour.  Byte order is little-endian, as on every processor with AVX2.
* `size_t` arithmetic is modulo `2 ^ 64`.
* The rules of C++ about reading a `char` array through pointers to other types, alignment and
  `__restrict__` are not modelled.
* Nothing in the repository makes a `WindowCollectionADCs`; `window` is the filling its comments
  describe, by copies of the collection registers of each message.
-/

namespace Verif.View

open Verif.Expand

/-- `size_t` arithmetic (`/repo/src/wib/tpg/FrameExpand.hpp` lines 37-39, 45-55). -/
def sz (n : Nat) : Nat := n % 2 ^ 64

/-- `REGISTERS_PER_FRAME` (`/repo/src/wib/tpg/TPGConstants.hpp` line 33). -/
def registersPerFrame : Nat := 6

/-- `BYTES_PER_REGISTER` (`/repo/src/wib/tpg/TPGConstants.hpp` line 36). -/
def bytesPerRegister : Nat := 32

/-- `SAMPLES_PER_REGISTER` (`/repo/src/wib/tpg/TPGConstants.hpp` line 39). -/
def samplesPerRegister : Nat := 16

/-- `COLLECTION_ADCS_SIZE`, the size of `MessageCollectionADCs`
(`/repo/src/wib/tpg/TPGConstants.hpp` line 44, `/repo/src/wib/tpg/FrameExpand.hpp` lines 21-24). -/
def collectionAdcsSize : Nat := bytesPerRegister * registersPerFrame * framesPerMsg

/-- `WindowCollectionADCs`: the number of messages and the 16-bit words at `fragments`
(`/repo/src/wib/tpg/FrameExpand.hpp` lines 26-34, 59-60). -/
structure Window where
  numMessages : Nat
  word : Nat → Nat

/-- Number of 16-bit words in the block at `fragments` (`/repo/src/wib/tpg/FrameExpand.hpp` lines
21-24, 60). -/
def Window.words (w : Window) : Nat := w.numMessages * collectionAdcsSize / 2

/-- The register index of `get256` with `NREGISTERS = n` (`/repo/src/wib/tpg/FrameExpand.hpp` lines
37-39). -/
def index256 (n ireg itime : Nat) : Nat :=
  sz (sz (sz (itime / 12 * n) * framesPerMsg) + sz (framesPerMsg * ireg) + itime % 12)

/-- Reading the register `get256` points to (`/repo/src/wib/tpg/FrameExpand.hpp` lines 35-42), by
its sixteen words. -/
def get256 (n : Nat) (w : Window) (ireg itime : Nat) : Outcome (Nat → Nat) :=
  if 16 * index256 n ireg itime + 16 ≤ w.words then
    .ok (fun j => w.word (16 * index256 n ireg itime + j))
  else .ub .outOfBounds

/-- The word index of `get16` (`/repo/src/wib/tpg/FrameExpand.hpp` lines 46-55). -/
def index16 (ichan itime : Nat) : Nat :=
  let registerT0 := sz (ichan / samplesPerRegister * samplesPerRegister * framesPerMsg)
  let msgStart := sz (itime / 12 * collectionAdcsSize) / 2
  let within := sz (registerT0 + samplesPerRegister * (itime % 12) + ichan % samplesPerRegister)
  sz (msgStart + within)

/-- `get16` (`/repo/src/wib/tpg/FrameExpand.hpp` lines 44-57). -/
def get16 (w : Window) (ichan itime : Nat) : Outcome Nat :=
  if index16 ichan itime < w.words then .ok (w.word (index16 ichan itime)) else .ub .outOfBounds

/-- A window made of copies of the collection registers of consecutive messages
(`MessageRegistersCollection`, `/repo/src/wib/tpg/FrameExpand.hpp` lines 105-106; as large as a
`MessageCollectionADCs`, lines 21-24). -/
def window (msgs : List (Nat → V)) : Window where
  numMessages := msgs.length
  word i := lane (msgs.getD (i / 1152) (fun _ _ => 0) (i % 1152 / 16)) (i % 16)

/-! ## `RegisterArray` -/

/-- `m_array` of a `RegisterArray<N>` (`/repo/src/wib/tpg/FrameExpand.hpp` line 102). -/
abbrev Arr := List Nat

/-- `uint16(i)` (`/repo/src/wib/tpg/FrameExpand.hpp` line 88). -/
def Arr.uint16 (a : Arr) (i : Nat) : Outcome Nat :=
  if i < a.length then .ok (a.getD i 0) else .ub .outOfBounds

/-- `set_uint16(i, val)` (`/repo/src/wib/tpg/FrameExpand.hpp` line 89). -/
def Arr.setUint16 (a : Arr) (i val : Nat) : Outcome Arr :=
  if i < a.length then .ok (a.set i (val % 65536)) else .ub .outOfBounds

/-- `uint16(i, j)` (`/repo/src/wib/tpg/FrameExpand.hpp` line 92). -/
def Arr.uint16At (a : Arr) (i j : Nat) : Outcome Nat :=
  if 16 * i + j < a.length then .ok (a.getD (16 * i + j) 0) else .ub .outOfBounds

/-- `set_uint16(i, j, val)` (`/repo/src/wib/tpg/FrameExpand.hpp` line 93). -/
def Arr.setUint16At (a : Arr) (i j val : Nat) : Outcome Arr :=
  if 16 * i + j < a.length then .ok (a.set (16 * i + j) (val % 65536)) else .ub .outOfBounds

/-- `ymm(i)`, by its sixteen words (`/repo/src/wib/tpg/FrameExpand.hpp` lines 80-83). -/
def Arr.ymm (a : Arr) (i : Nat) : Outcome (List Nat) :=
  if 16 * i + 16 ≤ a.length then .ok ((a.drop (16 * i)).take 16) else .ub .outOfBounds

/-- `set_ymm(i, val)` (`/repo/src/wib/tpg/FrameExpand.hpp` lines 84-87) with `val` given by its
sixteen words. -/
def Arr.setYmm (a : Arr) (i : Nat) (val : List Nat) : Outcome Arr :=
  if 16 * i + 16 ≤ a.length then .ok (a.take (16 * i) ++ val ++ a.drop (16 * i + 16))
  else .ub .outOfBounds

end Verif.View
