import Verif.Basic
import Verif.SearchModel
import Verif.DataReqModel
/-
Timestamp accessors of the payload types: include/readout/ReadoutTypes.hpp, include/readout/NDReadoutTypes.hpp
and include/readout/RawWIBTp.hpp. The WIB frame header and the read accessors of the WIB2 and photon detector
frames come from another package (detdataformats); of these only the documented layout "low word, high word" is
used for WIB2 and DAPHNE, and the WIB header is not modelled.
Words are natural numbers; every assignment truncates to the width of its target.
-/
namespace Verif.Format
open Verif.Search (u64)

/-- Conversion to `uint32_t`. Used for ReadoutTypes.hpp l.180-181. -/
def u32 (n : Nat) : Nat := n % 4294967296
/-- Conversion to `uint16_t`. Used for RawWIBTp.hpp l.58. -/
def u16 (n : Nat) : Nat := n % 65536

/-! ### Raw trigger primitive header -/

/-- `TpHeader`, RawWIBTp.hpp l.26-38: the two timestamp words and the 16-bit hit count; the other fields are
collected in `rest`. -/
structure TpHeader where
  t1 : Nat
  t2 : Nat
  nhits : Nat
  rest : List Nat
  deriving DecidableEq

/-- `get_timestamp`, RawWIBTp.hpp l.40-47. -/
def TpHeader.getTs (h : TpHeader) : Nat :=
  let t := (h.t1 &&& 0xFFFF0000) >>> 16
  let t := u64 (t + ((h.t1 &&& 0xFFFF) <<< 16))
  let t := u64 (t + ((h.t2 &&& 0xFFFF0000) <<< 16))
  u64 (t + ((h.t2 &&& 0xFFFF) <<< 48))

/-- `set_timestamp`, RawWIBTp.hpp l.49-55. -/
def TpHeader.setTs (h : TpHeader) (ts : Nat) : TpHeader :=
  let a := u32 ((ts &&& 0xFFFF) <<< 16)
  let a := u32 (a + ((ts &&& 0xFFFF0000) >>> 16))
  let b := u32 ((ts &&& 0xFFFF00000000) >>> 16)
  let b := u32 (b + ((ts >>> 48) &&& 0xFFFF))
  { h with t1 := a, t2 := b }

/-- `set_nhits`, l.58: assignment to a 16-bit field. -/
def TpHeader.setNhits (h : TpHeader) (n : Nat) : TpHeader := { h with nhits := u16 n }

/-- `RawWIBTp::get_frame_size`, RawWIBTp.hpp l.194-197, with `sizeof(TpHeader) = 24`, `sizeof(TpData) = 12`. -/
def TpHeader.frameSize (h : TpHeader) : Nat := 24 + h.nhits * 12

/-! ### SSP -/

/-- `SSP_FRAME_STRUCT`, ReadoutTypes.hpp l.345-353: the timestamp words of the event header, the remaining
bytes in `rest`. -/
structure Ssp where
  w : List Nat
  rest : List Nat
  deriving DecidableEq

/-- The loop of `get_first_timestamp`, ReadoutTypes.hpp l.370-372, from word `i`. -/
def sspSum (ws : List Nat) (i : Nat) (ts : Nat) : Nat :=
  match ws with
  | [] => ts
  | x :: xs => sspSum xs (i + 1) (u64 (ts + u64 (x <<< (16 * i))))

/-- `get_first_timestamp`, ReadoutTypes.hpp l.366-374: `iword` from 0 to 3. -/
def Ssp.getTs (s : Ssp) : Nat := sspSum (s.w.take 4) 0 0

/-- The loop of `set_first_timestamp`, ReadoutTypes.hpp l.379-382. -/
def sspSplit : Nat → Nat → List Nat
  | 0, _ => []
  | n + 1, ts => u16 (ts &&& 65535) :: sspSplit n (ts >>> 16)

/-- `set_first_timestamp`, ReadoutTypes.hpp l.376-383: overwrites words 0 to 3. -/
def Ssp.setTs (s : Ssp) (ts : Nat) : Ssp := { s with w := sspSplit 4 ts ++ s.w.drop 4 }

/-- `fake_timestamps`, l.385-388: empty. -/
def Ssp.fake (s : Ssp) (_first _offset : Nat) : Ssp := s

/-! ### WIB2 and photon detector superchunks -/

/-- A frame with the timestamp in two 32-bit header words (`timestamp_1`, `timestamp_2` of WIB2,
`timestamp_wf_1`, `timestamp_wf_2` of DAPHNE). Assigned at ReadoutTypes.hpp l.180-181, 250-251. -/
structure Frame where
  lo : Nat
  hi : Nat
  rest : List Nat
  deriving DecidableEq

/-- The frame's `get_timestamp`: low word plus high word shifted by 32 (detdataformats).
Called at ReadoutTypes.hpp l.174, 244. -/
def Frame.getTs (f : Frame) : Nat := f.lo ||| (f.hi <<< 32)

/-- The two assignments of ReadoutTypes.hpp l.180-181 (WIB2) and l.250-251 (DAPHNE). -/
def Frame.setTs (f : Frame) (ts : Nat) : Frame := { f with lo := u32 ts, hi := u32 (ts >>> 32) }

/-- `set_first_timestamp`, ReadoutTypes.hpp l.177-182 (WIB2) and l.247-252 (DAPHNE): the first frame. -/
def setFirst (c : List Frame) (ts : Nat) : List Frame :=
  match c with
  | [] => []
  | f :: fs => f.setTs ts :: fs

/-- `get_first_timestamp`, ReadoutTypes.hpp l.172-175 (WIB2) and l.242-245 (DAPHNE). -/
def getFirst (c : List Frame) : Nat :=
  match c with
  | [] => 0
  | f :: _ => f.getTs

/-- `fake_timestamps`, ReadoutTypes.hpp l.184-193 (WIB2) and l.254-263 (DAPHNE): the loop over the frames. -/
def fake (c : List Frame) (ts offset : Nat) : List Frame :=
  match c with
  | [] => []
  | f :: fs => f.setTs ts :: fake fs (u64 (ts + offset)) offset

/-! ### Software trigger primitives and PACMAN -/

/-- `SW_WIB_TRIGGERPRIMITIVE_STRUCT`, ReadoutTypes.hpp l.295-324: only `time_start`. -/
structure SwTp where
  start : Nat
  deriving DecidableEq

/-- `set_first_timestamp` and `fake_timestamps`, l.311-324 (the offset is ignored, there is one frame). -/
def SwTp.setTs (_ : SwTp) (ts : Nat) : SwTp := ⟨u64 ts⟩

/-- `PACMAN_MESSAGE_STRUCT`, NDReadoutTypes.hpp l.30-34: the 32-bit `unix_ts` of the message header. -/
structure Pacman where
  unix : Nat
  deriving DecidableEq

/-- `get_timestamp`, NDReadoutTypes.hpp l.47-57. -/
def Pacman.getTs (p : Pacman) : Nat := u64 (p.unix * 50000000)

/-- `set_first_timestamp`, NDReadoutTypes.hpp l.65-68: empty. -/
def Pacman.setTs (p : Pacman) (_ts : Nat) : Pacman := p

/-- `operator<`, NDReadoutTypes.hpp l.36-44: compares the seconds. -/
def Pacman.lt (p q : Pacman) : Bool := p.unix < q.unix

/-- `PACMAN_MESSAGE_STRUCT` as a payload type: one frame per message, tick difference 0
(NDReadoutTypes.hpp l.121-130). -/
def pacmanType : DataReq.PayloadType Pacman :=
  { ts := Pacman.getTs, nf := fun _ => 1, fts := fun p _ => p.getTs, tick := 0 }

/-- Found branch of a PACMAN data request (DefaultRequestHandlerModel.hpp l.532-569): the search key is the
timestamp of the local `request_element` (l.532) after `set_first_timestamp(start_win_ts)` (l.533). `fresh` is the
contents of that uninitialised local. -/
def pacmanFound (fresh : Pacman) (l : List Pacman) (b e : Nat) : List (Pacman × Nat) :=
  DataReq.extractSkip pacmanType b e (SkipList.fromLowerBound Pacman.getTs l (fresh.setTs b).getTs)

/-! ### Sizes -/

/-- Sizes of a payload type: `sizeof`, `get_num_frames`, `get_frame_size`, `get_payload_size`.
ReadoutTypes.hpp l.138-142, 210-214, 280-284, 394-412. -/
structure Sizes where
  object : Nat
  frames : Nat
  frame : Nat
  payload : Nat
  deriving DecidableEq

/-- ReadoutTypes.hpp l.82, 138-142. -/
def wibSizes : Sizes := ⟨5568, 12, 464, 5568⟩
/-- ReadoutTypes.hpp l.158, 210-214. -/
def wib2Sizes : Sizes := ⟨5616, 12, 468, 5616⟩
/-- ReadoutTypes.hpp l.228, 280-284. -/
def daphneSizes : Sizes := ⟨7008, 12, 584, 7008⟩
/-- ReadoutTypes.hpp l.330-342, with `tp = sizeof(triggeralgs::TriggerPrimitive)`. -/
def swTpSizes (tp : Nat) : Sizes := ⟨tp, 1, tp, tp⟩
/-- ReadoutTypes.hpp l.394-412, with `hdr = sizeof(detdataformats::ssp::EventHeader)`. -/
def sspSizes (hdr : Nat) : Sizes := ⟨hdr + 1012, 1, 1012, 1012⟩
/-- NDReadoutTypes.hpp l.29, 119-123. -/
def pacmanSizes : Sizes := ⟨1048576, 1, 1048576, 1048576⟩

/-- Bytes of a payload put into a fragment when it lies inside the window (DefaultRequestHandlerModel.hpp l.561-562)
or into a recording (l.226-228): `get_payload_size()` bytes from `begin()`. A payload is the list of its bytes. -/
def wholeBytes (s : Sizes) (p : List Nat) : List Nat := p.take s.payload

/-- Bytes of frame `i` put into a fragment at the edge of the window (l.553-556): `get_frame_size()` bytes from the
`i`-th frame; the frames are `frame` apart. -/
def frameBytes (s : Sizes) (p : List Nat) (i : Nat) : List Nat := (p.drop (i * s.frame)).take s.frame

end Verif.Format
