import Verif.Basic

/-!
# Unpacking of WIB frames into registers

Model of `/repo/src/wib/tpg/FrameExpand.hpp` and of the channel tables of
`/repo/src/wib/tpg/FrameExpand.cpp`.

Simplifications:
* Memory is one allocated block of `size` bytes with values `byte`; an access past its end is
  undefined behaviour.
* A 256-bit register is a function from byte number (0-31, least significant first) to the value
  of the byte.  The AVX2 instructions are modelled from Intel's description of them.
* An array of registers is a function from index to register.
* `print256*` and `expand_segment_collection` (never called, returns an uninitialised value) are
  not modelled.
-/

namespace Verif.Expand

/-- One allocated block of memory (the buffer slots handed to `find_collection_hits`,
`/repo/src/wib/WIBFrameProcessor.hpp` line 369). -/
structure Mem where
  size : Nat
  byte : Nat → Nat

/-- A 256-bit register by bytes (`__m256i`, `/repo/src/wib/tpg/FrameExpand.hpp` lines 80-87). -/
abbrev V := Nat → Nat

/-- The `j`-th 16-bit entry of a register (`RegisterArray::uint16`,
`/repo/src/wib/tpg/FrameExpand.hpp` line 92). -/
def lane (r : V) (j : Nat) : Nat := r (2 * j) + 256 * r (2 * j + 1)

/-! ## Instructions -/

/-- `_mm256_lddqu_si256` (`/repo/src/wib/tpg/FrameExpand.hpp` line 153). -/
def load (m : Mem) (p : Nat) : Outcome V :=
  if p + 32 ≤ m.size then .ok (fun i => m.byte (p + i)) else .ub .outOfBounds

/-- `_mm256_permutevar8x32_epi32` (`/repo/src/wib/tpg/FrameExpand.hpp` lines 164, 272, 275, 300,
305, 306). -/
def permute32 (a : V) (idx : List Nat) : V := fun i => a (4 * (idx.getD (i / 4) 0 % 8) + i % 4)

/-- `_mm256_shuffle_epi8` (`/repo/src/wib/tpg/FrameExpand.hpp` lines 209, 210). -/
def shuffle8 (a : V) (mask : List Nat) : V := fun i =>
  if 128 ≤ mask.getD i 0 then 0 else a (16 * (i / 16) + mask.getD i 0 % 16)

/-- `_mm256_srli_epi16(_, 4)` (`/repo/src/wib/tpg/FrameExpand.hpp` line 216). -/
def srli4 (a : V) : V := fun i =>
  if i % 2 = 0 then lane a (i / 2) / 16 % 256 else lane a (i / 2) / 16 / 256 % 256

/-- `_mm256_slli_epi16(_, 4)` (`/repo/src/wib/tpg/FrameExpand.hpp` line 217). -/
def slli4 (a : V) : V := fun i =>
  if i % 2 = 0 then lane a (i / 2) * 16 % 256 else lane a (i / 2) * 16 / 256 % 256

/-- `_mm256_blend_epi16` (`/repo/src/wib/tpg/FrameExpand.hpp` lines 220, 221). -/
def blend16 (a b : V) (imm : Nat) : V := fun i => if imm / 2 ^ (i / 2 % 8) % 2 = 1 then b i else a i

/-- `_mm256_blend_epi32` (`/repo/src/wib/tpg/FrameExpand.hpp` lines 280, 281, 307-311, 373-379,
405-407). -/
def blend32 (a b : V) (imm : Nat) : V := fun i => if imm / 2 ^ (i / 4) % 2 = 1 then b i else a i

/-- `_mm256_blendv_epi8` (`/repo/src/wib/tpg/FrameExpand.hpp` lines 272, 275, 297, 298). -/
def blendv (a b mask : V) : V := fun i => if 128 ≤ mask i then b i else a i

/-- `_mm256_and_si256` (`/repo/src/wib/tpg/FrameExpand.hpp` lines 229, 230). -/
def vand (a b : V) : V := fun i => a i &&& b i

/-- `_mm256_or_si256` (`/repo/src/wib/tpg/FrameExpand.hpp` line 231). -/
def vor (a b : V) : V := fun i => a i ||| b i

/-- `_mm256_andnot_si256` (`/repo/src/wib/tpg/FrameExpand.hpp` line 296). -/
def vandnot (a b : V) : V := fun i => (255 - a i) &&& b i

/-- `_mm256_cmpeq_epi8` (`/repo/src/wib/tpg/FrameExpand.hpp` line 296). -/
def cmpeq8 (a b : V) : V := fun i => if a i = b i then 255 else 0

/-- `_mm256_permute4x64_epi64` (`/repo/src/wib/tpg/FrameExpand.hpp` lines 357-366, 405, 407). -/
def permute64 (a : V) (imm : Nat) : V := fun i => a (8 * (imm / 4 ^ (i / 8) % 4) + i % 8)

/-- `_mm256_setr_epi16` (`/repo/src/wib/tpg/FrameExpand.hpp` lines 226, 227, 250-264). -/
def setr16 (l : List Nat) : V := fun i =>
  if i % 2 = 0 then l.getD (i / 2) 0 % 256 else l.getD (i / 2) 0 / 256 % 256

/-- `_mm256_set1_epi16` (`/repo/src/wib/tpg/FrameExpand.hpp` lines 226, 227). -/
def set1 (x : Nat) : V := fun i => if i % 2 = 0 then x % 256 else x / 256 % 256

/-- `_mm256_setzero_si256` (`/repo/src/wib/tpg/FrameExpand.hpp` line 279). -/
def zero : V := fun _ => 0

/-! ## Two segments -/

/-- `shuffle_mask_lo` (`/repo/src/wib/tpg/FrameExpand.hpp` lines 171-172). -/
def maskLo : List Nat :=
  [0, 2, 2, 4, 6, 8, 8, 10, 1, 3, 3, 5, 7, 9, 9, 11, 0, 2, 2, 4, 6, 8, 8, 10, 1, 3, 3, 5, 7, 9, 9, 11]

/-- `shuffle_mask_hi` (`/repo/src/wib/tpg/FrameExpand.hpp` lines 175-206). -/
def maskHi : List Nat :=
  [0, 255, 4, 255, 6, 255, 10, 255, 1, 255, 5, 255, 7, 255, 11, 255,
   0, 255, 4, 255, 6, 255, 10, 255, 1, 255, 5, 255, 7, 255, 11, 255]

/-- The registers part of `expand_two_segments` (`/repo/src/wib/tpg/FrameExpand.hpp` lines 163-233). -/
def expandReg (raw0 : V) : V :=
  let raw := permute32 raw0 [0, 1, 2, 0, 3, 4, 5, 0]
  let lo := shuffle8 raw maskLo
  let hi := shuffle8 raw maskHi
  let loBlended := blend16 lo (srli4 lo) 0xaa
  let hiBlended := blend16 hi (slli4 hi) 0xaa
  vor (vand loBlended (set1 0x0f0f)) (vand hiBlended (set1 0xf0f0))

/-- `expand_two_segments` (`/repo/src/wib/tpg/FrameExpand.hpp` lines 149-234) on the segments
starting at address `p`. -/
def expandTwo (m : Mem) (p : Nat) : Outcome V := do
  let raw ← load m p
  pure (expandReg raw)

/-! ## Blocks and frames -/

/-- `coll_blend_mask` (`/repo/src/wib/tpg/FrameExpand.hpp` lines 250-265). -/
def collMask : V :=
  setr16 [0xffff, 0xffff, 0xffff, 0xffff, 0xffff, 0xffff, 0, 0, 0xffff, 0xffff, 0, 0, 0, 0, 0, 0]

/-- `ind_blend_mask` (`/repo/src/wib/tpg/FrameExpand.hpp` lines 295-296). -/
def indMask : V := vandnot collMask (cmpeq8 collMask collMask)

/-- The selection of channels in `get_block_divided_adcs`
(`/repo/src/wib/tpg/FrameExpand.hpp` lines 267-313). -/
def divide (e0 e1 e2 e3 : V) : Nat → V
  | 0 => blend32 (permute32 (blendv e0 e1 collMask) [0, 1, 3, 4, 6, 7, 0, 0]) zero 0xc0
  | 1 => blend32 (permute32 (blendv e2 e3 collMask) [0, 1, 3, 4, 6, 7, 0, 0]) zero 0xc0
  | 2 => blendv e0 e1 indMask
  | 3 => blendv e2 e3 indMask
  | 4 =>
    let tmp0 := permute32 e0 [5, 0, 0, 0, 0, 0, 0, 0]
    let tmp2 := permute32 e2 [0, 5, 0, 0, 0, 0, 0, 0]
    let tmp3 := permute32 e3 [0, 0, 0, 2, 0, 0, 0, 0]
    let tmpblend0 := blend32 tmp0 e1 0x04
    let tmpblend1 := blend32 tmp2 tmp3 0x08
    blend32 (blend32 tmpblend0 tmpblend1 0xa) zero 0xf0
  | _ => zero

/-- `get_block_divided_adcs` (`/repo/src/wib/tpg/FrameExpand.hpp` lines 236-314): the segments, 12
bytes each, follow the 16 bytes of the block header. -/
def blockDivided (m : Mem) (p : Nat) : Outcome (Nat → V) := do
  let e0 ← expandTwo m (p + 16)
  let e1 ← expandTwo m (p + 16 + 24)
  let e2 ← expandTwo m (p + 16 + 48)
  let e3 ← expandTwo m (p + 16 + 72)
  pure (divide e0 e1 e2 e3)

/-- The results for the four blocks of a frame, by block number
(`frame->get_block(i)`, `/repo/src/wib/tpg/FrameExpand.hpp` lines 329-330). -/
def byBlock (b0 b1 b2 b3 : Nat → V) : Nat → Nat → V
  | 0 => b0
  | 1 => b1
  | 2 => b2
  | _ => b3

/-- `adcs_tmp` of `get_frame_divided_adcs`
(`/repo/src/wib/tpg/FrameExpand.hpp` lines 328-337). -/
def gather (b : Nat → Nat → V) : Nat → V := fun k =>
  if k < 8 then b (k / 2) (k % 2) else b ((k - 8) / 3) (2 + (k - 8) % 3)

/-- The compression of the collection registers (`/repo/src/wib/tpg/FrameExpand.hpp` lines
357-379). -/
def collRegs (t : Nat → V) : Nat → V
  | 0 => blend32 (t 0) (permute64 (t 6) 0x00) 0xc0
  | 1 => blend32 (t 1) (permute64 (t 6) 0x55) 0xc0
  | 2 => blend32 (t 2) (permute64 (t 6) 0xaa) 0xc0
  | 3 => blend32 (t 3) (permute64 (t 7) 0x00) 0xc0
  | 4 => blend32 (t 4) (permute64 (t 7) 0x55) 0xc0
  | 5 => blend32 (t 5) (permute64 (t 7) 0xaa) 0xc0
  | _ => zero

/-- The compression of the induction registers (`/repo/src/wib/tpg/FrameExpand.hpp` lines
394-407). -/
def indRegs (t : Nat → V) : Nat → V
  | 0 => t 8
  | 1 => t 9
  | 2 => t 11
  | 3 => t 12
  | 4 => t 14
  | 5 => t 15
  | 6 => t 17
  | 7 => t 18
  | 8 => blend32 (t 10) (permute64 (t 13) 0x4f) 0xf0
  | 9 => blend32 (t 16) (permute64 (t 19) 0x4f) 0xf0
  | _ => zero

/-- `get_frame_divided_adcs` (`/repo/src/wib/tpg/FrameExpand.hpp` lines 322-410): collection and
induction registers of the frame at `p`.  The blocks, 112 bytes each, follow the 16 bytes of the
frame header. -/
def frameDivided (m : Mem) (p : Nat) : Outcome ((Nat → V) × (Nat → V)) := do
  let b0 ← blockDivided m (p + 16)
  let b1 ← blockDivided m (p + 16 + 112)
  let b2 ← blockDivided m (p + 16 + 224)
  let b3 ← blockDivided m (p + 16 + 336)
  let t := gather (byBlock b0 b1 b2 b3)
  pure (collRegs t, indRegs t)

/-! ## Collection channels only -/

/-- `blend_mask` of `get_block_collection_adcs` (`/repo/src/wib/tpg/FrameExpand.hpp` lines
432-447). -/
def collMask2 : V :=
  setr16 [0xffff, 0xffff, 0xffff, 0xffff, 0, 0, 0, 0, 0xffff, 0xffff, 0, 0, 0, 0, 0, 0]

/-- The selection in `get_block_collection_adcs` (`/repo/src/wib/tpg/FrameExpand.hpp` lines
449-463). -/
def selectColl (e0 e1 e2 e3 : V) : Nat → V
  | 0 => blend32 (permute32 (blendv e0 e1 collMask2) [0, 1, 3, 4, 6, 7, 0, 0]) zero 0xc0
  | 1 => blend32 (permute32 (blendv e2 e3 collMask2) [0, 1, 3, 4, 6, 7, 0, 0]) zero 0xc0
  | _ => zero

/-- `get_block_collection_adcs` (`/repo/src/wib/tpg/FrameExpand.hpp` lines 421-464). -/
def blockCollection (m : Mem) (p : Nat) : Outcome (Nat → V) := do
  let e0 ← expandTwo m (p + 16)
  let e1 ← expandTwo m (p + 16 + 24)
  let e2 ← expandTwo m (p + 16 + 48)
  let e3 ← expandTwo m (p + 16 + 72)
  pure (selectColl e0 e1 e2 e3)

/-- `get_frame_collection_adcs` (`/repo/src/wib/tpg/FrameExpand.hpp` lines 479-531); the second
half is the same as in `get_frame_divided_adcs`. -/
def frameCollection (m : Mem) (p : Nat) : Outcome (Nat → V) := do
  let b0 ← blockCollection m (p + 16)
  let b1 ← blockCollection m (p + 16 + 112)
  let b2 ← blockCollection m (p + 16 + 224)
  let b3 ← blockCollection m (p + 16 + 336)
  pure (collRegs (fun k => byBlock b0 b1 b2 b3 (k / 2) (k % 2)))

/-- `get_frame_all_adcs` (`/repo/src/wib/tpg/FrameExpand.hpp` lines 534-546, 467-475): register `k`
is made from segments `2 k % 8` and `2 k % 8 + 1` of block `k / 4`. -/
def frameAll (m : Mem) (p : Nat) : Nat → Nat → Outcome (List V)
  | _, 0 => .ok []
  | k, left + 1 => do
    let r ← expandTwo m (p + 16 + 112 * (k / 4) + 16 + 24 * (k % 4))
    let rest ← frameAll m p (k + 1) left
    pure (r :: rest)

/-! ## Superchunks -/

/-- `FRAMES_PER_MSG` (`/repo/src/wib/tpg/TPGConstants.hpp` line 29). -/
def framesPerMsg : Nat := 12

/-- `set_ymm` (`/repo/src/wib/tpg/FrameExpand.hpp` lines 84-87). -/
def setReg (a : Nat → V) (k : Nat) (v : V) : Nat → V := fun i => if i = k then v else a i

/-- The inner loops of `expand_message_adcs_inplace`, `n` registers of frame `iframe`
(`/repo/src/wib/tpg/FrameExpand.hpp` lines 586-601). -/
def putRegs (iframe n : Nat) (src dst : Nat → V) : Nat → V :=
  (List.range n).foldl (fun d iblock => setReg d (iframe + iblock * framesPerMsg) (src iblock)) dst

/-- The loop of `expand_message_adcs_inplace` over the frames `iframe`, ..., `iframe + left - 1`
(`/repo/src/wib/tpg/FrameExpand.hpp` lines 582-602). -/
def expandLoop (m : Mem) (p : Nat) : Nat → Nat → (Nat → V) × (Nat → V) →
    Outcome ((Nat → V) × (Nat → V))
  | _, 0, acc => .ok acc
  | iframe, left + 1, acc => do
    let regs ← frameDivided m (p + iframe * 464)
    expandLoop m p (iframe + 1) left (putRegs iframe 6 regs.1 acc.1, putRegs iframe 10 regs.2 acc.2)

/-- `expand_message_adcs_inplace` (`/repo/src/wib/tpg/FrameExpand.hpp` lines 578-603) on the
superchunk at `p`, with the previous contents of the two register arrays. -/
def expandMessage (m : Mem) (p : Nat) (coll ind : Nat → V) : Outcome ((Nat → V) × (Nat → V)) :=
  expandLoop m p 0 framesPerMsg (coll, ind)

/-! ## Channel tables -/

/-- `collection_index_to_chan` (`/repo/src/wib/tpg/FrameExpand.cpp` lines 219-225). -/
def collTable : List Nat :=
  [16, 17, 18, 19, 10, 11, 20, 21, 12, 13, 14, 15, 208, 209,
   210, 211, 48, 49, 50, 51, 42, 43, 52, 53, 44, 45, 46, 47,
   202, 203, 212, 213, 80, 81, 82, 83, 74, 75, 84, 85, 76, 77,
   78, 79, 204, 205, 206, 207, 112, 113, 114, 115, 106, 107, 116, 117,
   108, 109, 110, 111, 240, 241, 242, 243, 144, 145, 146, 147, 138, 139,
   148, 149, 140, 141, 142, 143, 234, 235, 244, 245, 176, 177, 178, 179,
   170, 171, 180, 181, 172, 173, 174, 175, 236, 237, 238, 239]

/-- `induction_index_to_chan` (`/repo/src/wib/tpg/FrameExpand.cpp` lines 243-251). -/
def indTable : List Nat :=
  [0, 1, 2, 3, 8, 9, 26, 27, 4, 5, 22, 23, 28, 29, 30, 31, 32, 33, 34, 35, 40, 41, 58,
   59, 36, 37, 54, 55, 60, 61, 62, 63, 64, 65, 66, 67, 72, 73, 90, 91, 68, 69, 86, 87, 92, 93,
   94, 95, 96, 97, 98, 99, 104, 105, 122, 123, 100, 101, 118, 119, 124, 125, 126, 127, 128, 129,
   130, 131, 136,
   137, 154, 155, 132, 133, 150, 151, 156, 157, 158, 159, 160, 161, 162, 163, 168, 169, 186, 187,
   164, 165, 182, 183,
   188, 189, 190, 191, 192, 193, 194, 195, 200, 201, 218, 219, 196, 197, 214, 215, 220, 221, 222,
   223, 224, 225, 226,
   227, 232, 233, 250, 251, 228, 229, 246, 247, 252, 253, 254, 255, 6, 7, 38, 39, 24, 25, 56, 57,
   70, 71,
   102, 103, 88, 89, 120, 121, 134, 135, 166, 167, 152, 153, 184, 185, 198, 199, 230, 231, 216,
   217, 248, 249]

/-- `collection_offlines` (`/repo/src/wib/tpg/FrameExpand.cpp` lines 211-216). -/
def collOffline : List Nat :=
  [12, 14, 16, 18, 23, 21, 20, 22, 19, 17, 15, 13, 264, 266, 268, 270,
   0, 2, 4, 6, 11, 9, 8, 10, 7, 5, 3, 1, 275, 273, 272, 274,
   24, 26, 28, 30, 35, 33, 32, 34, 31, 29, 27, 25, 271, 269, 267, 265,
   36, 38, 40, 42, 47, 45, 44, 46, 43, 41, 39, 37, 276, 278, 280, 282,
   252, 254, 256, 258, 263, 261, 260, 262, 259, 257, 255, 253, 287, 285, 284, 286,
   240, 242, 244, 246, 251, 249, 248, 250, 247, 245, 243, 241, 283, 281, 279, 277]

/-- `induction_offlines` (`/repo/src/wib/tpg/FrameExpand.cpp` lines 230-240). -/
def indOffline : List Nat :=
  [974, 976, 978, 229, 973, 971, 224, 226, 227, 225, 970, 972, 228, 979, 977, 975, 964, 966,
   968, 239, 963, 961, 234, 236, 237, 235, 960, 962, 238, 969, 967, 965, 984, 986, 988, 219,
   983, 981, 214, 216, 217, 215, 980, 982, 218, 989, 987, 985, 994, 996, 998, 209, 993, 991,
   204, 206, 207, 205, 990, 992, 208, 999, 997, 995, 1174, 1176, 1178, 29, 1173, 1171, 24, 26,
   27, 25, 1170, 1172, 28, 1179, 1177, 1175, 1164, 1166, 1168, 39, 1163, 1161, 34, 36, 37, 35,
   1160, 1162, 38, 1169, 1167, 1165, 1184, 1186, 1188, 19, 1183, 1181, 14, 16, 17, 15, 1180, 1182,
   18, 1189, 1187, 1185, 1194, 1196, 1198, 9, 1193, 1191, 4, 6, 7, 5, 1190, 1192, 8, 1199,
   1197, 1195, 223, 221, 233, 231, 220, 222, 230, 232, 213, 211, 203, 201, 210, 212, 200, 202,
   23, 21, 33, 31, 20, 22, 30, 32, 13, 11, 3, 1, 10, 12, 0, 2]

/-- `collection_index_to_offline` (`/repo/src/wib/tpg/FrameExpand.cpp` lines 256-264). -/
def collectionOffline (index : Int) : Int :=
  if index < 0 ∨ 95 < index then -1 else (collOffline.getD index.toNat 0 : Nat)

/-- `induction_index_to_offline` (`/repo/src/wib/tpg/FrameExpand.cpp` lines 267-275). -/
def inductionOffline (index : Int) : Int :=
  if index < 0 ∨ 159 < index then -1 else (indOffline.getD index.toNat 0 : Nat)

/-- `collection_index_to_channel` (`/repo/src/wib/tpg/FrameExpand.cpp` lines 278-286). -/
def collectionChannel (index : Int) : Int :=
  if index < 0 ∨ 95 < index then -1 else (collTable.getD index.toNat 0 : Nat)

/-- `induction_index_to_channel` (`/repo/src/wib/tpg/FrameExpand.cpp` lines 289-297). -/
def inductionChannel (index : Int) : Int :=
  if index < 0 ∨ 159 < index then -1 else (indTable.getD index.toNat 0 : Nat)

end Verif.Expand
