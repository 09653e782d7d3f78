import Verif.Basic

/-!
# Software trigger-primitive generation (hit finding)

Model of `/repo/src/wib/tpg/ProcessNaive.hpp` (scalar reference),
`/repo/src/wib/tpg/ProcessAVX2.hpp` (vectorised version used in production),
`/repo/src/wib/tpg/ProcessingInfo.hpp` (state) and of the part of
`/repo/src/wib/WIBFrameProcessor.hpp` that drives it and decodes its output.

Simplifications:
* A 16-bit signed value is an `Int`; wrapping is explicit (`w16`), so is saturation (`sat16`).
* A 256-bit register is a function from lane number (0-15) to the signed 16-bit value of the
  lane.  Masks are the results of compares (0 or -1 per lane), so a bytewise blend selects whole
  lanes and the bitwise `and`, `or`, `xor` and `andnot` of masks act lane by lane.  The only
  operation that mixes lanes, the product in line 266 of ProcessAVX2.hpp, is modelled on the
  64-bit lanes the compiler uses for `__m256i * scalar`.
* The eight filter taps are a parameter; computing them in floating point
  (`/repo/src/wib/tpg/DesignFIR.cpp`) is not modelled.
* `tap_exponent`, `threshold` have the values of the collection instance
  (`/repo/src/wib/WIBFrameProcessor.hpp` lines 570-572).
-/

namespace Verif.Tpg

/-- Value of the low 16 bits read as a signed number (conversion to `int16_t`, used in
`/repo/src/wib/tpg/ProcessNaive.hpp` lines 93, 101, 103, 114 and by every `epi16` instruction). -/
def w16 (x : Int) : Int := (x + 32768) % 65536 - 32768

/-- Signed saturation to 16 bits, `_mm256_adds_epi16`
(`/repo/src/wib/tpg/ProcessAVX2.hpp` lines 71, 281, 295). -/
def sat16 (x : Int) : Int := max (-32768) (min 32767 x)

/-- The 16 bits of a lane as an unsigned number, the type of the output buffer
(`/repo/src/wib/tpg/ProcessNaive.hpp` lines 140-143). -/
def u16 (x : Int) : Nat := (x % 65536).toNat

/-- `info.multiplier` (`/repo/src/wib/tpg/ProcessingInfo.hpp` line 83). -/
def multiplier : Int := 64
/-- `info.adcMax = INT16_MAX / multiplier` (`/repo/src/wib/tpg/ProcessingInfo.hpp` line 84). -/
def adcMax : Int := 511
/-- `info.threshold` (`/repo/src/wib/WIBFrameProcessor.hpp` line 570). -/
@[reducible] def threshold : Nat := 5
/-- `sigmaMax` (`/repo/src/wib/tpg/ProcessAVX2.hpp` line 94). -/
def sigmaMax : Int := 102
/-- The limit of the tracking accumulators (`/repo/src/wib/tpg/ProcessNaive.hpp` lines 95-99). -/
def accLimit : Int := 10
/-- `MAGIC` (`/repo/src/wib/tpg/TPGConstants.hpp` line 24). -/
def magic : Nat := 65535

/-! ## Scalar reference implementation -/

/-- `frugal_accum_update` (`/repo/src/wib/tpg/ProcessNaive.hpp` lines 22-39): new estimate and new
accumulator. -/
def frugal (m s acc lim : Int) : Int × Int :=
  let a1 := if m < s then w16 (acc + 1) else acc
  let a2 := if s < m then w16 (a1 - 1) else a1
  let m1 := if lim < a2 then w16 (m + 1) else m
  let a3 := if lim < a2 then 0 else a2
  if a3 < -lim then (w16 (m1 - 1), 0) else (m1, a3)

/-- The tracking and filtering state of one channel
(`ChanState`, `/repo/src/wib/tpg/ProcessingInfo.hpp` lines 42-51). -/
structure Ped where
  med : Int
  q25 : Int
  q75 : Int
  acc : Int
  acc25 : Int
  acc75 : Int
  /-- `prev_samp`, eight entries per channel. -/
  prev : List Int
  deriving DecidableEq

/-- The hit finding state of one channel
(`/repo/src/wib/tpg/ProcessingInfo.hpp` lines 54-57). -/
structure HitSt where
  over : Bool
  charge : Int
  tover : Int
  deriving DecidableEq

/-- A hit as written to the output (`/repo/src/wib/tpg/ProcessNaive.hpp` lines 140-143), without
the channel number; all values unsigned 16 bit. -/
structure Hit where
  time : Nat
  charge : Nat
  tover : Nat
  deriving DecidableEq, Repr

/-- Pedestal tracking, `/repo/src/wib/tpg/ProcessNaive.hpp` lines 95-99: the state after the
sample. -/
def naiveTrack (p : Ped) (sample : Int) : Ped :=
  let r25 := if sample < p.med then frugal p.q25 sample p.acc25 accLimit else (p.q25, p.acc25)
  let r75 := if p.med < sample then frugal p.q75 sample p.acc75 accLimit else (p.q75, p.acc75)
  let r := frugal p.med sample p.acc accLimit
  { p with med := r.1, acc := r.2, q25 := r25.1, acc25 := r25.2, q75 := r75.1, acc75 := r75.2 }

/-- The filter loop, `/repo/src/wib/tpg/ProcessNaive.hpp` lines 112-115. -/
def naiveFilter (taps : Nat → Int) (prev : List Int) (abs : Nat) : Int :=
  (List.range 8).foldl (fun f j => w16 (f + taps j * prev.getD ((j + abs) % 8) 0)) 0

/-- Tracking and filtering of one sample, `/repo/src/wib/tpg/ProcessNaive.hpp` lines 93-119: the
new state, the filtered value and `sigma`. -/
def naivePed (taps : Nat → Int) (abs : Nat) (p : Ped) (raw : Int) : Ped × Int × Int :=
  let sample := w16 raw
  let p1 := naiveTrack p sample
  let sigma := w16 (p1.q75 - p1.q25)
  let s := min (w16 (sample - p1.med)) adcMax
  let filt := naiveFilter taps p.prev abs
  ({ p1 with prev := p.prev.set (abs % 8) s }, filt, sigma)

/-- Hit finding of one sample, `/repo/src/wib/tpg/ProcessNaive.hpp` lines 124-151. -/
def naiveHit (t : Nat) (h : HitSt) (filt sigma : Int) : HitSt × List Hit :=
  let isOver := decide (5 * sigma * multiplier < filt)
  let h1 : HitSt :=
    if isOver then ⟨true, w16 (min (h.charge + filt / 64) 32767), w16 (h.tover + 1)⟩ else h
  if h1.over && !isOver then (⟨false, 0, 0⟩, [⟨t % 65536, u16 h1.charge, u16 h1.tover⟩])
  else (h1, [])

/-- The loop over the samples of one channel, `/repo/src/wib/tpg/ProcessNaive.hpp` lines 80-153,
with `itime = t` and `absTimeModNTAPS = abs` for the first sample of the list. -/
def naiveRun (taps : Nat → Int) : Nat → Nat → Ped → HitSt → List Int → (Ped × HitSt) × List Hit
  | _, _, p, h, [] => ((p, h), [])
  | abs, t, p, h, x :: xs =>
    let r := naivePed taps abs p x
    let k := naiveHit t h r.2.1 r.2.2
    let z := naiveRun taps ((abs + 1) % 8) (t + 1) r.1 k.1 xs
    (z.1, k.2 ++ z.2)

/-! ## 256-bit registers -/

/-- A register as sixteen signed lanes (`__m256i`,
`/repo/src/wib/tpg/ProcessAVX2.hpp` lines 88-103). -/
abbrev Reg := Nat → Int

/-- `_mm256_set1_epi16` (`/repo/src/wib/tpg/ProcessAVX2.hpp` line 44 and others). -/
def set1 (x : Int) : Reg := fun _ => x
/-- `_mm256_cmpgt_epi16` (`/repo/src/wib/tpg/ProcessAVX2.hpp` lines 41, 60, 62, 166, 266). -/
def cmpgt (a b : Reg) : Reg := fun i => if b i < a i then -1 else 0
/-- `_mm256_cmpeq_epi16` (`/repo/src/wib/tpg/ProcessAVX2.hpp` lines 42, 167). -/
def cmpeq (a b : Reg) : Reg := fun i => if a i = b i then -1 else 0
/-- `_mm256_blendv_epi8` with a compare result as mask
(`/repo/src/wib/tpg/ProcessAVX2.hpp` lines 48, 49, 65, 66, 76, 279, 294, 333, 338, 339). -/
def blendv (a b m : Reg) : Reg := fun i => if m i = 0 then a i else b i
/-- `_mm256_and_si256` with a compare result as mask
(`/repo/src/wib/tpg/ProcessAVX2.hpp` lines 52, 69, 75). -/
def vand (a m : Reg) : Reg := fun i => if m i = 0 then 0 else a i
/-- `_mm256_or_si256` of compare results (`/repo/src/wib/tpg/ProcessAVX2.hpp` lines 74, 170). -/
def vor (a b : Reg) : Reg := fun i => if a i = 0 then b i else -1
/-- `_mm256_xor_si256` of a compare result with all ones
(`/repo/src/wib/tpg/ProcessAVX2.hpp` line 173). -/
def vnot (a : Reg) : Reg := fun i => if a i = 0 then -1 else 0
/-- `_mm256_andnot_si256` of compare results (`/repo/src/wib/tpg/ProcessAVX2.hpp` line 268). -/
def andnot (a b : Reg) : Reg := fun i => if a i = 0 then b i else 0
/-- `_mm256_add_epi16` (`/repo/src/wib/tpg/ProcessAVX2.hpp` lines 54, 234-254). -/
def add16 (a b : Reg) : Reg := fun i => w16 (a i + b i)
/-- `_mm256_sub_epi16` (`/repo/src/wib/tpg/ProcessAVX2.hpp` lines 185, 188). -/
def sub16 (a b : Reg) : Reg := fun i => w16 (a i - b i)
/-- `_mm256_adds_epi16` (`/repo/src/wib/tpg/ProcessAVX2.hpp` lines 71, 281, 295). -/
def adds16 (a b : Reg) : Reg := fun i => sat16 (a i + b i)
/-- `_mm256_mullo_epi16` (`/repo/src/wib/tpg/ProcessAVX2.hpp` lines 234-252). -/
def mullo (a b : Reg) : Reg := fun i => w16 (a i * b i)
/-- `_mm256_min_epi16` (`/repo/src/wib/tpg/ProcessAVX2.hpp` lines 191, 200). -/
def min16 (a b : Reg) : Reg := fun i => min (a i) (b i)
/-- `_mm256_sign_epi16` (`/repo/src/wib/tpg/ProcessAVX2.hpp` line 62). -/
def sign16 (a b : Reg) : Reg := fun i => if b i < 0 then w16 (-(a i)) else if b i = 0 then 0 else a i
/-- `_mm256_srai_epi16` by `tap_exponent` (`/repo/src/wib/tpg/ProcessAVX2.hpp` line 281), which is 6
(`/repo/src/wib/WIBFrameProcessor.hpp` line 571). -/
def srai6 (a : Reg) : Reg := fun i => a i / 64
/-- One of the four 64-bit lanes of a register, as an unsigned number
(`/repo/src/wib/tpg/ProcessAVX2.hpp` line 266: `__m256i` is a vector of `long long`). -/
def quad (r : Reg) (q : Nat) : Nat :=
  u16 (r (4 * q)) + 65536 * u16 (r (4 * q + 1)) + 4294967296 * u16 (r (4 * q + 2))
    + 281474976710656 * u16 (r (4 * q + 3))
/-- `sigma * k` for a scalar `k` (`/repo/src/wib/tpg/ProcessAVX2.hpp` line 266): the compiler
multiplies the 64-bit lanes, so a product can carry into the next 16-bit lane. -/
def mulQuad (r : Reg) (k : Nat) : Reg := fun i =>
  w16 (((quad r (i / 4) * k % 18446744073709551616) / 65536 ^ (i % 4) % 65536 : Nat) : Int)
/-- `_mm256_testc_si256(0, left)`: true if no bit of `left` is set
(`/repo/src/wib/tpg/ProcessAVX2.hpp` line 309). -/
def testZero (r : Reg) : Bool := (List.range 16).all (fun i => r i == 0)

/-! ## Vectorised implementation -/

/-- `frugal_accum_update_avx2` (`/repo/src/wib/tpg/ProcessAVX2.hpp` lines 27-77): new median and
accumulator. -/
def vFrugal (median s accum : Reg) (lim : Int) (mask : Reg) : Reg × Reg :=
  let isGt := cmpgt s median
  let isEq := cmpeq s median
  let toAdd := vand (blendv (blendv (set1 (-1)) (set1 1) isGt) (set1 0) isEq) mask
  let accum1 := add16 accum toAdd
  let isGt2 := cmpgt accum1 (set1 lim)
  let isLt2 := cmpgt (sign16 accum1 (set1 (-1 * lim))) (set1 lim)
  let toAdd2 := vand (blendv (blendv (set1 0) (set1 1) isGt2) (set1 (-1)) isLt2) mask
  let median1 := adds16 median toAdd2
  let needReset := vand (vor isLt2 isGt2) mask
  (median1, blendv accum1 (set1 0) needReset)

/-- Tracking and filtering state of one register of channels
(`/repo/src/wib/tpg/ProcessAVX2.hpp` lines 117-135). -/
structure VPed where
  med : Reg
  q25 : Reg
  q75 : Reg
  acc : Reg
  acc25 : Reg
  acc75 : Reg
  prev : List Reg

/-- Hit finding state of one register of channels
(`/repo/src/wib/tpg/ProcessAVX2.hpp` lines 140-147). -/
structure VHit where
  over : Reg
  charge : Reg
  tover : Reg

/-- The four registers stored when a hit ended in some lane, without the channel numbers
(`/repo/src/wib/tpg/ProcessAVX2.hpp` lines 322-334). -/
structure Group where
  time : Nat
  charge : Reg
  tover : Reg

/-- Tracking and filtering of one register of samples, `/repo/src/wib/tpg/ProcessAVX2.hpp` lines
161-255: new state, `filt` and `sigma`. -/
def vPed (taps : Nat → Int) (abs : Nat) (p : VPed) (s : Reg) : VPed × Reg × Reg :=
  let isGt := cmpgt s p.med
  let isEq := cmpeq s p.med
  let isLt := vnot (vor isGt isEq)
  let r25 := vFrugal p.q25 s p.acc25 accLimit isLt
  let r75 := vFrugal p.q75 s p.acc75 accLimit isGt
  let r := vFrugal p.med s p.acc accLimit (set1 (-1))
  let sigma := min16 (sub16 r75.1 r25.1) (set1 sigmaMax)
  let s2 := min16 (sub16 s r.1) (set1 adcMax)
  let term := fun x => mullo (set1 (taps x)) (p.prev.getD ((x + abs) % 8) (set1 0))
  let f0 := add16 (add16 (set1 0) (term 0)) (term 4)
  let f1 := add16 (add16 (set1 0) (term 1)) (term 5)
  let f2 := add16 (add16 (set1 0) (term 2)) (term 6)
  let f3 := add16 (set1 0) (term 3)
  let filt := add16 (add16 f0 f1) (add16 f2 f3)
  (⟨r.1, r25.1, r75.1, r.2, r25.2, r75.2, p.prev.set abs s2⟩, filt, sigma)

/-- Hit finding on one register, `/repo/src/wib/tpg/ProcessAVX2.hpp` lines 266-342. -/
def vHit (t : Nat) (h : VHit) (filt sigma : Reg) : VHit × List Group :=
  let isOver := cmpgt filt (mulQuad (mulQuad sigma 64) threshold)
  let left := andnot isOver h.over
  let charge := adds16 h.charge (srai6 (blendv (set1 0) filt isOver))
  let tover := adds16 h.tover (blendv (set1 0) (set1 1) isOver)
  if testZero left then (⟨isOver, charge, tover⟩, [])
  else
    (⟨isOver, blendv charge (set1 0) left, blendv tover (set1 0) left⟩,
      [⟨t, blendv (set1 0) charge left, tover⟩])

/-- The loop over the samples of one register, `/repo/src/wib/tpg/ProcessAVX2.hpp` lines 154-344,
with `itime = t` and `absTimeModNTAPS = abs` for the first entry of the list. -/
def vRun (taps : Nat → Int) : Nat → Nat → VPed → VHit → List Reg → (VPed × VHit) × List Group
  | _, _, p, h, [] => ((p, h), [])
  | abs, t, p, h, x :: xs =>
    let r := vPed taps abs p x
    let k := vHit t h r.2.1 r.2.2
    let z := vRun taps ((abs + 1) % 8) (t + 1) r.1 k.1 xs
    (z.1, k.2 ++ z.2)

/-! ## Whole windows -/

/-- Position in `uint16_t` units of the sample of channel `ichan` at time `itime` as computed by
the scalar implementation (`/repo/src/wib/tpg/ProcessNaive.hpp` lines 55-61, 83-88), for six
registers per frame; `sizeof(MessageCollectionADCs)` is 2304. -/
def naiveIndex (ichan itime : Nat) : Nat :=
  let registerT0Start := ichan / 16 * 16 * 12
  let msgStart := itime / 12 * 2304 / 2
  msgStart + (registerT0Start + 16 * (itime % 12) + ichan % 16)

/-- Position in registers of register `ireg` at time `itime` as computed by the vectorised
implementation (`/repo/src/wib/tpg/ProcessAVX2.hpp` lines 155-157). -/
def avxIndex (ireg itime : Nat) : Nat := itime / 12 * 6 * 12 + 12 * ireg + itime % 12

/-- The state of the vectorised hit finder between windows (`ProcessingInfo`,
`/repo/src/wib/tpg/ProcessingInfo.hpp` lines 103-116), one entry per register. -/
structure VInfo where
  abs : Nat
  ped : Nat → VPed
  hit : Nat → VHit

/-- The samples of register `ireg` in the input array, `/repo/src/wib/tpg/ProcessAVX2.hpp` lines
154-161 and `RegisterArray::ymm` (`/repo/src/wib/tpg/FrameExpand.hpp` lines 80-83). -/
def avxSamples (input : Nat → Int) (ireg n : Nat) : List Reg :=
  (List.range n).map (fun t => fun i => input (16 * avxIndex ireg t + i))

/-- The samples of one channel in the input array, `/repo/src/wib/tpg/ProcessNaive.hpp` lines
82-93. -/
def naiveSamples (input : Nat → Int) (ichan n : Nat) : List Int :=
  (List.range n).map (fun t => input (naiveIndex ichan t))

/-- The registers written for one group (`/repo/src/wib/tpg/ProcessAVX2.hpp` lines 151-152,
322-334). -/
def encodeGroup (ireg : Nat) (g : Group) : List Nat :=
  (List.range 16).map (fun i => ireg * 16 + i)
    ++ (List.range 16).map (fun _ => g.time % 65536)
    ++ (List.range 16).map (fun i => u16 (g.charge i))
    ++ (List.range 16).map (fun i => u16 (g.tover i))

/-- Result of one register of the window (`/repo/src/wib/tpg/ProcessAVX2.hpp` lines 107-363). -/
def regRun (taps : Nat → Int) (v : VInfo) (input : Nat → Int) (n ireg : Nat) :
    (VPed × VHit) × List Group :=
  vRun taps v.abs 0 (v.ped ireg) (v.hit ireg) (avxSamples input ireg n)

/-- `process_window_avx2` on six registers and `n` frames
(`/repo/src/wib/tpg/ProcessAVX2.hpp` lines 79-373): new state and the values written to the output
buffer. -/
def avxWindow (taps : Nat → Int) (v : VInfo) (input : Nat → Int) (n : Nat) : VInfo × List Nat :=
  (⟨(v.abs + n) % 8, fun r => (regRun taps v input n r).1.1, fun r => (regRun taps v input n r).1.2⟩,
    ((List.range 6).flatMap fun ireg => (regRun taps v input n ireg).2.flatMap (encodeGroup ireg))
      ++ List.replicate 64 magic)

/-- The state of the scalar hit finder between windows (`ProcessingInfo`,
`/repo/src/wib/tpg/ProcessingInfo.hpp` lines 103-116), one entry per channel. -/
structure NInfo where
  abs : Nat
  ped : Nat → Ped
  hit : Nat → HitSt

/-- `process_window_naive` on 96 channels and `n` frames
(`/repo/src/wib/tpg/ProcessNaive.hpp` lines 41-164): new state and hits with their channels. -/
def naiveWindow (taps : Nat → Int) (v : NInfo) (input : Nat → Int) (n : Nat) :
    NInfo × List (Nat × Hit) :=
  let run := fun c => naiveRun taps v.abs 0 (v.ped c) (v.hit c) (naiveSamples input c n)
  (⟨(v.abs + n) % 8, fun c => (run c).1.1, fun c => (run c).1.2⟩,
    (List.range 96).flatMap fun c => (run c).2.map fun h => (c, h))

/-- Initial tracking state with the given pedestal: constructor and `setState`
(`/repo/src/wib/tpg/ProcessingInfo.hpp` lines 23-37, 91-101). -/
def Ped.start (ped : Int) : Ped :=
  ⟨w16 ped, w16 (w16 ped - 3), w16 (w16 ped + 3), 0, 0, 0, List.replicate 8 0⟩

/-- Initial hit state (`/repo/src/wib/tpg/ProcessingInfo.hpp` lines 30-32). -/
def HitSt.start : HitSt := ⟨false, 0, 0⟩

/-- The scalar state after `setState(collection_registers)`: channel `j` takes its pedestal from
entry `j` of the message array (`/repo/src/wib/tpg/ProcessingInfo.hpp` lines 91-101,
`/repo/src/wib/WIBFrameProcessor.hpp` lines 384-385). -/
def NInfo.start (input : Nat → Int) : NInfo := ⟨0, fun c => Ped.start (input c), fun _ => HitSt.start⟩

/-- The vectorised state after `setState(collection_registers)`
(`/repo/src/wib/tpg/ProcessingInfo.hpp` lines 23-37, 91-101, `/repo/src/wib/WIBFrameProcessor.hpp`
lines 384-385). -/
def VInfo.start (input : Nat → Int) : VInfo :=
  ⟨0, fun r =>
      ⟨fun i => (Ped.start (input (16 * r + i))).med, fun i => (Ped.start (input (16 * r + i))).q25,
        fun i => (Ped.start (input (16 * r + i))).q75, set1 0, set1 0, set1 0,
        List.replicate 8 (set1 0)⟩,
    fun _ => ⟨set1 0, set1 0, set1 0⟩⟩

/-! ## Decoding the output buffer -/

/-- The sixteen lanes of one group that carry a hit, `/repo/src/wib/WIBFrameProcessor.hpp` lines
439-440: channel number and hit. -/
def decodeLanes (chan time charge tover : List Nat) : List (Nat × Hit) :=
  (List.range 16).filterMap fun i =>
    if charge.getD i 0 ≠ 0 ∧ chan.getD i 0 ≠ magic then
      some (chan.getD i 0, ⟨time.getD i 0, charge.getD i 0, tover.getD i 0⟩)
    else none

/-- The loop reading the hits back, `/repo/src/wib/WIBFrameProcessor.hpp` lines 420-489.  The list
is the contents of the allocated buffer from the read position on; reading behind it is undefined
behaviour. -/
def decode (buf : List Nat) : Outcome (List (Nat × Hit)) :=
  if buf = [] then .ub .outOfBounds
  else if buf.headD 0 = magic then .ok []
  else if _h : buf.length < 64 then .ub .outOfBounds
  else do
    let rest ← decode (buf.drop 64)
    pure (decodeLanes (buf.take 16) ((buf.drop 16).take 16) ((buf.drop 32).take 16)
      ((buf.drop 48).take 16) ++ rest)
termination_by buf.length
decreasing_by simp; omega

/-- Number of entries of the hit buffer (`/repo/src/wib/WIBFrameProcessor.hpp` line 120). -/
def bufEntries : Nat := 100000

/-- Writing the output into the allocated buffer, whose previous contents are `old`
(`/repo/src/wib/tpg/ProcessAVX2.hpp` lines 322-334, 367-369). -/
def store (old out : List Nat) : Outcome (List Nat) :=
  if out.length ≤ old.length then .ok (out ++ old.drop out.length) else .ub .outOfBounds

/-- Hit finding for one superchunk and reading the hits back:
`/repo/src/wib/WIBFrameProcessor.hpp` lines 394-489. -/
def findHits (taps : Nat → Int) (v : VInfo) (input : Nat → Int) (old : List Nat) :
    Outcome (VInfo × List Nat × List (Nat × Hit)) := do
  let r := avxWindow taps v input 12
  let buf ← store old r.2
  let hits ← decode buf
  pure (r.1, buf, hits)

/-- Successive superchunks: hits of each (`/repo/src/wib/WIBFrameProcessor.hpp` lines 369-504 called
for every superchunk, lines 394-489 of it). -/
def findAll (taps : Nat → Int) : VInfo → List Nat → List (Nat → Int) →
    Outcome (List (List (Nat × Hit)))
  | _, _, [] => .ok []
  | v, old, input :: ins => do
    let r ← findHits taps v input old
    let rest ← findAll taps r.1 r.2.1 ins
    pure (r.2.2 :: rest)

/-- A run: the state is set from the first superchunk (`m_first_coll`,
`/repo/src/wib/WIBFrameProcessor.hpp` lines 384-392, 158, 498-501), then every superchunk is
processed. -/
def processor (taps : Nat → Int) (old : List Nat) : List (Nat → Int) →
    Outcome (List (List (Nat × Hit)))
  | [] => .ok []
  | input :: ins => findAll taps (VInfo.start input) old (input :: ins)

/-- Successive superchunks with the scalar implementation
(`/repo/src/wib/tpg/ProcessNaive.hpp` lines 41-164). -/
def naiveAll (taps : Nat → Int) : NInfo → List (Nat → Int) → List (List (Nat × Hit))
  | _, [] => []
  | v, input :: ins =>
    let r := naiveWindow taps v input 12
    r.2 :: naiveAll taps r.1 ins

/-- A trigger primitive made from a hit: time of the first and of the last sample, duration and
charge, `/repo/src/wib/WIBFrameProcessor.hpp` lines 443-466 (64-bit unsigned arithmetic). -/
structure Tp where
  timeStart : Nat
  timePeak : Nat
  timeOver : Nat
  charge : Nat
  deriving DecidableEq, Repr

/-- `/repo/src/wib/WIBFrameProcessor.hpp` lines 443-466. -/
def tpOf (timestamp : Nat) (h : Hit) : Tp :=
  let tBegin := (((timestamp : Int) + 25 * ((h.time : Int) - h.tover)) % 18446744073709551616).toNat
  let tEnd := (timestamp + 25 * h.time) % 18446744073709551616
  ⟨tBegin, (tBegin + tEnd) % 18446744073709551616 / 2, h.tover * 25, h.charge⟩

end Verif.Tpg
