import Verif.SearchModel
/-
Stitching of firmware hits into trigger primitives: `tp_stitch`,
src/wib/RAWWIBTriggerPrimitiveProcessor.hpp l.61-120.

The widths of the fields of `triggeralgs::TriggerPrimitive` are external; times are 64-bit and the two
ADC fields are unbounded here (at most 2^16 per hit are added). The constant fields (detid, type,
algorithm) and debug output are left out. Each TP carries a ghost list `hits` of the hits it
accounts for (the hits themselves are tagged with an identifier).
-/
namespace Verif.Stitch
open Verif.Search (u64)

/-- One block of a raw TP frame (RawWIBTp.hpp l.127-133); `id` is a ghost identifier. -/
structure Hit where
  id : Nat
  start : Nat    -- m_start_time
  endT : Nat     -- m_end_time
  peakT : Nat    -- m_peak_time
  peakAdc : Nat  -- m_peak_adc
  sum : Nat      -- m_sum_adc
  cont : Bool    -- m_hit_continue
  deriving DecidableEq

/-- A raw TP frame: timestamp, wire number (channel) and blocks.
RAWWIBTriggerPrimitiveProcessor.hpp l.63-68. -/
structure Frame where
  ts : Nat
  ch : Nat
  hits : List Hit
  deriving DecidableEq

/-- The trigger primitive, l.71-81. -/
structure TP where
  start : Nat
  peak : Nat
  tot : Nat
  ch : Nat
  integral : Nat
  adcPeak : Nat
  hits : List Nat  -- ghost
  deriving DecidableEq

/-- Members l.132-141: the open TPs per channel (`m_A`), completed TPs (`m_tps`) and the counter
(`m_trigprims`, `m_sent_tps` behave alike). -/
structure St where
  A : Nat → List TP
  tps : List TP
  count : Nat

/-- `m_time_tick` (l.125). -/
def tick : Nat := 25
/-- `m_stitch_constant` (l.137). -/
def stitchConst : Nat := 1600

/-- l.71-77: the TP of one hit. -/
def mkTP (ts ch : Nat) (h : Hit) : TP :=
  let start := u64 (ts + h.start * tick)
  { start := start
    peak := u64 (ts + h.peakT * tick)
    tot := u64 (h.endT * tick + 18446744073709551616 - start)
    ch := ch, integral := h.sum, adcPeak := h.peakAdc, hits := [h.id] }

/-- l.88-94: merging the hit into the open TP. -/
def merge (a t : TP) : TP :=
  { a with peak := if t.adcPeak > a.adcPeak then u64 (a.peak + t.peak) else a.peak
           adcPeak := if t.adcPeak > a.adcPeak then t.adcPeak else a.adcPeak
           tot := u64 (a.tot + t.tot)
           integral := a.integral + t.integral
           hits := a.hits ++ t.hits }

/-- l.84-103 for one channel: `(open TPs, completed TPs)` after stitching. -/
def stitch (open_ : List TP) (h : Hit) (t : TP) : List TP × List TP :=
  match open_ with
  | [a] =>
    if h.start = 0 ∧ u64 (t.start + 18446744073709551616 - a.start) ≤ stitchConst then ([merge a t], [])
    else ([], [a])
  | l => (l, [])

/-- l.106-119 for one channel: `(open TPs, completed TPs, counter increment)`. -/
def finish (open_ : List TP) (h : Hit) (t : TP) : List TP × List TP × Nat :=
  if h.cont = false then
    match open_ with
    | [a] => ([], [a], 1)
    | l => (l, [], 1)
  else (open_ ++ [t], [], 0)

/-- The body of the loop, l.69-119, on one channel: new open TPs, newly completed TPs, counter. -/
def hitStep (open_ : List TP) (ts ch : Nat) (h : Hit) : List TP × List TP × Nat :=
  let t := mkTP ts ch h
  let s := stitch open_ h t
  let f := finish s.1 h t
  (f.1, s.2 ++ f.2.1, s.2.length + f.2.2)

/-- One hit. RAWWIBTriggerPrimitiveProcessor.hpp l.69-119. -/
def oneHit (s : St) (ts ch : Nat) (h : Hit) : St :=
  let r := hitStep (s.A ch) ts ch h
  { A := fun c => if c = ch then r.1 else s.A c
    tps := s.tps ++ r.2.1
    count := s.count + r.2.2 }

/-- `tp_stitch(fr)`, l.61-120. -/
def tpStitch (s : St) (f : Frame) : St := f.hits.foldl (fun s h => oneHit s f.ts f.ch h) s

/-- A stream of frames. Repeated RAWWIBTriggerPrimitiveProcessor.hpp l.61-120. -/
def run (s : St) (fs : List Frame) : St := fs.foldl tpStitch s

/-- Initial state. RAWWIBTriggerPrimitiveProcessor.hpp l.132-137. -/
def init : St := ⟨fun _ => [], [], 0⟩

end Verif.Stitch
