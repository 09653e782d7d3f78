import Verif.Basic
/-
`frame_error_check`, src/wib/WIBFrameProcessor.hpp l.326-364: counting of error bits in frame headers
and throttled forwarding of errored frames. The check runs on the consumer thread only. A frame is
its 16-bit error word; whether a push to the error queue succeeds is an input (per bit that
tries).
-/
namespace Verif.FrameErr

/-- `m_error_counter_threshold`, `m_error_reset_freq` (l.221-222, 564, 567). -/
structure Cfg where
  thr : Nat
  resetFreq : Nat
  deriving DecidableEq

/-- A frame header's error word and, per bit, whether a push tried for that bit would succeed.
WIBFrameProcessor.hpp l.340-358. -/
structure Frame where
  err : Nat
  ok : Nat → Bool

/-- Members l.566, 593-594. -/
structure St where
  ctr : Nat → Nat     -- m_error_occurrence_counters
  total : Nat         -- m_frame_error_count
  processed : Nat     -- m_frames_processed

/-- What happened to one frame: bits that passed the throttle, number of successful pushes.
WIBFrameProcessor.hpp l.348-358. -/
structure Out where
  passed : List Nat
  pushes : Nat
  deriving DecidableEq

/-- After construction or start (l.169-170; the counters are not reset by start). -/
def init : St := ⟨fun _ => 0, 0, 0⟩

/-- l.333-338. The configured `m_error_reset_freq` is not used by the code. -/
def decay (_c : Cfg) (s : St) : Nat → Nat :=
  if s.processed % 10000 = 0 then fun j => s.ctr j - 1 else s.ctr

/-- `std::bitset<16>(wib_errors).count()`, l.342. -/
def popcount (err : Nat) : Nat := (List.range 16).countP (fun j => err.testBit j)

/-- Loop l.346-359 from bit `j` on (`n` bits left); `pushed` is `m_current_frame_pushed`. -/
def bits (c : Cfg) (f : Frame) : Nat → Nat → (Nat → Nat) → Bool → Out → (Nat → Nat) × Out
  | 0, _, ctr, _, o => (ctr, o)
  | n + 1, j, ctr, pushed, o =>
    if f.err.testBit j = true ∧ ctr j < c.thr then
      bits c f n (j + 1) (fun k => if k = j then ctr j + 1 else ctr k) (pushed || f.ok j)
        ⟨o.passed ++ [j], o.pushes + (if pushed = false ∧ f.ok j = true then 1 else 0)⟩
    else bits c f n (j + 1) ctr pushed o

/-- The body of the outer loop, l.333-362. -/
def frame (c : Cfg) (s : St) (f : Frame) : St × Out :=
  let r := bits c f 16 0 (decay c s) false ⟨[], 0⟩
  (⟨r.1, s.total + popcount f.err, s.processed + 1⟩, r.2)

/-- A stream of frames with what happened to each. Repeated WIBFrameProcessor.hpp l.332-363. -/
def run (c : Cfg) (s : St) : List Frame → St × List Out
  | [] => (s, [])
  | f :: fs =>
    let r := frame c s f
    let r' := run c r.1 fs
    (r'.1, r.2 :: r'.2)

end Verif.FrameErr
