import Verif.Basic
import Verif.SearchModel
/-
Small self-contained pieces: the rate limiter (include/readout/utils/RateLimiter.hpp), the fake trigger
requests of `run_timesync` (include/readout/models/ReadoutModel.hpp l.259-307) and `dump_to_buffer`
(include/readout/models/DefaultRequestHandlerModel.hpp l.389-405).
-/
namespace Verif.Misc
open Verif.Search (u64)

/-! ### Rate limiter -/

/-- Members `m_now`, `m_deadline` (RateLimiter.hpp l.91-92). Times are nanoseconds; 64-bit overflow of
the monotonic clock is not modelled. -/
structure RL where
  now : Nat
  deadline : Nat
  deriving DecidableEq

/-- `init`, l.44-48, with period `P` and clock reading `t`. -/
def rlInit (P t : Nat) : RL := ⟨t, t + P⟩

/-- `limit`, l.67-77, with period `P` and maximal overshoot `O`. `t` is the last clock reading of the waiting
loop, used only if the loop is entered. -/
def limit (P O : Nat) (s : RL) (t : Nat) : RL :=
  if s.now > s.deadline + O then { s with deadline := s.now + P }
  else if s.now < s.deadline then ⟨t, s.deadline + P⟩
  else { s with deadline := s.deadline + P }

/-- An execution: call `k` returns at real time `r k`. If the loop is entered, its last clock reading lies
between the previous return and this one and is not before the deadline (l.72). -/
structure Exec (P O : Nat) where
  s : Nat → RL           -- state after `k` calls
  r : Nat → Nat          -- return time of call `k` (`r 0`: end of `init`)
  t : Nat → Nat          -- last clock reading in call `k`
  start : s 0 = rlInit P (t 0) ∧ t 0 ≤ r 0
  mono : ∀ k, r k ≤ r (k + 1)
  step : ∀ k, s (k + 1) = limit P O (s k) (t (k + 1))
  reading : ∀ k, ¬ (s k).now > (s k).deadline + O → (s k).now < (s k).deadline →
    r k ≤ t (k + 1) ∧ t (k + 1) ≤ r (k + 1) ∧ (s k).deadline ≤ t (k + 1)

/-! ### Fake triggers -/

/-- `500 * us`, ReadoutModel.hpp l.64 and 280. -/
def fakeDelay : Nat := 500000

/-- A fake data request: trigger number, trigger timestamp, window.
include/readout/models/ReadoutModel.hpp l.276-284. -/
structure FakeReq where
  num : Nat
  ts : Nat
  wb : Nat
  we : Nat
  deriving DecidableEq

/-- ReadoutModel.hpp l.277-284: the request made for the last DAQ time `daq`, `prev` being the last trigger number. -/
def fakeReq (prev daq : Nat) : FakeReq :=
  let ts := if daq > fakeDelay then daq - fakeDelay else 0
  let wb := if ts > 100 then ts - 100 else 0
  ⟨prev + 1, ts, wb, u64 (wb + 300000)⟩

/-- The loop l.265-303 over the DAQ times it sees; nothing is done for DAQ time zero (l.270). -/
def fakeRun (prev : Nat) : List Nat → List FakeReq
  | [] => []
  | d :: ds => if d ≠ 0 then fakeReq prev d :: fakeRun (prev + 1) ds else fakeRun prev ds

/-- The same loop with the trigger number as the `int` it is (l.278, 354): incrementing the largest one is undefined. -/
def fakeRunInt (prev : Nat) : List Nat → Outcome (List FakeReq)
  | [] => .ok []
  | d :: ds =>
    if d ≠ 0 then
      if prev < 2147483647 then do
        let l ← fakeRunInt (prev + 1) ds
        .ok (fakeReq prev d :: l)
      else .ub .overflow
    else fakeRunInt prev ds

/-! ### dump_to_buffer -/

/-- `memcpy` of `bytes` to position `pos` of the destination.
include/readout/models/DefaultRequestHandlerModel.hpp l.398. -/
def memcpyTo (buf : List Nat) (pos : Nat) (bytes : List Nat) : List Nat :=
  buf.take pos ++ bytes ++ buf.drop (pos + bytes.length)

/-- The loop of `dump_to_buffer`, l.395-404: `left` bytes remain to be copied. The source pointer `data` is
never advanced. `fuel` bounds the iterations. Positions are 32 bit in the code (not modelled). -/
def dump (data : List Nat) : Nat → Nat → List Nat → Nat → Outcome (List Nat)
  | _, 0, buf, _ => .ok buf
  | 0, _, _, _ => .throws .hang
  | fuel + 1, left, buf, pos =>
    let n := min left (buf.length - pos)
    if data.length < n then .ub .outOfBounds
    else
      let buf' := memcpyTo buf pos (data.take n)
      let pos' := pos + n
      dump data fuel (left - n) buf' (if pos' = buf.length then 0 else pos')

end Verif.Misc
