import Verif.EmuModel
import Verif.MiscModel
import Mathlib.Data.Rat.Floor
/-
The pace of the source emulators: the period that the rate limiter computes from the configured rate
(include/readout/utils/RateLimiter.hpp l.61-65), the rates and ticks of the emulated front ends (src/CreateSourceEmulator.hpp
l.33-47) and the producing loop as far as time is concerned (include/readout/models/SourceEmulatorModel.hpp l.177-219).

Times are nanoseconds. Products and quotients of `double`s are exact results passed through a rounding function.
-/
namespace Verif.EmuRate

/-- The emulated detector links, CreateSourceEmulator.hpp l.52-78. -/
inductive Front where
  | wib2 | wib | pds
  deriving DecidableEq

/-- Their rates in kHz, CreateSourceEmulator.hpp l.37, 41, 45. -/
def khz : Front → ℚ
  | .wib2 => 166
  | .wib => 166
  | .pds => 200

/-- Their ticks per frame, CreateSourceEmulator.hpp l.35, 39, 43. -/
def tick : Front → Nat
  | .wib2 => 32
  | .wib => 25
  | .pds => 16

/-- `m_period` in ns after construction with `m_rate_khz / slowdown`, SourceEmulatorModel.hpp l.131, RateLimiter.hpp l.61-65. -/
def period (rnd : ℚ → ℚ) (khz slow : ℚ) : Nat := ⌊rnd (rnd (1000 / rnd (khz / slow)) * 1000)⌋₊

/-- `m_max_overshoot`, RateLimiter.hpp l.38. -/
def overshoot : Nat := 10000000

/-- The producing loop, SourceEmulatorModel.hpp l.177-219: `r k` is the time at which iteration `k` begins (the limiter's call
number `k` has returned; `t 0` is the clock reading at its construction, l.131), `c k` the time at which iteration `k` has
handed over its payload and calls the limiter. -/
structure Loop (P O : Nat) extends Misc.Exec P O where
  c : Nat → Nat
  order : ∀ k, r k ≤ c k ∧ c k ≤ r (k + 1)

end Verif.EmuRate
