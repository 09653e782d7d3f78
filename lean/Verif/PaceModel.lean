import Verif.Basic
import Mathlib.Algebra.Order.Floor.Ring
import Mathlib.Data.Rat.Floor

/-!
# The rate limiter with the widths of its members, for every slowdown factor

The emulators make a limiter from `m_rate_khz / m_link_conf.slowdown` when a run starts
(/repo/include/readout/models/SourceEmulatorModel.hpp l.127-134, /repo/src/wib/TPEmulatorModel.hpp l.111-117) and call `limit()`
at the end of each round (SourceEmulatorModel.hpp l.177-219). The limiter is /repo/include/readout/utils/RateLimiter.hpp l.28-93.
Its times are 64-bit numbers of nanoseconds, its rate is a `double`.

A `double` is a rational number, an infinity or NaN; results of operations are rounded by a function `rnd`, and are infinite when
they exceed the largest number. Signs of zeros are not modelled: they only decide the sign of infinities, which both lead to
the same results here.
-/

namespace Verif.Pace

/-- A `double`, RateLimiter.hpp l.61, 88. -/
inductive Dbl where
  | fin (q : ℚ)
  | inf (neg : Bool)
  | nan

/-- A result rounded, or infinite if it is too large, RateLimiter.hpp l.64. -/
def Dbl.of (rnd : ℚ → ℚ) (big : ℚ) (x : ℚ) : Dbl :=
  if |rnd x| ≤ big then .fin (rnd x) else .inf (decide (x < 0))

/-- Division, SourceEmulatorModel.hpp l.131, RateLimiter.hpp l.64. -/
def Dbl.div (rnd : ℚ → ℚ) (big : ℚ) : Dbl → Dbl → Dbl
  | .fin x, .fin y => if y = 0 then (if x = 0 then .nan else .inf (decide (x < 0))) else .of rnd big (x / y)
  | .fin _, .inf _ => .fin 0
  | .inf s, .fin y => .inf (s != decide (y < 0))
  | _, _ => .nan

/-- Multiplication, RateLimiter.hpp l.64. -/
def Dbl.mul (rnd : ℚ → ℚ) (big : ℚ) : Dbl → Dbl → Dbl
  | .fin x, .fin y => .of rnd big (x * y)
  | .inf s, .fin y => if y = 0 then .nan else .inf (s != decide (y < 0))
  | .fin x, .inf s => if x = 0 then .nan else .inf (s != decide (x < 0))
  | .inf s, .inf s' => .inf (s != s')
  | _, _ => .nan

/-- `static_cast<timestamp_t>`: the fraction is dropped; undefined if the result is not a 64-bit unsigned number,
RateLimiter.hpp l.64. -/
def Dbl.toU64 : Dbl → Outcome Nat
  | .fin q => if -1 < q ∧ q < 18446744073709551616 then .ok ⌊q⌋₊ else .ub .overflow
  | _ => .ub .overflow

/-- `m_period` of a limiter made for `khz / slow`, SourceEmulatorModel.hpp l.131, RateLimiter.hpp l.37-42, 61-65. -/
def period (rnd : ℚ → ℚ) (big khz slow : ℚ) : Outcome Nat :=
  (Dbl.mul rnd big (Dbl.div rnd big (.fin 1000) (Dbl.div rnd big (.fin khz) (.fin slow))) (.fin 1000)).toU64

/-- `m_now` and `m_deadline`, RateLimiter.hpp l.91-92. -/
structure RL where
  now : Nat
  deadline : Nat
  deriving DecidableEq

/-- 64-bit unsigned arithmetic, RateLimiter.hpp l.31. -/
def u64 (x : Nat) : Nat := x % 18446744073709551616

/-- `m_max_overshoot`, RateLimiter.hpp l.38. -/
def allowance : Nat := 10000000

/-- `init()` with clock reading `t`, RateLimiter.hpp l.44-48. -/
def init (P t : Nat) : RL := ⟨t, u64 (t + P)⟩

/-- The test whether the caller is so late that the schedule is given up; `O` is
`m_max_overshoot`, RateLimiter.hpp l.69. -/
def late (O : Nat) (s : RL) : Bool := decide (s.now > u64 (s.deadline + O))

/-- Whether `limit()` waits, RateLimiter.hpp l.69, 72. -/
def waits (O : Nat) (s : RL) : Bool := !late O s && decide (s.now < s.deadline)

/-- `limit()`, RateLimiter.hpp l.67-77; `t` is the last clock reading of the waiting loop. -/
def limit (P O : Nat) (s : RL) (t : Nat) : RL :=
  if late O s then { s with deadline := u64 (s.now + P) }
  else if s.now < s.deadline then ⟨t, u64 (s.deadline + P)⟩
  else { s with deadline := u64 (s.deadline + P) }

/-- The first `N` rounds of an emulator, SourceEmulatorModel.hpp l.131, 177-219: the limiter is made with the clock reading `t 0`;
the thread is at the beginning of round `k` at time `r k`, at its call of `limit()` at time `c k`, and the last clock reading of
that call is `t (k + 1)`, if it waits at all. The waiting loop ends as soon as a reading is not before the deadline, and makes a
reading at least every `G`; a call that does not wait returns within `G` (RateLimiter.hpp l.67-77). Readings are 64-bit numbers.
The run marker is read at the beginning of a round only. Times later than the last of the `N` rounds mean nothing. -/
structure Run (P O G N : Nat) where
  s : Nat → RL
  r : Nat → Nat
  c : Nat → Nat
  t : Nat → Nat
  start : s 0 = init P (t 0) ∧ t 0 ≤ r 0
  order : ∀ k, k < N → r k ≤ c k ∧ c k ≤ r (k + 1)
  step : ∀ k, k < N → s (k + 1) = limit P O (s k) (t (k + 1))
  reading : ∀ k, k < N → waits O (s k) = true → c k ≤ t (k + 1) ∧ t (k + 1) ≤ r (k + 1) ∧ (s k).deadline ≤ t (k + 1)
  prompt : ∀ k, k < N → waits O (s k) = true → r (k + 1) ≤ max (c k) (s k).deadline + G
  through : ∀ k, k < N → waits O (s k) = false → r (k + 1) ≤ c k + G
  clock : ∀ k, k ≤ N → t k < 18446744073709551616

/-- The producing thread leaves its loop: the first round at whose beginning the run marker is found cleared. The marker
is cleared at time `x`, SourceEmulatorModel.hpp l.177, /repo/plugins/FakeCardReader.cpp l.154. -/
def LeavesAt {P O G N : Nat} (e : Run P O G N) (x k : Nat) : Prop := k ≤ N ∧ x ≤ e.r k ∧ ∀ j, j < k → e.r j < x

end Verif.Pace
