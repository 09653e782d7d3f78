import Verif.Basic
import Verif.EmuModel
import Mathlib.Algebra.Order.Floor.Ring
import Mathlib.Data.Rat.Floor

/-!
# The rate of faked errors

The generator of error words from the configured rate on: `generate()` fills its tables by multiplying random durations
with the rate in `double` and converting to `int`, and `next()` walks through them
(/repo/include/readout/utils/ErrorBitGenerator.hpp l.25-85). The source emulator makes it from `emu_frame_error_rate`
(/repo/include/readout/models/SourceEmulatorModel.hpp l.112-115) and calls `next()` once for each frame (l.195-200).

Numbers of type `double` are rationals, each operation is followed by a rounding function `rnd`. Infinities and NaN are not
modelled. The module Emu has the same `next()` for tables of natural numbers.
-/

namespace Verif.ErrRate

/-- What the random generator gives: error words and two durations for each entry, ErrorBitGenerator.hpp l.59-70. -/
structure Draw where
  bits : Nat → Nat
  err : Nat → Nat
  clean : Nat → Nat

/-- The ranges of the two distributions, ErrorBitGenerator.hpp l.61-62. -/
def Draw.InRange (w : Draw) : Prop :=
  ∀ i, w.bits i ≤ 65535 ∧ 1 ≤ w.err i ∧ w.err i ≤ 100000 ∧ 1 ≤ w.clean i ∧ w.clean i ≤ 100000

/-- Conversion of a `double` to an integer drops the fraction, ErrorBitGenerator.hpp l.68-69. -/
def trunc (x : ℚ) : Int := if 0 ≤ x then ⌊x⌋ else ⌈x⌉

/-- Conversion to `int`: undefined if the result does not fit, ErrorBitGenerator.hpp l.68-69. -/
def toInt (x : ℚ) : Outcome Int :=
  if -2147483648 ≤ trunc x ∧ trunc x ≤ 2147483647 then .ok (trunc x) else .ub .overflow

/-- Entry `i` of both tables of durations, ErrorBitGenerator.hpp l.68-69. -/
def entry (rnd : ℚ → ℚ) (rate : ℚ) (w : Draw) (i : Nat) : Outcome (Int × Int) := do
  let a ← toInt (rnd ((w.err i : ℚ) * rate))
  let b ← toInt (rnd ((w.clean i : ℚ) * rnd (1 - rate)))
  .ok (a, b)

/-- The loop that fills them, ErrorBitGenerator.hpp l.67-70. -/
def fill (rnd : ℚ → ℚ) (rate : ℚ) (w : Draw) : Nat → Outcome (List (Int × Int))
  | 0 => .ok []
  | n + 1 => do
    let l ← fill rnd rate w n
    let x ← entry rnd rate w n
    .ok (l ++ [x])

/-- The tables, ErrorBitGenerator.hpp l.76-80. -/
structure Tables where
  bits : List Nat
  occ : List Int
  noOcc : List Int
  deriving DecidableEq

/-- `generate()`, ErrorBitGenerator.hpp l.57-71. -/
def generate (rnd : ℚ → ℚ) (rate : ℚ) (w : Draw) : Outcome Tables := do
  let l ← fill rnd rate w 1000
  .ok ⟨(List.range 1000).map w.bits, l.map Prod.fst, l.map Prod.snd⟩

/-- The counters, all of type `int`, ErrorBitGenerator.hpp l.77-84. -/
structure Gen where
  bi : Nat
  oi : Nat
  ni : Nat
  cur : Int
  cnt : Int
  set : Bool
  deriving DecidableEq

/-- The constructor, ErrorBitGenerator.hpp l.28-36. -/
def gen0 : Gen := ⟨0, 0, 0, 0, 0, true⟩

/-- Reading a table, ErrorBitGenerator.hpp l.44, 49, 54. -/
def at' {α : Type} (l : List α) (i : Nat) : Outcome α :=
  match l[i]? with
  | some a => .ok a
  | none => .ub .outOfBounds

/-- The beginning of a new stretch, ErrorBitGenerator.hpp l.39-52. -/
def turn (t : Tables) (g : Gen) : Outcome Gen :=
  if g.cur ≤ g.cnt then
    if g.set = true then do
      let c ← at' t.noOcc g.ni
      .ok { g with bi := (g.bi + 1) % 1000, oi := (g.oi + 1) % 1000, set := false, cur := c, cnt := 0 }
    else do
      let c ← at' t.occ g.oi
      .ok { g with ni := (g.ni + 1) % 1000, set := true, cur := c, cnt := 0 }
  else .ok g

/-- `next()`, ErrorBitGenerator.hpp l.37-55. -/
def next (t : Tables) (g : Gen) : Outcome (Gen × Nat) := do
  let g1 ← turn t g
  if g1.cnt + 1 ≤ 2147483647 then
    if g1.set = true ∧ g1.cur ≠ 0 then do
      let e ← at' t.bits g1.bi
      .ok ({ g1 with cnt := g1.cnt + 1 }, e)
    else .ok ({ g1 with cnt := g1.cnt + 1 }, 0)
  else .ub .overflow

/-- The words for the first `n` frames, SourceEmulatorModel.hpp l.197-199. -/
def gens (t : Tables) : Nat → Outcome (Gen × List Nat)
  | 0 => .ok (gen0, [])
  | n + 1 => do
    let r ← gens t n
    let x ← next t r.1
    .ok (x.1, r.2 ++ [x.2])

/-- A configured emulator: the generator is filled and then asked for `n` words,
SourceEmulatorModel.hpp l.112-115, 197-199. -/
def words (rnd : ℚ → ℚ) (rate : ℚ) (w : Draw) (n : Nat) : Outcome (List Nat) := do
  let t ← generate rnd rate w
  let r ← gens t n
  .ok r.2

end Verif.ErrRate
