import Verif.SearchModel
/-
The fragment consumer's look at a fragment, plugins/FragmentConsumer.cpp l.30-83: the callback, and the validation as
it is written behind the `return` in l.40.

A fragment is its header fields, the number of bytes behind the header and what the accessors of the external frame
classes read at each byte offset. Frame accessors read the first 16 bytes of a frame. Log messages are the
observable effect.
-/
namespace Verif.Valid
open Verif.Search

/-- The fragment types told apart, FragmentConsumer.cpp l.44-46, 70-71. -/
inductive FType where
  | tpc | pds | other
  deriving DecidableEq

/-- A fragment as the consumer sees it: header, number of bytes, and the readings of the frame classes at a byte offset.
FragmentConsumer.cpp l.41-53, 72-76. -/
structure Frag where
  type : FType
  wBegin : Nat
  wEnd : Nat
  size : Nat
  wibTs : Nat → Nat
  sof : Nat
  daphneTs : Nat → Nat

/-- The messages, FragmentConsumer.cpp l.42, 56, 59, 67, 79. -/
inductive Report where
  | empty | first | last | outside
  deriving DecidableEq

/-- Conversion to `int`, FragmentConsumer.cpp l.47, 72. -/
def toI32 (x : Nat) : Int := if x % 4294967296 < 2147483648 then (x % 4294967296 : Nat) else (x % 4294967296 : Nat) - 4294967296

/-- Products of `int`s, l.53, 64, 76: overflow is undefined. -/
def mulI32 (a b : Int) : Outcome Int :=
  if -2147483648 ≤ a * b ∧ a * b < 2147483648 then .ok (a * b) else .ub .overflow

/-- An accessor of the frame at a byte offset, l.51-53, 63-64, 75-76; outside the data the behaviour is undefined. -/
def at_ (f : Frag) (g : Nat → Nat) (off : Int) : Outcome Nat :=
  if 0 ≤ off ∧ off + 16 ≤ f.size then .ok (g off.toNat) else .ub .outOfBounds

/-- The loops l.62-69 and 74-81, over the remaining indices. -/
def scan (f : Frag) (g : Nat → Nat) (stride : Int) : List Nat → Outcome (List Report)
  | [] => .ok []
  | i :: is => do
    let off ← mulI32 i stride
    let t ← at_ f g off
    let r ← scan f g stride is
    .ok (if t < f.wBegin ∨ t ≥ f.wEnd then .outside :: r else r)

/-- The branch for WIB frames, l.47-69. -/
def wibBranch (f : Frag) : Outcome (List Report) := do
  let n := toI32 (f.size / 464)
  let off ← mulI32 (n - 1) 464
  let t0 ← at_ f f.wibTs 0
  let t1 ← at_ f f.wibTs off
  let r ← scan f f.wibTs 464 (List.range n.toNat)
  .ok ((if ¬ (t0 ≥ f.wBegin ∧ t0 < u64 (f.wBegin + 25)) then [.first] else []) ++
    (if ¬ (t1 < f.wEnd ∧ t1 ≥ u64 (f.wEnd + 18446744073709551616 - 25)) then [.last] else []) ++ r)

/-- What follows the `return`, l.41-82. -/
def body (f : Frag) : Outcome (List Report) :=
  if f.size = 0 then .ok [.empty]
  else if f.type = .tpc then wibBranch f
  else if f.size < 4 then .ub .outOfBounds
  else if f.sof = 0 then wibBranch f
  else if f.type = .pds then scan f f.daphneTs 584 (List.range (toI32 (f.size / 584)).toNat)
  else .ok []

/-- `validate`, l.38-83: returns at once. -/
def validate (_ : Frag) : Outcome (List Report) := .ok []

/-- `packet_callback`, l.30-35. -/
def callback (f : Frag) : Outcome (List Report) := validate f

end Verif.Valid
