import Verif.Basic
/-
`FrameErrorRegistry`, include/readout/FrameErrorRegistry.hpp l.19-71.
-/
namespace Verif.Registry

/-- `ErrorInterval`, l.21-36. -/
structure Interval where
  startTs : Nat
  endTs : Nat
  deriving DecidableEq

/-- `m_errors`, l.69: the `std::map` as a list of name/interval pairs (order irrelevant). -/
abbrev Reg := List (String × Interval)

/-- `add_error`, l.41-48: erase the entry of that name, insert the new one. -/
def addError (r : Reg) (name : String) (iv : Interval) : Reg :=
  (name, iv) :: r.filter (fun e => e.1 ≠ name)

/-- `remove_errors_until`, l.50-61: erase every entry with `ts > end_ts`. -/
def removeErrorsUntil (r : Reg) (ts : Nat) : Reg :=
  r.filter (fun e => ¬ ts > e.2.endTs)

/-- `has_error(name)`, l.63-65. -/
def hasErrorNamed (r : Reg) (name : String) : Bool := r.any (fun e => e.1 = name)

/-- `has_error()`, l.67. -/
def hasError (r : Reg) : Bool := !r.isEmpty

/-- Calls that change the registry. FrameErrorRegistry.hpp l.42-63. -/
inductive Op where
  | add (name : String) (iv : Interval)
  | removeUntil (ts : Nat)
  deriving DecidableEq

/-- One call. FrameErrorRegistry.hpp l.42-63. -/
def step (r : Reg) : Op → Reg
  | .add n iv => addError r n iv
  | .removeUntil t => removeErrorsUntil r t

/-- A sequence of calls. FrameErrorRegistry.hpp l.42-63. -/
def run (r : Reg) (ops : List Op) : Reg := ops.foldl step r

end Verif.Registry
