import Verif.RegistryModel
/-
`FrameErrorRegistry` called from several threads, include/readout/FrameErrorRegistry.hpp l.19-71.
On a link the consumer thread calls `add_error` (WIBFrameProcessor.hpp l.303), the cleanup thread
calls `remove_errors_until` (DefaultRequestHandlerModel.hpp l.435) and the threads of the request
pool call `has_error` (DefaultRequestHandlerModel.hpp l.534).

`add_error` and `remove_errors_until` hold `m_error_map_mutex`; the two `has_error` functions do
not. The machine below has one step per access to the map, to the mutex, and one per call and
return; any number of threads. Each single access is taken as indivisible, which the unlocked reads
do not guarantee in C++ (see `Racing`).
-/
namespace Verif.RegConc
open Verif.Registry

/-- Calls on the registry. FrameErrorRegistry.hpp l.41-68. -/
inductive Call where
  | add (name : String) (iv : Interval)
  | removeUntil (ts : Nat)
  | has (name : String)
  | hasAny
  deriving DecidableEq

/-- What an observer sees: calls and returns (with the returned value, `none` for `void`).
FrameErrorRegistry.hpp l.41-68. -/
inductive Ev where
  | call (t : Nat) (c : Call)
  | ret (t : Nat) (c : Call) (r : Option Bool)
  deriving DecidableEq

/-- Where a thread stands. FrameErrorRegistry.hpp l.41-68. -/
inductive Pc where
  /-- outside -/
  | idle
  /-- `add_error` called, waiting for the mutex (l.42) -/
  | add0 (name : String) (iv : Interval)
  /-- mutex held, before the lookup for the log message (l.43) -/
  | add1 (name : String) (iv : Interval)
  /-- before `erase` (l.46) -/
  | add2 (name : String) (iv : Interval)
  /-- before `insert` (l.47) -/
  | add3 (name : String) (iv : Interval)
  /-- before the mutex is released (l.48) -/
  | add4 (name : String) (iv : Interval)
  /-- `remove_errors_until` called, waiting for the mutex (l.52) -/
  | rem0 (ts : Nat)
  /-- mutex held, iterator at position `i` (l.53) -/
  | rem1 (ts i : Nat)
  /-- loop finished, before the mutex is released (l.61) -/
  | rem2 (ts : Nat)
  /-- a `has_error` called, before the lookup (l.64, l.67) -/
  | has0 (c : Call)
  /-- only in the variant with a lock: mutex held, before the lookup -/
  | has1 (c : Call)
  /-- only in the variant with a lock: before the mutex is released -/
  | has2 (c : Call) (r : Bool)
  /-- before returning to the caller -/
  | done (c : Call) (r : Option Bool)
  deriving DecidableEq

/-- The registry and its callers: `m_errors` (l.70), the owner of `m_error_map_mutex` (l.71), and
where each thread stands. FrameErrorRegistry.hpp l.70-71. -/
structure St where
  map : Reg
  owner : Option Nat
  pc : Nat → Pc

/-- A new registry, FrameErrorRegistry.hpp l.37-39. -/
def fresh : St := ⟨[], none, fun _ => .idle⟩

/-- Replace the value at one thread. No counterpart in /repo. -/
def upd {β : Type} (f : Nat → β) (t : Nat) (b : β) : Nat → β := fun u => if u = t then b else f u

/-- `std::map::erase(key)`, called at FrameErrorRegistry.hpp l.46. -/
def eraseName (r : Reg) (name : String) : Reg := r.filter (fun e => e.1 ≠ name)

/-- `std::map::insert(pair)`, called at FrameErrorRegistry.hpp l.47: no effect if the key exists. -/
def insertEntry (r : Reg) (name : String) (iv : Interval) : Reg :=
  if hasErrorNamed r name then r else (name, iv) :: r

/-- Position of a newly called function. FrameErrorRegistry.hpp l.41, l.50, l.63, l.67. -/
def entry : Call → Pc
  | .add n iv => .add0 n iv
  | .removeUntil ts => .rem0 ts
  | .has n => .has0 (.has n)
  | .hasAny => .has0 .hasAny

/-- The value a `has_error` reads from the map. FrameErrorRegistry.hpp l.64, l.67. -/
def answer (r : Reg) : Call → Bool
  | .has n => hasErrorNamed r n
  | _ => hasError r

/-- One step of one thread. `lk` is `false` for the code; with `lk = true` the two `has_error`
functions take the mutex as well. FrameErrorRegistry.hpp l.41-68. -/
inductive Step (lk : Bool) : St → Option Ev → St → Prop
  | call (s : St) (t : Nat) (c : Call) : s.pc t = .idle →
      Step lk s (some (.call t c)) { s with pc := upd s.pc t (entry c) }
  | ret (s : St) (t : Nat) (c : Call) (r : Option Bool) : s.pc t = .done c r →
      Step lk s (some (.ret t c r)) { s with pc := upd s.pc t .idle }
  | addLock (s : St) (t : Nat) (n : String) (iv : Interval) : s.pc t = .add0 n iv →
      s.owner = none →
      Step lk s none { s with owner := some t, pc := upd s.pc t (.add1 n iv) }
  | addFind (s : St) (t : Nat) (n : String) (iv : Interval) : s.pc t = .add1 n iv →
      Step lk s none { s with pc := upd s.pc t (.add2 n iv) }
  | addErase (s : St) (t : Nat) (n : String) (iv : Interval) : s.pc t = .add2 n iv →
      Step lk s none { s with map := eraseName s.map n, pc := upd s.pc t (.add3 n iv) }
  | addInsert (s : St) (t : Nat) (n : String) (iv : Interval) : s.pc t = .add3 n iv →
      Step lk s none { s with map := insertEntry s.map n iv, pc := upd s.pc t (.add4 n iv) }
  | addUnlock (s : St) (t : Nat) (n : String) (iv : Interval) : s.pc t = .add4 n iv →
      Step lk s none { s with owner := none, pc := upd s.pc t (.done (.add n iv) none) }
  | remLock (s : St) (t : Nat) (ts : Nat) : s.pc t = .rem0 ts → s.owner = none →
      Step lk s none { s with owner := some t, pc := upd s.pc t (.rem1 ts 0) }
  | remErase (s : St) (t : Nat) (ts i : Nat) (h : i < s.map.length) : s.pc t = .rem1 ts i →
      ts > s.map[i].2.endTs →
      Step lk s none { s with map := s.map.eraseIdx i }
  | remNext (s : St) (t : Nat) (ts i : Nat) (h : i < s.map.length) : s.pc t = .rem1 ts i →
      ¬ ts > s.map[i].2.endTs →
      Step lk s none { s with pc := upd s.pc t (.rem1 ts (i + 1)) }
  | remEnd (s : St) (t : Nat) (ts i : Nat) : s.pc t = .rem1 ts i → s.map.length ≤ i →
      Step lk s none { s with pc := upd s.pc t (.rem2 ts) }
  | remUnlock (s : St) (t : Nat) (ts : Nat) : s.pc t = .rem2 ts →
      Step lk s none { s with owner := none, pc := upd s.pc t (.done (.removeUntil ts) none) }
  | hasRead (s : St) (t : Nat) (c : Call) : lk = false → s.pc t = .has0 c →
      Step lk s none { s with pc := upd s.pc t (.done c (some (answer s.map c))) }
  | hasLock (s : St) (t : Nat) (c : Call) : lk = true → s.pc t = .has0 c → s.owner = none →
      Step lk s none { s with owner := some t, pc := upd s.pc t (.has1 c) }
  | hasReadLocked (s : St) (t : Nat) (c : Call) : s.pc t = .has1 c →
      Step lk s none { s with pc := upd s.pc t (.has2 c (answer s.map c)) }
  | hasUnlock (s : St) (t : Nat) (c : Call) (r : Bool) : s.pc t = .has2 c r →
      Step lk s none { s with owner := none, pc := upd s.pc t (.done c (some r)) }

/-- Runs of a machine with visible and internal steps: `Trace step s h s'` = from `s` to `s'`
showing the events `h`. No counterpart in /repo. -/
inductive Trace {S : Type} (step : S → Option Ev → S → Prop) : S → List Ev → S → Prop
  | nil (s : S) : Trace step s [] s
  | vis {s s' s'' : S} {h : List Ev} {e : Ev} : Trace step s h s' → step s' (some e) s'' →
      Trace step s (h ++ [e]) s''
  | tau {s s' s'' : S} {h : List Ev} : Trace step s h s' → step s' none s'' →
      Trace step s h s''

/-- The next step of this thread reads or writes the map. FrameErrorRegistry.hpp l.43-68. -/
def Accesses : Pc → Bool
  | .add1 .. | .add2 .. | .add3 .. | .rem1 .. | .has0 _ | .has1 _ => true
  | _ => false

/-- The next step of this thread may write the map. FrameErrorRegistry.hpp l.46-56. -/
def Writes : Pc → Bool
  | .add2 .. | .add3 .. | .rem1 .. => true
  | _ => false

/-- A data race: two threads are about to access the map, one of them writing. (`has0` counts as an
access only where the read happens without the mutex.) FrameErrorRegistry.hpp l.43-68. -/
def Racing (lk : Bool) (s : St) : Prop :=
  ∃ t u, t ≠ u ∧ Writes (s.pc t) = true ∧ Accesses (s.pc u) = true ∧
    (lk = true → ∀ c, s.pc u ≠ .has0 c)

end Verif.RegConc
