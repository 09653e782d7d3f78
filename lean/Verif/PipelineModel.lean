import Verif.TsCheckModel
import Verif.CleanupModel
/-
The path of payloads into the latency buffer, for the fixed-rate detector types: pre-processing
(timestamp check), write, and cleanup with expiry of registered errors. A payload is represented
by its first timestamp.
-/
namespace Verif.Pipeline
open Verif.Ring Verif.Registry Verif.TsCheck

/-- Consumer state and latency buffer.
Shared by include/readout/models/ReadoutModel.hpp l.228-257 and include/readout/models/DefaultRequestHandlerModel.hpp l.415-438. -/
structure St where
  ck : TsCheck.St
  q : Ring Nat

/-- One payload, ReadoutModel.hpp l.240-245: `preprocess_item` (the timestamp check) and then
`write`, which may reject it. The `bool` says whether it was stored. -/
def receive (step : Nat) (s : St) (t : Nat) : Outcome (St × Bool) := do
  let ck := check step s.ck t
  let r ← s.q.write t
  .ok (⟨ck, r.1⟩, r.2)

/-- A cleanup, DefaultRequestHandlerModel.hpp l.415-438 (shares the error registry). -/
def clean (limit toPop next : Nat) (s : St) : Outcome St := do
  let r ← Cleanup.cleanup id limit toPop next s.q s.ck.reg
  .ok ⟨{ s.ck with reg := r.reg }, r.q⟩

/-- Reachable states of a run with a buffer of size `n`, with the list of received timestamps. The
registry starts with whatever earlier runs left in it (it is not cleared by start).
include/readout/models/ReadoutModel.hpp l.228-257, include/readout/models/DefaultRequestHandlerModel.hpp l.415-438. -/
inductive Reach (step n : Nat) : St → List Nat → Prop where
  | start (r0 : Reg) : Reach step n ⟨⟨0, 0, 0, r0⟩, Ring.init Nat n⟩ []
  | receive (s s' : St) (ts : List Nat) (t : Nat) (b : Bool) (h : Reach step n s ts)
      (he : receive step s t = .ok (s', b)) : Reach step n s' (ts ++ [t])
  | clean (s s' : St) (ts : List Nat) (limit toPop next : Nat) (h : Reach step n s ts)
      (he : clean limit toPop next s = .ok s') : Reach step n s' ts

end Verif.Pipeline
