import Verif.CleanupProps
/-
`DefaultRequestHandlerModel::conf` (include/readout/models/DefaultRequestHandlerModel.hpp l.100-142)
and its effect on cleanup (l.250-259, 415-438) and on the recording command (l.184-195).
Floating-point numbers are exact rationals with an explicit rounding `rnd` of the float type.
-/
namespace Verif.Conf
open Verif.Ring Verif.Registry

/-- The fields of `RequestHandlerConf` with an effect here.
schema/readout/readoutconfig.jsonnet l.83-108; used at DefaultRequestHandlerModel.hpp l.103-134. -/
structure Params where
  limitPct : ℚ
  sizePct : ℚ
  capacity : Nat
  recording : Bool
  file : String

/-- The handler's members written by `conf` (l.652-672) and the file the writer has open. -/
structure Handler where
  limitPct : ℚ
  sizePct : ℚ
  limitSize : Nat
  recConfigured : Bool
  openFile : Option String

/-- After construction, l.57-79, 672. -/
def Handler.new : Handler := ⟨0, 0, 0, false, none⟩

/-- The test of l.116. -/
def outOfRange (p : Params) : Bool :=
  decide (p.limitPct < 0) || decide (p.limitPct > 1) || decide (p.sizePct < 0) || decide (p.sizePct > 1)

/-- `m_pop_limit_size = m_pop_limit_pct * m_buffer_capacity`, l.119: capacity converted to float, product
rounded, truncated. -/
def limitOf (rnd : ℚ → ℚ) (pct : ℚ) (cap : Nat) : Nat := ⌊rnd (pct * rnd cap)⌋₊

/-- `conf`, l.100-142. The result says whether the configuration was reported as out of range (l.117,
a message only). Opening the file is taken to succeed. -/
def conf (rnd : ℚ → ℚ) (h : Handler) (p : Params) : Handler × Bool :=
  let h1 := { h with limitPct := p.limitPct, sizePct := p.sizePct }
  let bad := outOfRange p
  let h2 := if bad then h1 else { h1 with limitSize := limitOf rnd p.limitPct p.capacity }
  let h3 :=
    if p.recording && !h2.recConfigured then
      { h2 with openFile := some p.file, recConfigured := true }
    else h2
  (h3, bad)

/-- Several configurations in a row (the scrap command in between changes nothing,
plugins/DataLinkHandler.cpp l.68-74). -/
def confs (rnd : ℚ → ℚ) (h : Handler) (ps : List Params) : Handler :=
  ps.foldl (fun h p => (conf rnd h p).1) h

/-- A cleanup with the handler's settings while no recording is active (l.415-438, 421, 660). -/
def cleanupWith {P : Type} (rnd : ℚ → ℚ) (ts : P → Nat) (h : Handler) (q : Ring.Ring P) (reg : Reg) :
    Outcome (Cleanup.Result P) :=
  Cleanup.cleanup ts h.limitSize (Cleanup.toPopOf rnd h.sizePct q.occupancy) 18446744073709551615 q reg

/-- Where the record command sends the data, l.184-195: the writer's file, or refused. -/
def recordTarget (h : Handler) : Option String := h.openFile

/-- `periodic_cleanups`, l.407-413, with no arrivals in between: `k` cleanups in a row. -/
def cleanups {P : Type} (rnd : ℚ → ℚ) (ts : P → Nat) (h : Handler) :
    Nat → Ring.Ring P → Reg → Outcome (Ring.Ring P × Reg)
  | 0, q, reg => .ok (q, reg)
  | k + 1, q, reg => do
    let r ← cleanupWith rnd ts h q reg
    cleanups rnd ts h k r.q r.reg

end Verif.Conf
