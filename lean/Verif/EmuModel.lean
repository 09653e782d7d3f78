import Verif.Basic
import Verif.SearchModel
/-
The source emulator: `run_produce` (include/readout/models/SourceEmulatorModel.hpp l.153-221) on the
contents read by `FileSourceBuffer::read` (include/readout/utils/FileSourceBuffer.hpp l.41-80), and the
error bit generator (include/readout/utils/ErrorBitGenerator.hpp).

A payload is `sz` bytes. `fake_timestamps` and `fake_frame_errors` overwrite fields of the copy only; the
model records the copied bytes and the timestamp handed to `fake_timestamps`. A push to the sink that
times out loses the payload (l.203-208); the model records the payload as emitted in both cases.
-/
namespace Verif.Emu
open Verif.Search (u64)

/-- Source bytes, payload size, tick per frame, first timestamp and dropout pattern.
SourceEmulatorModel.hpp l.93-118, FileSourceBuffer.hpp l.41-80. -/
structure Cfg where
  source : List Nat   -- contents of the file buffer
  sz : Nat            -- sizeof(ReadoutType)
  tick : Nat          -- m_time_tick_diff
  drops : List Bool   -- m_dropouts: true = create the frame

/-- `num_elements()`, FileSourceBuffer.hpp l.66, 82. -/
def numElem (c : Cfg) : Nat := c.source.length / c.sz

/-- Local variables of `run_produce` and what was emitted. SourceEmulatorModel.hpp l.159-175. -/
structure St where
  offset : Nat
  di : Nat            -- dropout_index
  ts : Nat
  out : List (List Nat × Nat)
  deriving DecidableEq

/-- `memcpy` of one payload out of the file buffer, l.188-190. -/
def readAt (c : Cfg) (offset : Nat) : Outcome (List Nat) :=
  if offset * c.sz + c.sz ≤ c.source.length then .ok ((c.source.drop (offset * c.sz)).take c.sz)
  else .ub .outOfBounds

/-- l.179-181: which element is next. The first condition compares an element index with a byte count. -/
def wrapped (c : Cfg) (offset : Nat) : Nat :=
  if offset = numElem c * c.sz ∨ (offset + 1) * c.sz > c.source.length then 0 else offset

/-- One iteration of the loop, l.177-219. -/
def iter (c : Cfg) (s : St) : Outcome St := do
  let offset := wrapped c s.offset
  match c.drops[s.di]? with
  | none => .ub .outOfBounds
  | some create =>
    let di := (s.di + 1) % c.drops.length
    let ts' := u64 (s.ts + c.tick * 12)
    if create then do
      let b ← readAt c offset
      .ok ⟨offset + 1, di, ts', s.out ++ [(b, s.ts)]⟩
    else .ok ⟨offset, di, ts', s.out⟩

/-- `n` iterations from the start with first timestamp `t0` (l.159-175). -/
def run (c : Cfg) (t0 : Nat) : Nat → Outcome St
  | 0 => .ok ⟨0, 0, t0, []⟩
  | n + 1 => do let s ← run c t0 n; iter c s

/-- `conf` l.102-110: the dropout pattern for a rate of zero is a single `true`; otherwise it has the
configured population size (any pattern `pat`). -/
def dropsOf (rateZero : Bool) (population : Nat) (pat : Nat → Bool) : List Bool :=
  if rateZero then [true] else (List.range population).map pat

/-- The error bit generator's tables (ErrorBitGenerator.hpp l.73-85), each of size `m_size` = 1000. -/
structure Tables where
  bits : Nat → Nat
  occ : Nat → Nat
  noOcc : Nat → Nat

/-- Its counters. ErrorBitGenerator.hpp l.77-84. -/
structure Gen where
  bi : Nat
  oi : Nat
  ni : Nat
  cur : Nat
  cnt : Nat
  set : Bool
  deriving DecidableEq

/-- Initial counters, l.28-36. -/
def gen0 : Gen := ⟨0, 0, 0, 0, 0, true⟩

/-- `next()`, l.37-55. -/
def next (t : Tables) (g : Gen) : Gen × Nat :=
  let g1 :=
    if g.cur ≤ g.cnt then
      if g.set then { g with bi := (g.bi + 1) % 1000, oi := (g.oi + 1) % 1000, set := false,
                             cur := t.noOcc g.ni, cnt := 0 }
      else { g with ni := (g.ni + 1) % 1000, set := true, cur := t.occ g.oi, cnt := 0 }
    else g
  let g2 := { g1 with cnt := g1.cnt + 1 }
  (g2, if g2.set = true ∧ g2.cur ≠ 0 then t.bits g2.bi else 0)

/-- `n` calls of `next`. Repeated ErrorBitGenerator.hpp l.37-55. -/
def gens (t : Tables) : Nat → Gen × List Nat
  | 0 => (gen0, [])
  | n + 1 => let r := gens t n; ((next t r.1).1, r.2 ++ [(next t r.1).2])

end Verif.Emu
