import Verif.SearchModel
/-
Monitoring counters of a readout link (include/readout/models/ReadoutModel.hpp): `m_num_payloads` /
`m_sum_payloads`, counted by the consumer thread (l.228-257), and `m_num_requests` /
`m_sum_requests`, counted by the timesync thread (l.259-307, fake triggers) and by the requester
thread (l.309-346). They are zeroed by `start` (l.135-147), zeroed again by each counting thread when
it begins (l.230-233, 262-263, 312-313), and read by `get_info` (l.180-208).

The model is generic in the number `w` of counting threads: one for payloads, two for requests. The
counters are `std::atomic<int>` (l.358-364): 32 bits, wrapping; they are reported as unsigned 64-bit
numbers (schema/readout/readoutinfo.jsonnet).
-/
namespace Verif.Monitor
open Verif.Search

/-- The value of a 32-bit `int` (given as its bit pattern) converted to 64-bit unsigned, l.183-186. -/
def asU64 (c : Nat) : Nat := if c < 2147483648 then c else c + 18446744073709551616 - 4294967296

/-- Wrapping 32-bit increment, l.249-250. -/
def inc32 (c : Nat) : Nat := (c + 1) % 4294967296

/-- Counters and, as ghosts, what really happened. ReadoutModel.hpp l.358-364. -/
structure St where
  num : Nat                 -- m_num_…
  sum : Nat                 -- m_sum_…
  armed : Nat → Bool        -- thread i was given its work and has not begun
  started : Nat → Bool      -- thread i is in its loop
  mid : Nat → Bool          -- thread i has incremented m_num_… but not yet m_sum_…
  reports : List (Nat × Nat)  -- num and sum of each report
  truth : List (Nat × Nat)  -- ghost: counted since the last report, counted in the run (at the report)
  pending : Nat             -- ghost: counted and neither reported nor zeroed
  inRun : Nat               -- ghost: counted (m_sum_…) in this run
  total : Nat               -- ghost: counted (m_num_…) ever
  zeroedByStart : Nat       -- ghost: counts removed unreported by start
  zeroedByThread : Nat      -- ghost: counts removed unreported by a beginning thread

/-- Before the first start, l.358-364. -/
def St.init : St := ⟨0, 0, fun _ => false, fun _ => false, fun _ => false, [], [], 0, 0, 0, 0, 0⟩

/-- Steps with `w` counting threads. ReadoutModel.hpp l.135-208, 228-346. -/
inductive Step (w : Nat) : St → St → Prop where
  /-- l.137-156: `start`; all threads have ended (l.163-171) and are given new work. -/
  | start (s : St) (h : ∀ i, i < w → s.started i = false ∧ s.armed i = false) :
      Step w s { s with num := 0, sum := 0, inRun := 0, armed := fun i => decide (i < w), zeroedByStart := s.zeroedByStart + s.pending,
                        pending := 0 }
  /-- l.230-233, 262-263, 312-313: a thread begins. -/
  | begin_ (s : St) (i : Nat) (hi : i < w) (h : s.armed i = true) :
      Step w s { s with num := 0, sum := 0, armed := fun j => if j = i then false else s.armed j,
                        started := fun j => if j = i then true else s.started j,
                        zeroedByThread := s.zeroedByThread + s.pending, pending := 0 }
  /-- l.248, 291, 325: `++m_num_…`. -/
  | incNum (s : St) (i : Nat) (hi : i < w) (h : s.started i = true) (hm : s.mid i = false) :
      Step w s { s with num := inc32 s.num, mid := fun j => if j = i then true else s.mid j,
                        pending := s.pending + 1, total := s.total + 1 }
  /-- l.249, 292, 326: `++m_sum_…`. -/
  | incSum (s : St) (i : Nat) (hi : i < w) (h : s.started i = true) (hm : s.mid i = true) :
      Step w s { s with sum := inc32 s.sum, mid := fun j => if j = i then false else s.mid j,
                        inRun := s.inRun + 1 }
  /-- l.180-188: a report (`load` of the sum, `exchange(0)` of the number). -/
  | report (s : St) :
      Step w s { s with num := 0, reports := s.reports ++ [(asU64 s.num, asU64 s.sum)],
                        truth := s.truth ++ [(s.pending, s.inRun)], pending := 0 }
  /-- l.255, 305, 345: a thread ends. -/
  | end_ (s : St) (i : Nat) (hi : i < w) (h : s.started i = true) (hm : s.mid i = false) :
      Step w s { s with started := fun j => if j = i then false else s.started j }

/-- Reachable states. ReadoutModel.hpp l.135-208. -/
inductive Reach (w : Nat) : St → Prop where
  | init : Reach w St.init
  | step (s s' : St) (h : Reach w s) (st : Step w s s') : Reach w s'

end Verif.Monitor
