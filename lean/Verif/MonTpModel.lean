import Verif.TpHandlerModel
import Verif.MonReqModel
/-
Statistics on trigger primitives (TPs) found by software, src/wib/WIBFrameProcessor.hpp: the post-processing thread
counts (`find_collection_hits` l.369-504; include/readout/utils/TPHandler.hpp l.38-79), `get_info` takes the values
one after the other while it runs (WIBFrameProcessor.hpp l.240-263), `start` zeroes them (l.91-173).

Which TPs a superchunk contains is left to the environment (C86 says which). One step per access to a counter and per
push to a queue. The counters are kept exactly; the conversion of `std::atomic<int>` (hits, l.546) is applied when the
value is taken, the other three are 64 bits wide (l.598, TPHandler.hpp l.105-106). With software TPG enabled, one
`conf` command (C61).
-/
namespace Verif.MonTp
open Verif.Search (u64)
open Verif.TpHandler (Cfg)

variable {α : Type}

/-- The counters: TPHandler.hpp l.105-106, WIBFrameProcessor.hpp l.598, 546. -/
inductive Ctr where
  | sent | sets | dropped | hits
  deriving DecidableEq

/-- Where the post-processing thread is. -/
inductive Pc (α : Type) where
  | idle
  | adding (now : Nat) (todo : List α) (n : Nat)     -- WIBFrameProcessor.hpp l.420-492, n TPs done
  | drop (now : Nat) (todo : List α) (n : Nat)       -- l.479, before `m_tps_dropped++`
  | count (now n : Nat)                              -- l.497, before `m_coll_hits_count += nhits`
  | check (now : Nat)                                -- TPHandler.hpp l.50
  | loop (endT : Nat) (set : List α)                 -- TPHandler.hpp l.58
  | pushed (endT : Nat) (set : List α)               -- TPHandler.hpp l.63, before `m_sent_tps++`
  | pushedSet                                        -- TPHandler.hpp l.74, before `m_sent_tpsets++`
  deriving DecidableEq

/-- Number in a report of the value `v`: hits are an `int` (WIBFrameProcessor.hpp l.253), the others 64 bits. -/
def shown (c : Ctr) (v : Nat) : Int :=
  match c with
  | .hits => MonReq.int32 v
  | _ => u64 v

/-- The order in which `get_info` takes the values, WIBFrameProcessor.hpp l.244-253. -/
def order : List Ctr := [.sent, .sets, .dropped, .hits]

/-- The order in which `start` zeroes the counters, WIBFrameProcessor.hpp l.95-96, 168, TPHandler.hpp l.87-88. -/
def zeroed : List Ctr := [.sent, .sets, .dropped, .hits]

/-- Counters, TP buffer, threads, and what an observer sees in the current run. -/
structure St (α : Type) where
  val : Ctr → Nat
  buf : List α                  -- TPHandler.hpp l.110-121
  pc : Pc α
  mon : List Ctr                -- values the report being made has still to take
  starting : List Ctr           -- counters `start` has still to zero
  -- what happened since the last `start` command:
  found : List (α × Nat)        -- TPs in the data, with the timestamp of the superchunk they were found in
  tpq : List α                  -- TPs that entered the TP queue
  refused : List α              -- TPs the TP queue refused (timeout)
  setq : List (List α)          -- TP sets that entered their queue
  log : List (Ctr × Int)        -- values reported
  overlap : Bool                -- a report took a value while `start` was zeroing

/-- Before the first start, WIBFrameProcessor.hpp l.546, 598, TPHandler.hpp l.105-106. -/
def St.init : St α := ⟨fun _ => 0, [], .idle, [], [], [], [], [], [], [], false⟩

/-- One counter changed, WIBFrameProcessor.hpp l.546, 598. -/
def upd (f : Ctr → Nat) (c : Ctr) (v : Nat) : Ctr → Nat := fun d => if d = c then v else f d

/-- `add_tp` and the counting of a refusal, WIBFrameProcessor.hpp l.478-480, TPHandler.hpp l.38-46. -/
def add (ts : α → Nat) (c : Cfg) (s : St α) (now : Nat) (a : α) (r : List α) (n : Nat) : St α :=
  if u64 (ts a + c.timeout) > now then { s with buf := a :: s.buf, pc := .adding now r (n + 1) }
  else { s with pc := .drop now r (n + 1) }

/-- TPHandler.hpp l.50-56: is a window complete? -/
def check (ts : α → Nat) (pick : List α → Option (α × List α)) (c : Cfg) (s : St α) (now : Nat) : St α :=
  match pick s.buf with
  | none => { s with pc := .idle }
  | some (a, _) =>
    if u64 (u64 (ts a + c.window) + c.timeout) < now then
      { s with pc := .loop (u64 (u64 ((ts a / c.window) * c.window) + c.window)) [] }
    else { s with pc := .idle }

/-- TPHandler.hpp l.58-68: the TP `a` is pushed to the TP queue, taken into the set and off the buffer; `ok` says
whether the queue takes it. If so it is counted next (l.63). -/
def pushTp (s : St α) (endT : Nat) (set : List α) (a : α) (r : List α) (ok : Bool) : St α :=
  if ok then { s with buf := r, tpq := s.tpq ++ [a], pc := .pushed endT (set ++ [a]) }
  else { s with buf := r, refused := s.refused ++ [a], pc := .loop endT (set ++ [a]) }

/-- TPHandler.hpp l.70-77: the set is pushed. -/
def pushSet (s : St α) (set : List α) (ok : Bool) : St α :=
  if ok then { s with setq := s.setq ++ [set], pc := .pushedSet } else { s with pc := .idle }

/-- The next TP belongs to the window, TPHandler.hpp l.58. -/
def inWindow (ts : α → Nat) (pick : List α → Option (α × List α)) (buf : List α) (endT : Nat) : Option (α × List α) :=
  match pick buf with
  | none => none
  | some (a, r) => if ts a < endT then some (a, r) else none

/-- `get_info` takes (and zeroes) one value, WIBFrameProcessor.hpp l.244-253. -/
def take (s : St α) (c : Ctr) (r : List Ctr) : St α :=
  { s with val := upd s.val c 0, mon := r, log := s.log ++ [(c, shown c (s.val c))],
           overlap := s.overlap || decide (s.starting ≠ []) }

/-- The `start` command begins, WIBFrameProcessor.hpp l.91-96, TPHandler.hpp l.81-89. -/
def begin (s : St α) : St α :=
  { s with buf := [], starting := zeroed, found := [], tpq := [], refused := [], setq := [], log := [],
           overlap := false }

/-- Steps of the three threads. WIBFrameProcessor.hpp l.91-173, 240-263, 369-504, TPHandler.hpp l.38-95. -/
inductive Step (ts : α → Nat) (pick : List α → Option (α × List α)) (c : Cfg) : St α → St α → Prop where
  /-- WIBFrameProcessor.hpp l.369: a superchunk with the TPs `tps`. -/
  | frame (s : St α) (now : Nat) (tps : List α) (h : s.pc = .idle) (hs : s.starting = []) :
      Step ts pick c s { s with found := s.found ++ tps.map (·, now), pc := .adding now tps 0 }
  | add (s : St α) (now : Nat) (a : α) (r : List α) (n : Nat) (h : s.pc = .adding now (a :: r) n) :
      Step ts pick c s (add ts c s now a r n)
  /-- WIBFrameProcessor.hpp l.479 -/
  | drop (s : St α) (now : Nat) (r : List α) (n : Nat) (h : s.pc = .drop now r n) :
      Step ts pick c s { s with val := upd s.val .dropped (s.val .dropped + 1), pc := .adding now r n }
  | added (s : St α) (now n : Nat) (h : s.pc = .adding now [] n) : Step ts pick c s { s with pc := .count now n }
  /-- WIBFrameProcessor.hpp l.497 -/
  | count (s : St α) (now n : Nat) (h : s.pc = .count now n) :
      Step ts pick c s { s with val := upd s.val .hits (s.val .hits + n), pc := .check now }
  /-- TPHandler.hpp l.50-56; a window size of 0 is a division by zero (l.52, `TpHandler.trySend`) and left out. -/
  | check (s : St α) (now : Nat) (h : s.pc = .check now) (hc : c.window ≠ 0) :
      Step ts pick c s (check ts pick c s now)
  | pushTp (s : St α) (endT : Nat) (set : List α) (a : α) (r : List α) (ok : Bool) (h : s.pc = .loop endT set)
      (hw : inWindow ts pick s.buf endT = some (a, r)) : Step ts pick c s (pushTp s endT set a r ok)
  /-- TPHandler.hpp l.63 -/
  | sent (s : St α) (endT : Nat) (set : List α) (h : s.pc = .pushed endT set) :
      Step ts pick c s { s with val := upd s.val .sent (s.val .sent + 1), pc := .loop endT set }
  | pushSet (s : St α) (endT : Nat) (set : List α) (ok : Bool) (h : s.pc = .loop endT set)
      (hw : inWindow ts pick s.buf endT = none) : Step ts pick c s (pushSet s set ok)
  /-- TPHandler.hpp l.74 -/
  | sentSet (s : St α) (h : s.pc = .pushedSet) :
      Step ts pick c s { s with val := upd s.val .sets (s.val .sets + 1), pc := .idle }
  /-- WIBFrameProcessor.hpp l.240: a report begins. -/
  | report (s : St α) (h : s.mon = []) : Step ts pick c s { s with mon := order }
  | take (s : St α) (d : Ctr) (r : List Ctr) (h : s.mon = d :: r) : Step ts pick c s (take s d r)
  /-- WIBFrameProcessor.hpp l.91: `start`, after the thread of the previous run has ended (l.175-177). -/
  | start (s : St α) (hs : s.starting = []) (h : s.pc = .idle) : Step ts pick c s (begin s)
  /-- One counter is zeroed. -/
  | zero (s : St α) (d : Ctr) (r : List Ctr) (h : s.starting = d :: r) :
      Step ts pick c s { s with val := upd s.val d 0, starting := r }

/-- Reachable states. WIBFrameProcessor.hpp l.91-173, 240-263, 369-504. -/
inductive Reach (ts : α → Nat) (pick : List α → Option (α × List α)) (c : Cfg) : St α → Prop where
  | init : Reach ts pick c St.init
  | step (s s' : St α) (h : Reach ts pick c s) (st : Step ts pick c s s') : Reach ts pick c s'

end Verif.MonTp
