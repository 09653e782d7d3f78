import Verif.ConcReqModel
import Verif.RecordModel
/-
The recording thread (`DefaultRequestHandlerModel::record`, /repo/include/readout/models/DefaultRequestHandlerModel.hpp l.194-246)
load by load, while the consumer writes payloads and the cleanup thread removes them. Memory model as in module ConcReq: payloads
are numbered in the order of publication; a load of the write index returns a publication not older than one seen before and,
with order acquire or on strong hardware, synchronises with it; reading a payload without having synchronised with its
publication, or one that has been removed, sets `bad`, after which the recording thread takes no further step.

The lookup l.217-218 runs between l.212-215 and l.220-223, so no cleanup is under way (C19), and the mutex passes on what
earlier holders have seen. Everything else runs unprotected: there the loads of the read index in `good()` may return anything.
The test l.425 and the removal l.426 of a cleanup are two steps. One step each: reading a payload with writing it to the file and
setting the new position (l.226-236), the whole of a publication. File writes succeed; no wrap of 64-bit times.
-/
namespace Verif.ConcRec
open Verif.Ring Verif.DataReq Verif.ConcReq
open Verif.Record (span)

/-- Hardware, as in module ConcReq (IterableQueueModel.hpp l.370-404), and the orders of two loads: the write index in `good()`
and the read index in `front()`; both are relaxed in the code (l.373, l.399). `careful`: cleanups leave alone what the recording
thread is looking at; they do not in the code (DefaultRequestHandlerModel.hpp l.424-431). -/
structure Hw where
  strong : Bool
  fresh : Bool
  good : Order := .relaxed
  rd : Order := .relaxed
  careful : Bool := false

/-- `Iterator::good()`, IterableQueueModel.hpp l.370-378, with the order of the load of the write index as parameter. -/
def goodO {P : Type} (o : Order) (i : Nat) : Prog P Bool :=
  .loadR fun r => .loadW o fun w => .ret ((i != endIdx) &&
    ((decide (i ≥ r) && decide (i < w)) || (decide (i ≥ r) && decide (w < r)) ||
      (decide (w < r) && decide (i < r) && decide (i < w))))

/-- `Iterator::operator++()`, IterableQueueModel.hpp l.346-358. -/
def incO {P : Type} (o : Order) (n i : Nat) : Prog P Nat := do
  let g ← goodO o i
  let i := if g then (if i + 1 = n then 0 else i + 1) else i
  let g ← goodO o i
  pure (if !g then endIdx else i)

/-- What is done with the result of the running call, DefaultRequestHandlerModel.hpp l.203-238; `m` (ghost) is the number of the
payload in question, `cnt` is `processed_chunks_in_loop`. -/
inductive Kont where
  | front (m : Nat)            -- l.205
  | look                       -- l.217-218
  | test (it m cnt : Nat)      -- l.225
  | inc (it m cnt : Nat)       -- l.237

/-- Where the recording thread is, DefaultRequestHandlerModel.hpp l.202-239. -/
inductive Pc (P : Type) where
  | run (k : Kont) (p : Prog P (Option Nat))
  | deref (i m : Nat)          -- l.206
  | want                       -- l.208-214
  | body (it m cnt : Nat)      -- l.226-236

/-- Shared state during a recording; `view` is what has been seen by holders of the mutex; `armed`: the cleanup has found the
oldest payload removable (l.425). DefaultRequestHandlerModel.hpp l.194-246, 415-438. -/
structure St (P : Type) where
  pub : List P
  popped : Nat
  view : Nat
  next : Nat               -- m_next_timestamp_to_record
  pc : Pc P
  seen : Nat
  sync : Nat
  file : List P
  cleaning : Bool
  armed : Bool
  bad : Bool

/-- `front()` is called if there is no position yet, l.203-205. -/
def again {P : Type} (s : St P) : Pc P := if s.next = 0 then .run (.front 0) ConcReq.front else .want

/-- The call of `lower_bound(element_to_search, true)`, l.208, 217. -/
def lookP {P : Type} (T : PayloadType P) (n t : Nat) : Prog P (Option Nat) := (lowerBound n T.ts t).bind fun i => .ret (some i)

/-- The call of `good()`, l.225. -/
def testP {P : Type} (o : Order) (it : Nat) : Prog P (Option Nat) := (goodO o it).bind fun g => .ret (if g then some 0 else none)

/-- `++chunk_iter`, l.237. -/
def incP {P : Type} (o : Order) (n it : Nat) : Prog P (Option Nat) := (incO o n it).bind fun i => .ret (some i)

/-- The head of the loop, l.225: an iterator at the end is not asked. -/
def toTest {P : Type} (o : Order) (s : St P) (it m cnt : Nat) : Pc P :=
  if it = endIdx then again s else .run (.test it m cnt) (testP o it)

/-- What the recording thread does when a call has returned `r`, DefaultRequestHandlerModel.hpp l.205-237. -/
def finish {P : Type} (n : Nat) (hw : Hw) (s : St P) : Kont → Option Nat → St P
  | .front _, none => { s with next := 0, pc := .want }
  | .front m, some i => { s with pc := .deref i m }
  | .look, none => { s with pc := again s }
  | .look, some it => { s with view := max s.view s.sync, pc := toTest hw.good s it (number n s.popped it) 0 }
  | .test it m cnt, some _ => { s with pc := if cnt < 1000 then .body it m cnt else again s }
  | .test _ _ _, none => { s with pc := again s }
  | .inc _ _ _, none => { s with pc := again s }
  | .inc it m cnt, some it' => { s with pc := toTest hw.good s it' (if it' = it then m else m + 1) cnt }

/-- The body of the loop with the payload `a`, l.226-237. -/
def record {P : Type} (T : PayloadType P) (n : Nat) (hw : Hw) (s : St P) (it m cnt : Nat) (a : P) : St P :=
  if T.ts a ≥ s.next then
    { s with file := s.file ++ [a], next := T.ts a + span T a, pc := .run (.inc it m (cnt + 1)) (incP hw.good n it) }
  else { s with pc := .run (.inc it m cnt) (incP hw.good n it) }

/-- Payload number `m` can be read through slot `i`: it is still there and the thread has synchronised with its publication.
IterableQueueModel.hpp l.360-368. -/
def Readable {P : Type} (n : Nat) (s : St P) (i m : Nat) : Prop := i < n ∧ number n s.popped i = m ∧ m < s.sync

/-- What a careful cleanup leaves alone, cf. DefaultRequestHandlerModel.hpp l.424-431. -/
def mayPop {P : Type} (s : St P) : Prop :=
  match s.pc with
  | .run (.front _) _ => False
  | .run .look _ => False
  | .run (.test _ m _) _ => s.popped < m
  | .run (.inc _ m _) _ => s.popped < m
  | .deref _ _ => False
  | .want => True
  | .body _ m _ => s.popped < m

/-- What the thread knows after a load of the read index (IterableQueueModel.hpp l.399): with order acquire in `front()`, what the
cleanup thread knew. -/
def afterR {P : Type} (hw : Hw) (s : St P) (k : Kont) (v : Nat) : Nat :=
  match k with
  | .front _ => if hw.rd = .acquire ∨ hw.strong = true then max v s.popped else v
  | _ => v

/-- The ghost of `front()`: which payload is the oldest when the read index is loaded (IterableQueueModel.hpp l.399). -/
def markR {P : Type} (s : St P) (k : Kont) : Kont :=
  match k with
  | .front _ => .front s.popped
  | k => k

/-- Calls whose loads of the read index return the present value (IterableQueueModel.hpp l.372, 399; BinarySearchQueueModel.hpp
l.36). -/
def exact : Kont → Bool
  | .front _ => true
  | .look => true
  | _ => false

/-- One step of any thread. DefaultRequestHandlerModel.hpp l.202-239, 250-259, 415-438. -/
inductive Step {P : Type} (T : PayloadType P) (n : Nat) (hw : Hw) (arr : List P → Prop) : St P → St P → Prop where
  /-- The consumer writes a payload, IterableQueueModel.hpp l.230-248. -/
  | publish (s : St P) (p : P) (ha : arr (s.pub ++ [p])) (hc : s.pub.length + 1 < s.popped + n) :
      Step T n hw arr s { s with pub := s.pub ++ [p] }
  /-- l.252-254 -/
  | cleanBegin (s : St P) (h : ∀ p, s.pc ≠ .run .look p) : Step T n hw arr s { s with cleaning := true }
  /-- l.256-258 -/
  | cleanEnd (s : St P) (h : s.armed = false) : Step T n hw arr s { s with cleaning := false }
  /-- Requests and cleanups have seen more of the buffer when they release the mutex (l.254, 276). -/
  | others (s : St P) (j : Nat) (h1 : s.view ≤ j) (h2 : j ≤ s.pub.length) : Step T n hw arr s { s with view := j }
  /-- l.425 -/
  | arm (s : St P) (a : P) (h : s.cleaning = true) (h1 : s.pub[s.popped]? = some a) (h2 : T.ts a < s.next) :
      Step T n hw arr s { s with armed := true }
  /-- l.426 -/
  | pop (s : St P) (h : s.armed = true) (hc : hw.careful = true → mayPop s) :
      Step T n hw arr s { s with popped := s.popped + 1, armed := false, view := max s.view (s.popped + 1) }
  /-- l.208-215 -/
  | enter (s : St P) (hb : s.bad = false) (h : s.pc = .want) (hc : s.cleaning = false) :
      Step T n hw arr s { s with pc := .run .look (lookP T n s.next), seen := max s.seen s.view, sync := max s.sync s.view }
  | loadW (s : St P) (k : Kont) (o : Order) (f : Nat → Prog P (Option Nat)) (j : Nat) (hb : s.bad = false)
      (hp : s.pc = .run k (.loadW o f)) (h1 : s.seen ≤ j) (h2 : j ≤ s.pub.length) (h3 : hw.fresh = true → j = s.pub.length) :
      Step T n hw arr s { s with pc := .run k (f (j % n)), seen := j,
                                 sync := if o = .acquire ∨ hw.strong = true then max s.sync j else s.sync }
  | loadR (s : St P) (k : Kont) (f : Nat → Prog P (Option Nat)) (r : Nat) (hb : s.bad = false)
      (hp : s.pc = .run k (.loadR f)) (hr : exact k = true → r = s.popped % n) :
      Step T n hw arr s { s with pc := .run (markR s k) (f r), seen := afterR hw s k s.seen, sync := afterR hw s k s.sync }
  | elem (s : St P) (k : Kont) (i : Nat) (f : P → Prog P (Option Nat)) (a : P) (hb : s.bad = false)
      (hp : s.pc = .run k (.elem i f)) (hi : i < n) (hs : number n s.popped i < s.sync)
      (ha : s.pub[number n s.popped i]? = some a) : Step T n hw arr s { s with pc := .run k (f a) }
  | race (s : St P) (k : Kont) (i : Nat) (f : P → Prog P (Option Nat)) (hb : s.bad = false)
      (hp : s.pc = .run k (.elem i f)) (hs : ¬ (i < n ∧ number n s.popped i < s.sync)) :
      Step T n hw arr s { s with bad := true }
  | fail (s : St P) (k : Kont) (hb : s.bad = false) (hp : s.pc = .run k .fail) : Step T n hw arr s { s with bad := true }
  | ret (s : St P) (k : Kont) (r : Option Nat) (hb : s.bad = false) (hp : s.pc = .run k (.ret r)) :
      Step T n hw arr s (finish n hw s k r)
  /-- l.206 -/
  | deref (s : St P) (i m : Nat) (a : P) (hb : s.bad = false) (hp : s.pc = .deref i m) (hr : Readable n s i m)
      (ha : s.pub[m]? = some a) : Step T n hw arr s { s with next := T.ts a, pc := .want }
  | derefBad (s : St P) (i m : Nat) (hb : s.bad = false) (hp : s.pc = .deref i m) (hr : ¬ Readable n s i m) :
      Step T n hw arr s { s with bad := true }
  /-- l.226-237 -/
  | body (s : St P) (it m cnt : Nat) (a : P) (hb : s.bad = false) (hp : s.pc = .body it m cnt) (hr : Readable n s it m)
      (ha : s.pub[m]? = some a) : Step T n hw arr s (record T n hw s it m cnt a)
  | bodyBad (s : St P) (it m cnt : Nat) (hb : s.bad = false) (hp : s.pc = .body it m cnt) (hr : ¬ Readable n s it m) :
      Step T n hw arr s { s with bad := true }

/-- A recording that begins (l.194-200) when the payloads `pub` have been received, of which the first `popped` have been removed,
possibly in the middle of a cleanup; the thread has not seen anything of the buffer since the command. -/
inductive Reach {P : Type} (T : PayloadType P) (n : Nat) (hw : Hw) (arr : List P → Prop) : St P → Prop where
  | init (pub : List P) (popped view : Nat) (cleaning armed : Bool) (ha : arr pub) (h1 : popped ≤ view)
      (h2 : view ≤ pub.length) (h3 : pub.length < popped + n) (h4 : armed = true → cleaning = true ∧ popped < pub.length) :
      Reach T n hw arr ⟨pub, popped, view, 0, .run (.front 0) ConcReq.front, 0, 0, [], cleaning, armed, false⟩
  | step {s s' : St P} (h : Reach T n hw arr s) (st : Step T n hw arr s s') : Reach T n hw arr s'

/-- Any number of further steps. DefaultRequestHandlerModel.hpp l.202-239. -/
inductive Later {P : Type} (T : PayloadType P) (n : Nat) (hw : Hw) (arr : List P → Prop) (s : St P) : St P → Prop where
  | refl : Later T n hw arr s s
  | step {t t' : St P} (h : Later T n hw arr s t) (st : Step T n hw arr t t') : Later T n hw arr s t'

end Verif.ConcRec
