import Verif.DataReqProps
/-
Data requests that run while the consumer writes to the latency buffer:
`DefaultRequestHandlerModel::data_request` (/repo/include/readout/models/DefaultRequestHandlerModel.hpp l.504-623) on
a ring buffer (/repo/include/readout/models/IterableQueueModel.hpp, BinarySearchQueueModel.hpp,
FixedRateQueueModel.hpp), executed by any number of pool threads while payloads are written and, when no request is
running, cleaned up.

A request is a program whose steps are the single loads of the two indices, each with its memory order, reads of
stored payloads, the question to the error registry and the load of the run marker. Between two steps anything may
happen in the other threads.

Memory model (C++): payloads are numbered in the order in which they are published; `pub` are those published so far.
A load of the write index returns the index after some publication that is not older than the one seen by an earlier
load (per-location coherence; old values are possible unless `fresh`). A load with order acquire synchronises with that
publication: the payloads up to it may be read. A relaxed load does not synchronise, unless `strong`, which stands for
hardware on which it does (x86: loads are not reordered with loads). The orders of the loads in `back()` and `good()` are parameters, so
that the code can be compared with a repaired one. Reading a payload that has been published
without having synchronised with its publication is a data race, that is, undefined behaviour.

The read index only changes in cleanups, which exclude requests (C19): the mutex passes on what a cleanup or an earlier
request has seen. A cleanup is one step here. Answers of the error registry are arbitrary but for gaps in the present
contents (C24, C41; its own data race is C87).
-/
namespace Verif.ConcReq
open Verif.Ring Verif.Search Verif.DataReq

/-- Memory orders used, IterableQueueModel.hpp l.315-419. -/
inductive Order where
  | relaxed | acquire
  deriving DecidableEq

/-- A program of a pool thread. `fail` is undefined behaviour or a loop that does not end.
DefaultRequestHandlerModel.hpp l.504-623. -/
inductive Prog (P : Type) (β : Type) where
  | ret (b : β)
  | fail
  | loadW (o : Order) (k : Nat → Prog P β)
  | loadR (k : Nat → Prog P β)
  | elem (i : Nat) (k : P → Prog P β)
  | err (k : Bool → Prog P β)
  | marker (k : Bool → Prog P β)

/-- Sequencing (DefaultRequestHandlerModel.hpp l.504-623). -/
def Prog.bind {P β γ : Type} : Prog P β → (β → Prog P γ) → Prog P γ
  | .ret b, f => f b
  | .fail, _ => .fail
  | .loadW o k, f => .loadW o fun x => (k x).bind f
  | .loadR k, f => .loadR fun x => (k x).bind f
  | .elem i k, f => .elem i fun x => (k x).bind f
  | .err k, f => .err fun x => (k x).bind f
  | .marker k, f => .marker fun x => (k x).bind f

instance (P : Type) : Monad (Prog P) where
  pure := .ret
  bind := Prog.bind

/-- `occupancy()`, IterableQueueModel.hpp l.315-323. -/
def occupancy {P : Type} (n : Nat) : Prog P Nat :=
  .loadW .acquire fun w => .loadR fun r => .ret (occIdx n r w)

/-- `front()`, IterableQueueModel.hpp l.397-404. -/
def front {P : Type} : Prog P (Option Nat) :=
  .loadR fun r => .loadW .acquire fun w => .ret (if r = w then none else some r)

/-- `back()`, IterableQueueModel.hpp l.406-419. The order `o` is relaxed in the code (l.408-409). -/
def back {P : Type} (n : Nat) (o : Order) : Prog P (Option Nat) :=
  .loadW o fun w => .loadR fun r =>
    .ret (if w = r then none else some (if w = 0 then n - 1 else w - 1))

/-- The payload behind a pointer returned by `front()` or `back()`,
DefaultRequestHandlerModel.hpp l.518-519. -/
def derefPtr {P : Type} : Option Nat → Prog P P
  | none => .fail
  | some i => .elem i .ret

/-- `Iterator::good()`, IterableQueueModel.hpp l.370-378. The order `o` is relaxed in the code (l.373). -/
def good {P : Type} (o : Order) (i : Nat) : Prog P Bool :=
  .loadR fun r => .loadW o fun w => .ret ((i != endIdx) &&
    ((decide (i ≥ r) && decide (i < w)) || (decide (i ≥ r) && decide (w < r)) ||
      (decide (w < r) && decide (i < r) && decide (i < w))))

/-- `Iterator::operator++()`, IterableQueueModel.hpp l.346-358. -/
def inc {P : Type} (o : Order) (n i : Nat) : Prog P Nat := do
  let g ← good o i
  let i := if g then (if i + 1 = n then 0 else i + 1) else i
  let g ← good o i
  pure (if !g then endIdx else i)

/-- The loop of the binary search, BinarySearchQueueModel.hpp l.52-67, at most `fuel` rounds. -/
def searchLoop {P : Type} (n : Nat) (key : P → Nat) (t : Nat) : Nat → Nat → Nat → Prog P Nat
  | 0, _, _ => .fail
  | fuel + 1, s, e =>
    let diff := if s ≤ e then e - s else n + e - s
    let m0 := s + ((diff + 1) / 2)
    let m := if m0 ≥ n then m0 - n else m0
    .elem m fun x =>
      if diff = 0 then .ret m
      else if t < key x then searchLoop n key t fuel s (if m ≠ 0 then m - 1 else n - 1)
      else searchLoop n key t fuel m e

/-- `BinarySearchQueueModel::lower_bound`, l.33-68. -/
def lowerBound {P : Type} (n : Nat) (key : P → Nat) (t : Nat) : Prog P Nat :=
  .loadR fun r => .loadW .acquire fun w =>
    if r = w then .ret endIdx
    else .elem r fun left =>
      if t < key left then .ret endIdx
      else searchLoop n key t n r (if w = 0 then n - 1 else w - 1)

/-- `FixedRateQueueModel::lower_bound` with `with_errors = false`, l.38-58. -/
def fixedLowerBound {P : Type} (n : Nat) (key : P → Nat) (tick nf t : Nat) : Prog P Nat :=
  .loadR fun r => (occupancy n).bind fun occ => .elem r fun left =>
    let last := key left
    let newest := u64 (last + occ * tick * nf)
    if last > t ∨ t > newest then .ret endIdx
    else if tick = 0 then .fail
    else if nf = 0 then .fail
    else
      let target := u32 (r + u32 ((t - last) / tick / nf))
      .ret (if target ≥ n then target - n else target)

/-- `lower_bound(request_element, has_error("MISSING_FRAMES"))`, DefaultRequestHandlerModel.hpp l.534-535. -/
def lookup {P : Type} (T : PayloadType P) (k : Lookup) (n : Nat) (hasErr : Bool) (t : Nat) : Prog P Nat :=
  match k with
  | .binary => lowerBound n T.ts t
  | .fixed nf => if hasErr then lowerBound n T.ts t else fixedLowerBound n T.ts T.tick nf t

/-- The extraction loop, DefaultRequestHandlerModel.hpp l.546-568, at most `fuel` payloads. -/
def extract {P : Type} (T : PayloadType P) (o : Order) (n b e : Nat) : Nat → Nat → Prog P (List (P × Nat))
  | 0, _ => .fail
  | fuel + 1, it => do
    let g ← good o it
    if g then
      .elem it fun p =>
        if T.ts p < e then do
          let it ← inc o n it
          let rest ← extract T o n b e fuel it
          pure (payloadPieces T b e p ++ rest)
        else .ret []
    else pure []

/-- Counters of one request alone, DefaultRequestHandlerModel.hpp l.681-687. -/
def noCount : Counters := ⟨0, 0, 0, 0, 0, 0⟩

/-- `data_request`, DefaultRequestHandlerModel.hpp l.504-623; `o` and `og` are the orders of the loads of the write index in `back()` and `good()`. -/
def dataRequest {P : Type} (T : PayloadType P) (k : Lookup) (geo : GeoId) (fragType n : Nat) (o og : Order) (dr : Request) :
    Prog P (Result P) := do
  let hdr := createHeader geo fragType dr
  let bad := { hdr with dataNotFound := true }
  let c := noCount
  let occ ← occupancy n
  if occ ≠ 0 then
    let pf ← front
    let pb ← back n o
    let first ← derefPtr pf
    let last ← derefPtr pb
    if T.ts first ≤ dr.wBegin ∧ dr.wEnd ≤ T.ts last then
      .err fun hasErr => do
        let it ← lookup T k n hasErr dr.wBegin
        if it = endIdx then
          .marker fun running =>
            if running then .ret ⟨.notYet, none, { c with delayed := c.delayed + 1 }⟩
            else .ret ⟨.notFound, some ⟨bad, []⟩, { c with delayed := c.delayed + 1, bad := c.bad + 1 }⟩
        else
          let fs ← extract T og n dr.wBegin dr.wEnd (n + 1) it
          pure ⟨.found, some ⟨hdr, fs⟩, { c with found := c.found + 1 }⟩
    else if T.ts first > dr.wBegin then
      pure ⟨.notFound, some ⟨bad, []⟩, { c with oldWindow := c.oldWindow + 1, bad := c.bad + 1 }⟩
    else if T.ts last < dr.wEnd then
      .marker fun running =>
        if running then .ret ⟨.notYet, none, { c with delayed := c.delayed + 1 }⟩
        else .ret ⟨.notFound, some ⟨bad, []⟩, { c with delayed := c.delayed + 1, bad := c.bad + 1 }⟩
    else
      pure ⟨.notFound, some ⟨bad, []⟩, { c with uncategorized := c.uncategorized + 1, bad := c.bad + 1 }⟩
  else
    pure ⟨.notFound, some ⟨bad, []⟩, { c with bad := c.bad + 1 }⟩

/-! ### The threads -/

/-- Number of the payload in slot `i`, if there is one: the first from `popped` on that goes there
(IterableQueueModel.hpp l.230-248). -/
def number (n popped i : Nat) : Nat :=
  popped + if popped % n ≤ i then i - popped % n else i + n - popped % n

/-- A running request: what is left to do, the newest publication seen and the newest synchronised with. Ghosts: the
request, and what was published and passed on by the mutex at its begin (DefaultRequestHandlerModel.hpp l.264-277). -/
structure Task (P : Type) where
  prog : Prog P (Result P)
  seen : Nat
  sync : Nat
  dr : Request
  from_ : Nat
  len : Nat

/-- An answered request (ghost): result, number of the oldest stored payload, and what was published at the end.
DefaultRequestHandlerModel.hpp l.264-277. -/
structure Done (P : Type) where
  result : Result P
  dr : Request
  from_ : Nat
  len : Nat
  first : Nat
  last : Nat

/-- The buffer, the view passed on by `m_cv_mutex`, the running and the answered requests, and whether something
undefined has happened. DefaultRequestHandlerModel.hpp l.625-647. -/
structure Sys (P : Type) where
  pub : List P
  popped : Nat
  view : Nat
  tasks : Nat → Option (Task P)
  done : List (Done P)
  bad : Bool

/-- Nothing stored, no request. IterableQueueModel.hpp l.92-120. -/
def Sys.init (P : Type) : Sys P := ⟨[], 0, 0, fun _ => none, [], false⟩

/-- Loads of the write index (IterableQueueModel.hpp l.315-419): the hardware lets relaxed loads synchronise; it lets
loads return the newest value; the order of the load in `back()`, and of the one in `good()`, relaxed in the code (l.373, 408-409). The requests that may be
made (DefaultRequestHandlerModel.hpp l.264); the code admits all. -/
structure Hw where
  strong : Bool
  fresh : Bool
  back : Order := .relaxed
  good : Order := .relaxed
  made : Request → Prop := fun _ => True

/-- Every request is made (DefaultRequestHandlerModel.hpp l.264). -/
def anyRequest : Request → Prop := fun _ => True

/-- One thread's entry replaced (DefaultRequestHandlerModel.hpp l.264). -/
def setTask {P : Type} (f : Nat → Option (Task P)) (t : Nat) (x : Option (Task P)) : Nat → Option (Task P) :=
  fun u => if u = t then x else f u

/-- The same in the state (DefaultRequestHandlerModel.hpp l.264). -/
def Sys.put {P : Type} (s : Sys P) (t : Nat) (x : Task P) : Sys P := { s with tasks := setTask s.tasks t (some x) }

/-- What the registry may answer given the contents (DefaultRequestHandlerModel.hpp l.534): no error only if there is no
gap. -/
def Told {P : Type} (T : PayloadType P) (k : Lookup) (contents : List P) (b : Bool) : Prop :=
  match k with
  | .binary => True
  | .fixed nf => b = false → GapFree T.ts (T.tick * nf) contents

/-- One step of any thread. `arr` says which sequences of payloads may arrive. -/
inductive Step {P : Type} (T : PayloadType P) (k : Lookup) (geo : GeoId) (ft n : Nat) (hw : Hw) (arr : List P → Prop) :
    Sys P → Sys P → Prop where
  /-- The consumer writes a payload: IterableQueueModel.hpp l.230-248. A full buffer refuses it. -/
  | publish (s : Sys P) (p : P) (ha : arr (s.pub ++ [p])) (hc : s.pub.length + 1 < s.popped + n) :
      Step T k geo ft n hw arr s { s with pub := s.pub ++ [p] }
  /-- A cleanup (DefaultRequestHandlerModel.hpp l.250-259, 415-438): some payloads it has seen are removed. -/
  | cleanup (s : Sys P) (j m : Nat) (h : ∀ t, s.tasks t = none) (h1 : s.view ≤ j) (h2 : j ≤ s.pub.length)
      (h3 : s.popped ≤ m) (h4 : m ≤ j) :
      Step T k geo ft n hw arr s { s with popped := m, view := j }
  /-- A pool thread begins with a request (l.264-270). -/
  | enter (s : Sys P) (t : Nat) (dr : Request) (h : s.tasks t = none)
      (hr : hw.made dr) :
      Step T k geo ft n hw arr s
        (s.put t ⟨dataRequest T k geo ft n hw.back hw.good dr, s.view, s.view, dr, s.view, s.pub.length⟩)
  /-- Load of the write index. -/
  | loadW (s : Sys P) (t : Nat) (x : Task P) (o : Order) (f : Nat → Prog P (Result P)) (j : Nat)
      (h : s.tasks t = some x) (hp : x.prog = .loadW o f) (h1 : x.seen ≤ j) (h2 : j ≤ s.pub.length)
      (h3 : hw.fresh = true → j = s.pub.length) :
      Step T k geo ft n hw arr s
        (s.put t { x with
          prog := f (j % n), seen := j,
          sync := if o = .acquire ∨ hw.strong = true then max x.sync j else x.sync })
  /-- Load of the read index. -/
  | loadR (s : Sys P) (t : Nat) (x : Task P) (f : Nat → Prog P (Result P))
      (h : s.tasks t = some x) (hp : x.prog = .loadR f) :
      Step T k geo ft n hw arr s (s.put t { x with prog := f (s.popped % n) })
  /-- A stored payload is read. -/
  | elem (s : Sys P) (t : Nat) (x : Task P) (i : Nat) (f : P → Prog P (Result P)) (p : P)
      (h : s.tasks t = some x) (hp : x.prog = .elem i f) (hi : i < n) (hs : number n s.popped i < x.sync)
      (he : s.pub[number n s.popped i]? = some p) :
      Step T k geo ft n hw arr s (s.put t { x with prog := f p })
  /-- A slot is read that holds no payload, or one whose publication the thread has not synchronised with. -/
  | race (s : Sys P) (t : Nat) (x : Task P) (i : Nat) (f : P → Prog P (Result P))
      (h : s.tasks t = some x) (hp : x.prog = .elem i f) (hs : ¬ (i < n ∧ number n s.popped i < x.sync)) :
      Step T k geo ft n hw arr s { s with bad := true }
  /-- The error registry is asked. -/
  | err (s : Sys P) (t : Nat) (x : Task P) (f : Bool → Prog P (Result P)) (b : Bool)
      (h : s.tasks t = some x) (hp : x.prog = .err f) (hb : Told T k (s.pub.drop s.popped) b) :
      Step T k geo ft n hw arr s (s.put t { x with prog := f b })
  /-- Load of the run marker. -/
  | marker (s : Sys P) (t : Nat) (x : Task P) (f : Bool → Prog P (Result P)) (b : Bool)
      (h : s.tasks t = some x) (hp : x.prog = .marker f) :
      Step T k geo ft n hw arr s (s.put t { x with prog := f b })
  /-- Something undefined, or a loop that does not end. -/
  | fail (s : Sys P) (t : Nat) (x : Task P) (h : s.tasks t = some x) (hp : x.prog = .fail) :
      Step T k geo ft n hw arr s { s with bad := true }
  /-- The end of a request (l.272-277). -/
  | leave (s : Sys P) (t : Nat) (x : Task P) (r : Result P) (h : s.tasks t = some x) (hp : x.prog = .ret r) :
      Step T k geo ft n hw arr s { s with
        tasks := setTask s.tasks t none, view := max s.view x.sync,
        done := s.done ++ [⟨r, x.dr, x.from_, x.len, s.popped, s.pub.length⟩] }

/-- States that can occur. -/
inductive Reach {P : Type} (T : PayloadType P) (k : Lookup) (geo : GeoId) (ft n : Nat) (hw : Hw)
    (arr : List P → Prop) : Sys P → Prop where
  | init : Reach T k geo ft n hw arr (Sys.init P)
  | step {s s' : Sys P} (h : Reach T k geo ft n hw arr s) (st : Step T k geo ft n hw arr s s') :
      Reach T k geo ft n hw arr s'

end Verif.ConcReq
