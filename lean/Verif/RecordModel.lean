import Verif.DataReqModel
/-
Raw recording from the latency buffer: the recording thread of `DefaultRequestHandlerModel::record`
(include/readout/models/DefaultRequestHandlerModel.hpp l.194-246) interleaved with the consumer
thread (writes, ReadoutModel.hpp l.240) and the cleanup thread (pops, DefaultRequestHandlerModel.hpp
l.415-438).

Granularity: the lookup l.211-223 is one step and excludes cleanups (both run under the
cleanup/request protocol, see `Verif/ProtocolModel.lean`); everything else of the recording thread
runs unprotected, one step for the loop condition (l.225) and one step for the body of the loop
(l.226-237). Each test-and-pop of a cleanup (l.425-428) is one step. File writes always succeed
(a failure is only reported, l.229). Timestamps are `Nat`: no 64-bit wrap of l.233-234.
-/
namespace Verif.Record
open Verif.Ring Verif.Search
open Verif.DataReq (PayloadType)
variable {P : Type}

/-- Nominal length of a payload, l.233-234. -/
def span (T : PayloadType P) (p : P) : Nat := T.tick * T.nf p

/-- Where the recording thread is; `it` is `chunk_iter`, `cnt` is `processed_chunks_in_loop`.
include/readout/models/DefaultRequestHandlerModel.hpp l.202-239. -/
inductive Pc where
  | start                       -- l.203
  | search                      -- l.208-223
  | test (it cnt : Nat)         -- l.225
  | body (it cnt : Nat)         -- l.226
  deriving DecidableEq

/-- Shared state during a recording. `file` lists the payloads written; `all` (ghost) lists the
payloads stored at the beginning and those accepted since.
include/readout/models/DefaultRequestHandlerModel.hpp l.194-246. -/
structure St (P : Type) where
  q : Ring P
  next : Nat       -- m_next_timestamp_to_record
  pc : Pc
  left : Nat       -- remaining iterations of a running cleanup (l.424)
  file : List P
  all : List P

/-- One step of the recording thread.
include/readout/models/DefaultRequestHandlerModel.hpp l.203-238. -/
def recStep (T : PayloadType P) (s : St P) : Outcome (St P) :=
  match s.pc with
  | .start =>
    if s.next = 0 then
      match s.q.front with
      | none => .ok { s with next := 0, pc := .search }
      | some i => do
        let a ← s.q.derefPtr (some i)
        .ok { s with next := T.ts a, pc := .search }
    else .ok { s with pc := .search }
  | .search => do
    let r ← lowerBound s.q T.ts s.next s.q.size
    match r with
    | some it => .ok { s with pc := .test it 0 }
    | none => .throws .hang
  | .test it cnt =>
    if it ≠ endIdx ∧ s.q.good it = true ∧ cnt < 1000 then .ok { s with pc := .body it cnt }
    else .ok { s with pc := .start }
  | .body it cnt => do
    let p ← s.q.deref it
    if T.ts p ≥ s.next then
      .ok { s with file := s.file ++ [p], next := T.ts p + span T p,
                   pc := .test (s.q.inc it) (cnt + 1) }
    else .ok { s with pc := .test (s.q.inc it) cnt }

/-- Steps of the three threads. `limit` = m_pop_limit_size, `toPop` = number to pop as a function of
the occupancy (l.421). Arriving payloads start at or after the nominal end of all
previous ones. -/
inductive Step (T : PayloadType P) (limit : Nat) (toPop : Nat → Nat) : St P → St P → Prop where
  | record (s s' : St P) (hp : s.pc = .search → s.left = 0) (h : recStep T s = .ok s') :
      Step T limit toPop s s'
  | arrive (s : St P) (q' : Ring P) (p : P) (b : Bool)
      (ho : ∀ a ∈ s.all, T.ts a + span T a ≤ T.ts p) (h0 : 0 < T.ts p)
      (h : s.q.write p = .ok (q', b)) :
      Step T limit toPop s { s with q := q', all := if b then s.all ++ [p] else s.all }
  | cleanStart (s : St P) (h : s.q.occupancy > limit) (hl : s.left = 0) :
      Step T limit toPop s { s with left := toPop s.q.occupancy }
  | cleanPop (s : St P) (q' : Ring P) (a : P) (n : Nat) (hl : s.left = n + 1)
      (hf : s.q.derefPtr s.q.front = .ok a) (ht : T.ts a < s.next) (h : s.q.pop 1 = .ok q') :
      Step T limit toPop s { s with q := q', left := n }
  | cleanStop (s : St P) (a : P) (n : Nat) (hl : s.left = n + 1)
      (hf : s.q.derefPtr s.q.front = .ok a) (ht : ¬ T.ts a < s.next) :
      Step T limit toPop s { s with left := 0 }

/-- States of one recording that starts (l.194-200) when the buffer holds `l`, possibly while a
cleanup with `left` iterations to go is running. -/
inductive Reach (T : PayloadType P) (limit : Nat) (toPop : Nat → Nat) : St P → Prop where
  | init (q : Ring P) (l : List P) (left : Nat) (hr : Repr q l) (hs : q.size ≤ endIdx)
      (ho : l.Pairwise (fun a b => T.ts a + span T a ≤ T.ts b)) (h0 : ∀ a ∈ l, 0 < T.ts a) :
      Reach T limit toPop ⟨q, 0, .start, left, [], l⟩
  | step (s s' : St P) (h : Reach T limit toPop s) (st : Step T limit toPop s s') :
      Reach T limit toPop s'

/-- `n` consecutive steps of the recording thread without interference.
Repeated include/readout/models/DefaultRequestHandlerModel.hpp l.203-238. -/
def recRun (T : PayloadType P) : Nat → St P → Outcome (St P)
  | 0, s => .ok s
  | n + 1, s => do
    let s' ← recStep T s
    recRun T n s'

/-- One pass of the recording loop l.208-238 over the sorted-list buffer (PACMAN, DAPHNE list), without
interference: the payloads visited from the lookup key `key` on; returns the payloads written
and the new position. For PACMAN `set_first_timestamp` does nothing
(include/readout/NDReadoutTypes.hpp l.65-68), so `key` is whatever the fresh element holds. -/
def passSkip (T : PayloadType P) (next : Nat) : List P → List P × Nat
  | [] => ([], next)
  | p :: rest =>
    if T.ts p ≥ next then
      let r := passSkip T (T.ts p + span T p) rest
      (p :: r.1, r.2)
    else passSkip T next rest

/-- A pass over the stored list `l`, l.208-238. -/
def recordSkip (T : PayloadType P) (key next : Nat) (l : List P) : List P × Nat :=
  passSkip T next ((SkipList.fromLowerBound T.ts l key).take 1000)

end Verif.Record
