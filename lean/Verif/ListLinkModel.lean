import Verif.DataReqModel
import Verif.FormatModel
/-
Links with the sorted latency buffer: the photon-detector list link (src/daphne/DAPHNEListRequestHandler.hpp)
and PACMAN (src/pacman/PACMANListRequestHandler.hpp l.36-58, which adds nothing to the default handler).
Types: src/CreateReadout.hpp l.99-107, 146-154.
-/
namespace Verif.ListLink
open Verif.DataReq

variable {P : Type}

/-- `data_request` on the sorted buffer, include/readout/models/DefaultRequestHandlerModel.hpp l.504-623.
`key` is the time of the search object after `set_first_timestamp(window_begin)` (l.532-533): the beginning of
the window for photon detectors, uninitialised memory for PACMAN. The buffer is not cleaned while the request
runs (C19); payloads arriving in between: module ConcList. -/
def request (T : PayloadType P) (geo : GeoId) (fragType : Nat) (l : List P) (key : Nat) (running : Bool)
    (c : Counters) (dr : Request) : Outcome (Result P) :=
  let hdr := createHeader geo fragType dr
  let bad := { hdr with dataNotFound := true }
  if SkipList.occupancy l ≠ 0 then
    match SkipList.front l, SkipList.back l with
    | some first, some last =>
      if T.ts first ≤ dr.wBegin ∧ dr.wEnd ≤ T.ts last then
        let rest := SkipList.fromLowerBound T.ts l key
        if rest.isEmpty then
          let c := { c with delayed := c.delayed + 1 }
          if running then .ok ⟨.notYet, none, c⟩
          else .ok ⟨.notFound, some ⟨bad, []⟩, { c with bad := c.bad + 1 }⟩
        else
          .ok ⟨.found, some ⟨hdr, extractSkip T dr.wBegin dr.wEnd rest⟩, { c with found := c.found + 1 }⟩
      else if T.ts first > dr.wBegin then
        .ok ⟨.notFound, some ⟨bad, []⟩, { c with oldWindow := c.oldWindow + 1, bad := c.bad + 1 }⟩
      else if T.ts last < dr.wEnd then
        let c := { c with delayed := c.delayed + 1 }
        if running then .ok ⟨.notYet, none, c⟩
        else .ok ⟨.notFound, some ⟨bad, []⟩, { c with bad := c.bad + 1 }⟩
      else
        .ok ⟨.notFound, some ⟨bad, []⟩,
          { c with uncategorized := c.uncategorized + 1, bad := c.bad + 1 }⟩
    | _, _ => .ub .nullDeref
  else
    .ok ⟨.notFound, some ⟨bad, []⟩, { c with bad := c.bad + 1 }⟩

/-- A run of a photon-detector list link. `l` is the buffer; `hist` (ghost) everything received, in order of
arrival; `gone` (ghost) what the cleanup discarded. include/readout/models/ReadoutModel.hpp l.228-257. -/
structure St (P : Type) where
  l : List P
  hist : List P
  gone : List P

/-- A payload arrives (ReadoutModel.hpp l.239-244), or the buffer is cleaned
(DAPHNEListRequestHandler.hpp l.57). -/
inductive Ev (P : Type) where
  | recv (p : P)
  | clean

/-- One event: `write` (ReadoutModel.hpp l.241) or `cleanup` (DAPHNEListRequestHandler.hpp l.59-99) with
the limit `m`. -/
def step (ts : P → Nat) (m : Nat) (s : St P) : Ev P → Outcome (St P)
  | .recv p => .ok { s with l := (SkipList.write ts s.l p).1, hist := s.hist ++ [p] }
  | .clean => do
    let r ← SkipList.daphneCleanup ts m s.l
    .ok { s with l := r, gone := s.gone ++ s.l.take (s.l.length - r.length) }

/-- Events of a run. ReadoutModel.hpp l.228-257, DAPHNEListRequestHandler.hpp l.59-99. -/
def run (ts : P → Nat) (m : Nat) (s : St P) : List (Ev P) → Outcome (St P)
  | [] => .ok s
  | e :: es => do
    let s' ← step ts m s e
    run ts m s' es

/-- Several payloads arrive while the cleanup runs. ReadoutModel.hpp l.241. -/
def insertAll (ts : P → Nat) : List P → List P → List P
  | l, [] => l
  | l, a :: as => insertAll ts (SkipList.write ts l a).1 as

/-- `acc.remove(*head)`, DAPHNEListRequestHandler.hpp l.81: removes the element with that key, which is no
longer the first if an older payload arrived meanwhile. -/
def removeKey (ts : P → Nat) (k : Nat) (l : List P) : List P := l.filter (fun a => decide (ts a ≠ k))

/-- The loop l.80-91 with payloads arriving during it: `arr` lists, for each round, those before the removal and
those between the removal and the reading of the new first element; once `arr` is used up none arrive.
`head` is the first element read in the round before. At most `fuel` further rounds. The difference at l.90 is of
unsigned 64-bit type. -/
def cleanLoop (ts : P → Nat) (m tail : Nat) : Nat → List (List P × List P) → Nat → List P → Outcome (List P)
  | 0, _, _, _ => .throws .hang
  | fuel + 1, arr, head, l =>
    let a := arr.headD ([], [])
    let l3 := insertAll ts (removeKey ts head (insertAll ts l a.1)) a.2
    match l3 with
    | [] => .ub .nullDeref
    | b :: rest =>
      if Search.u64 (tail + 18446744073709551616 - ts b) ≥ m then cleanLoop ts m tail fuel arr.tail (ts b) (b :: rest)
      else .ok (b :: rest)

end Verif.ListLink
