import Verif.ListLinkModel
/-
A data request on a sorted-list link while payloads arrive: `data_request`,
include/readout/models/DefaultRequestHandlerModel.hpp l.504-623, on the buffer
include/readout/models/SkipListLatencyBufferModel.hpp, with every operation on the buffer at a moment of its own.

The list changes only by arrivals: the buffer is not cleaned while a request runs (C19). An arrival takes effect in two
steps: first the payload is linked into the list, then it is counted (the size of the list is a separate atomic member).
There is one consumer thread, so at most one payload is linked and not yet counted. Requests change nothing, so any
number of them may run at the same time; each is described by itself.

Simplifications: each operation of folly's list takes effect at one moment; an arrival whose time is stored already is
refused by the list and left out of the history.
-/
namespace Verif.ConcList
open Verif.DataReq

variable {P : Type}

/-- What happens to the list: contents at the beginning, the payloads accepted since in the order of arrival, and how many of
them are linked and counted at each moment. SkipListLatencyBufferModel.hpp l.96-105. -/
structure Hist (P : Type) where
  base : List P
  arr : List P
  linked : Nat → Nat
  counted : Nat → Nat

/-- The list after `k` arrivals. SkipListLatencyBufferModel.hpp l.96-105. -/
def Hist.after (h : Hist P) (ts : P → Nat) (k : Nat) : List P := ListLink.insertAll ts h.base (h.arr.take k)

/-- The list at a moment. SkipListLatencyBufferModel.hpp l.96-105. -/
def Hist.at (h : Hist P) (ts : P → Nat) (t : Nat) : List P := h.after ts (h.linked t)

/-- `occupancy()`, SkipListLatencyBufferModel.hpp l.80-88. -/
def Hist.size (h : Hist P) (t : Nat) : Nat := h.base.length + h.counted t

/-- `operator++` of the iterator at `p`: the element that follows, if any. SkipListLatencyBufferModel.hpp l.59-63. -/
def next (ts : P → Nat) (l : List P) (p : P) : Option P := l.find? (fun a => decide (ts p < ts a))

/-- The loop l.546-569, with the iterator at `p`; its `i`-th increment sees the list `view i`. At most `fuel` rounds. -/
def walk (T : PayloadType P) (b e : Nat) (view : Nat → List P) : Nat → Nat → P → Outcome (List (P × Nat))
  | 0, _, _ => .throws .hang
  | fuel + 1, i, p =>
    if T.ts p < e then
      match next T.ts (view i) p with
      | none => .ok (payloadPieces T b e p)
      | some q => do
        let rest ← walk T b e view fuel (i + 1) q
        .ok (payloadPieces T b e p ++ rest)
    else .ok []

/-- Moments of the operations of one request: size (l.514), first (l.516), last (l.517), lower bound (l.534), and the
increments of the iterator (l.567). -/
structure Times where
  size : Nat
  front : Nat
  back : Nat
  lower : Nat
  inc : Nat → Nat

/-- `data_request`, DefaultRequestHandlerModel.hpp l.504-623; `key` as in `ListLink.request`. -/
def request (T : PayloadType P) (geo : GeoId) (fragType : Nat) (h : Hist P) (tm : Times) (key : Nat) (running : Bool)
    (c : Counters) (dr : Request) : Outcome (Result P) :=
  let hdr := createHeader geo fragType dr
  let bad := { hdr with dataNotFound := true }
  if h.size tm.size ≠ 0 then
    match SkipList.front (h.at T.ts tm.front), SkipList.back (h.at T.ts tm.back) with
    | some first, some last =>
      if T.ts first ≤ dr.wBegin ∧ dr.wEnd ≤ T.ts last then
        match SkipList.lowerBound T.ts (h.at T.ts tm.lower) key with
        | none =>
          let c := { c with delayed := c.delayed + 1 }
          if running then .ok ⟨.notYet, none, c⟩
          else .ok ⟨.notFound, some ⟨bad, []⟩, { c with bad := c.bad + 1 }⟩
        | some p => do
          let fr ← walk T dr.wBegin dr.wEnd (fun i => h.at T.ts (tm.inc i)) (dr.wEnd + 1) 0 p
          .ok ⟨.found, some ⟨hdr, fr⟩, { c with found := c.found + 1 }⟩
      else if T.ts first > dr.wBegin then
        .ok ⟨.notFound, some ⟨bad, []⟩, { c with oldWindow := c.oldWindow + 1, bad := c.bad + 1 }⟩
      else if T.ts last < dr.wEnd then
        let c := { c with delayed := c.delayed + 1 }
        if running then .ok ⟨.notYet, none, c⟩
        else .ok ⟨.notFound, some ⟨bad, []⟩, { c with bad := c.bad + 1 }⟩
      else
        .ok ⟨.notFound, some ⟨bad, []⟩,
          { c with uncategorized := c.uncategorized + 1, bad := c.bad + 1 }⟩
    | _, _ => .ub .nullDeref
  else
    .ok ⟨.notFound, some ⟨bad, []⟩, { c with bad := c.bad + 1 }⟩

end Verif.ConcList
