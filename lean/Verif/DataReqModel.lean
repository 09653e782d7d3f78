import Verif.SearchModel
import Verif.SkipListModel
/-
`DefaultRequestHandlerModel::data_request` and fragment creation
(include/readout/models/DefaultRequestHandlerModel.hpp l.365-387, 504-623) on the ring
latency buffers.
-/
namespace Verif.DataReq
open Verif.Ring Verif.Search

/-- `dfmessages::DataRequest` fields used by the handler (l.369-374). -/
structure Request where
  trigNum : Nat
  trigTs : Nat
  wBegin : Nat
  wEnd : Nat
  run : Nat
  seq : Nat
  deriving DecidableEq

/-- `daqdataformats::GeoID`.
Set in `conf`, include/readout/models/DefaultRequestHandlerModel.hpp l.111-113. -/
structure GeoId where
  system : Nat
  region : Nat
  element : Nat
  deriving DecidableEq

/-- `FragmentHeader` fields set by the handler; `dataNotFound` is the error bit
`kDataNotFound` of `error_bits` (initially clear).
include/readout/models/DefaultRequestHandlerModel.hpp l.365-378. -/
structure Header where
  trigNum : Nat
  trigTs : Nat
  wBegin : Nat
  wEnd : Nat
  run : Nat
  seq : Nat
  geo : GeoId
  fragType : Nat
  dataNotFound : Bool
  deriving DecidableEq

/-- `create_fragment_header`, l.365-378. -/
def createHeader (geo : GeoId) (fragType : Nat) (dr : Request) : Header :=
  { trigNum := dr.trigNum, trigTs := dr.trigTs, wBegin := dr.wBegin, wEnd := dr.wEnd,
    run := dr.run, seq := dr.seq, geo := geo, fragType := fragType, dataNotFound := false }

/-- A fragment: header and the frames it carries; a frame is named by its payload and its
position in it. include/readout/models/DefaultRequestHandlerModel.hpp l.616-620. -/
structure Fragment (P : Type) where
  header : Header
  frames : List (P × Nat)

/-- `create_empty_fragment`, l.380-387. -/
def createEmpty (P : Type) (geo : GeoId) (fragType : Nat) (dr : Request) : Fragment P :=
  { header := { createHeader geo fragType dr with dataNotFound := true }, frames := [] }

/-- A payload type (`ReadoutType`): first timestamp, number of frames, timestamp of each frame,
`expected_tick_difference`; see include/readout/ReadoutTypes.hpp.
Lines 82-142 (WIB), 158-214 (WIB2), 228-284 (DAPHNE). -/
structure PayloadType (P : Type) where
  ts : P → Nat
  nf : P → Nat
  fts : P → Nat → Nat
  tick : Nat

/-- Result codes of `data_request` that can be returned.
include/readout/concepts/RequestHandlerConcept.hpp l.51-60. -/
inductive Code where
  | found | notFound | notYet
  deriving DecidableEq

/-- Operational-monitoring counters (l.681-687). -/
structure Counters where
  found : Nat
  bad : Nat
  oldWindow : Nat
  delayed : Nat
  uncategorized : Nat
  timedOut : Nat
  deriving DecidableEq

/-- Frames of one payload that go into the fragment, l.548-563: the whole payload when its first
and last frame are inside the window, otherwise the frames inside the window. -/
def payloadPieces {P : Type} (T : PayloadType P) (b e : Nat) (p : P) : List (P × Nat) :=
  if T.ts p < b ∨ T.ts p + (T.nf p - 1) * T.tick ≥ e then
    ((List.range (T.nf p)).filter (fun i => decide (T.fts p i ≥ b) && decide (T.fts p i < e))).map
      (fun i => (p, i))
  else
    (List.range (T.nf p)).map (fun i => (p, i))

/-- The extraction loop, l.546-568, from an iterator index; at most `fuel` payloads. The address
`&(*start_iter)` formed at l.567 for an exhausted iterator is not read and not modelled. -/
def extract {P : Type} (T : PayloadType P) (q : Ring P) (b e : Nat) :
    Nat → Nat → Outcome (List (P × Nat))
  | 0, _ => .throws .hang
  | fuel + 1, it =>
    if q.good it then do
      let p ← q.deref it
      if T.ts p < e then do
        let rest ← extract T q b e fuel (q.inc it)
        .ok (payloadPieces T b e p ++ rest)
      else .ok []
    else .ok []

/-- How the latency buffer looks up a timestamp: binary search, or constant-time lookup for a
fixed-rate buffer (`FixedRateQueueModel`) with `nf` frames per payload.
BinarySearchQueueModel.hpp l.33-68, FixedRateQueueModel.hpp l.33-59. -/
inductive Lookup where
  | binary
  | fixed (nf : Nat)
  deriving DecidableEq

/-- `lower_bound(request_element, has_error("MISSING_FRAMES"))`, l.534-535. -/
def lookup {P : Type} (T : PayloadType P) (k : Lookup) (q : Ring P) (hasErr : Bool) (t : Nat) :
    Outcome Nat := do
  let r ← match k with
    | .binary => lowerBound q T.ts t q.size
    | .fixed nf => fixedRateLowerBound q T.ts T.tick nf t hasErr q.size
  match r with
  | some i => .ok i
  | none => .throws .hang

/-- Everything `data_request` returns or changes.
`rres` and the counters, include/readout/models/DefaultRequestHandlerModel.hpp l.507, 681-687. -/
structure Result (P : Type) where
  code : Code
  fragment : Option (Fragment P)
  counters : Counters

/-- `data_request`, l.504-623. `running` is the run marker read at l.588, `hasErr` the answer
of the error registry at l.534. -/
def dataRequest {P : Type} (T : PayloadType P) (k : Lookup) (geo : GeoId) (fragType : Nat)
    (q : Ring P) (hasErr running : Bool) (c : Counters) (dr : Request) : Outcome (Result P) :=
  let hdr := createHeader geo fragType dr
  let bad := { hdr with dataNotFound := true }
  if q.occupancy ≠ 0 then do
    let first ← q.derefPtr q.front
    let last ← q.derefPtr q.back
    let lastTs := T.ts first
    let newestTs := T.ts last
    if lastTs ≤ dr.wBegin ∧ dr.wEnd ≤ newestTs then do
      let it ← lookup T k q hasErr dr.wBegin
      if it = endIdx then
        let c := { c with delayed := c.delayed + 1 }
        if running then .ok ⟨.notYet, none, c⟩
        else .ok ⟨.notFound, some ⟨bad, []⟩, { c with bad := c.bad + 1 }⟩
      else do
        let fs ← extract T q dr.wBegin dr.wEnd (q.size + 1) it
        .ok ⟨.found, some ⟨hdr, fs⟩, { c with found := c.found + 1 }⟩
    else if lastTs > dr.wBegin then
      .ok ⟨.notFound, some ⟨bad, []⟩, { c with oldWindow := c.oldWindow + 1, bad := c.bad + 1 }⟩
    else if newestTs < dr.wEnd then
      let c := { c with delayed := c.delayed + 1 }
      if running then .ok ⟨.notYet, none, c⟩
      else .ok ⟨.notFound, some ⟨bad, []⟩, { c with bad := c.bad + 1 }⟩
    else
      .ok ⟨.notFound, some ⟨bad, []⟩,
        { c with uncategorized := c.uncategorized + 1, bad := c.bad + 1 }⟩
  else
    .ok ⟨.notFound, some ⟨bad, []⟩, { c with bad := c.bad + 1 }⟩

/-- The extraction loop l.546-568 over the sorted-list buffer (`SkipListLatencyBufferModel`):
the payloads visited from `lower_bound` on. -/
def extractSkip {P : Type} (T : PayloadType P) (b e : Nat) : List P → List (P × Nat)
  | [] => []
  | p :: rest => if T.ts p < e then payloadPieces T b e p ++ extractSkip T b e rest else []

/-- Found branch of `data_request` (l.531-569) on the sorted-list buffer. -/
def foundFramesSkip {P : Type} (T : PayloadType P) (l : List P) (b e : Nat) : List (P × Nat) :=
  extractSkip T b e (SkipList.fromLowerBound T.ts l b)

end Verif.DataReq
