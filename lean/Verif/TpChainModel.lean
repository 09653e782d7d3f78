import Verif.TpHandlerModel
import Verif.TpgModel
/-
Software trigger primitives of a WIB link from the hits of a superchunk to the TP sets:
`WIBFrameProcessor::find_collection_hits`, /repo/src/wib/WIBFrameProcessor.hpp l.369-504, from the
decoding loop on, with `TPHandler` (/repo/include/readout/utils/TPHandler.hpp).

The hits of a superchunk come from `Verif.Tpg` (l.394-489). The channel is kept as the index used by
the hit finder; the translation to an electronics channel (l.442) is the subject of `Verif.Expand`.
Of the trigger primitive the members time_start, time_peak, time_over_threshold, adc_integral and
channel are kept (the others are constants or functions of these).
-/
namespace Verif.TpChain
open Verif.Tpg (Hit Tp tpOf)
open Verif.TpHandler (Cfg addTp trySend)

/-- `triggeralgs::TriggerPrimitive` as filled by /repo/src/wib/WIBFrameProcessor.hpp l.459-470. -/
structure TrigPrim where
  channel : Nat
  tp : Tp
  deriving DecidableEq

/-- `time_start`, by which the TP handler orders, /repo/include/readout/utils/TPHandler.hpp
l.110-121. -/
def start (t : TrigPrim) : Nat := t.tp.timeStart

/-- The TP handler with the counters `m_tps_dropped` and `m_num_hits_coll`,
/repo/src/wib/WIBFrameProcessor.hpp l.478, l.485-486, l.495. -/
structure St where
  h : TpHandler.St TrigPrim
  dropped : Nat
  found : Nat
  deriving DecidableEq

/-- At the start of a run the handler is reset and the counters are zero,
/repo/src/wib/WIBFrameProcessor.hpp l.93-168. -/
def fresh : St := ⟨TpHandler.fresh, 0, 0⟩

/-- One hit: the TP is made and offered, /repo/src/wib/WIBFrameProcessor.hpp l.440-487. -/
def addHit (c : Cfg) (timestamp : Nat) (s : St) (x : Nat × Hit) : St :=
  let r := addTp start c s.h ⟨x.1, tpOf timestamp x.2⟩ timestamp
  ⟨r.1, if r.2 then s.dropped else s.dropped + 1, s.found + 1⟩

/-- What the two output queues do during one sending attempt: whether the pushes succeed,
/repo/include/readout/utils/TPHandler.hpp l.60-65, 70-75. -/
structure Push where
  okTp : Nat → Bool
  okSet : Bool

/-- One superchunk with its timestamp and hits, /repo/src/wib/WIBFrameProcessor.hpp l.420-503. -/
def superchunk (pick : List TrigPrim → Option (TrigPrim × List TrigPrim)) (c : Cfg) (s : St)
    (timestamp : Nat) (hits : List (Nat × Hit)) (q : Push) : Outcome St := do
  let s := hits.foldl (addHit c timestamp) s
  let h ← trySend start pick c s.h timestamp q.okTp q.okSet
  pure { s with h := h }

/-- The superchunks of a run, the first being number `k`; /repo/src/wib/WIBFrameProcessor.hpp
l.369-504 called for each. -/
def chain (pick : List TrigPrim → Option (TrigPrim × List TrigPrim)) (c : Cfg) (push : Nat → Push) :
    Nat → St → List (Nat × List (Nat × Hit)) → Outcome St
  | _, s, [] => .ok s
  | k, s, x :: xs => do
    let s ← superchunk pick c s x.1 x.2 (push k)
    chain pick c push (k + 1) s xs

end Verif.TpChain
