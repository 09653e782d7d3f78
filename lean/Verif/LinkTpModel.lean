import Verif.ExpandTpg
import Verif.TpChainModel
/-
Software trigger primitives of a WIB link from the bytes of the superchunks to the TP sets: the whole of
`WIBFrameProcessor::find_collection_hits`, /repo/src/wib/WIBFrameProcessor.hpp l.369-504, called for every
superchunk. The steps are those of `Verif.Expand` (unpacking), `Verif.Tpg` (hit finding) and
`Verif.TpChain` (TP handler).

The timestamp of a superchunk is the one of the header of its first frame (l.375), decoded by detdataformats,
which is not in the repository: it is a parameter `stamp`. Writing the induction registers to a queue nobody
reads (l.381) is left out.
-/
namespace Verif.LinkTp
open Verif.Tpg (VInfo Hit)
open Verif.Expand (Mem V asInput onlineChannel expandMessage)
open Verif.TpHandler (Cfg)
open Verif.TpChain (TrigPrim Push)

/-- State of the processor between superchunks, /repo/src/wib/WIBFrameProcessor.hpp l.540-599: the state of the
hit finder (`none` while `m_first_coll`), the destination array and the TP handler. -/
structure St where
  info : Option VInfo
  dest : List Nat
  tps : TpChain.St

/-- At `start`, /repo/src/wib/WIBFrameProcessor.hpp l.93-168: `m_first_coll` is set, the handler is reset, the
array is allocated with arbitrary contents. -/
def atStart (old : List Nat) : St := ⟨none, old, TpChain.fresh⟩

/-- `find_collection_hits`, /repo/src/wib/WIBFrameProcessor.hpp l.369-504, on the superchunk at address `p`. The
state of the hit finder is set from the first superchunk (l.384-385). `junk` are the contents of the uninitialised
register arrays, `q` what the output queues do. -/
def superchunk (taps : Nat → Int) (pick : List TrigPrim → Option (TrigPrim × List TrigPrim)) (c : Cfg)
    (m : Mem) (stamp : Nat → Nat) (s : St) (p : Nat) (junk : Nat → V) (q : Push) : Outcome St := do
  let regs ← expandMessage m p junk junk
  let input := asInput regs.1
  let r ← Tpg.findHits taps (s.info.getD (VInfo.start input)) input s.dest
  let hits := r.2.2.map fun x => (onlineChannel x.1, x.2)
  let t ← TpChain.superchunk pick c s.tps (stamp p) hits q
  pure ⟨some r.1, r.2.1, t⟩

/-- The superchunks of a run, at the addresses `ps`, the first being number `k`. The postprocessing thread calls
`find_collection_hits` for each in turn, /repo/src/wib/WIBFrameProcessor.hpp l.215-237. -/
def run (taps : Nat → Int) (pick : List TrigPrim → Option (TrigPrim × List TrigPrim)) (c : Cfg) (m : Mem)
    (stamp : Nat → Nat) (junk : Nat → Nat → V) (push : Nat → Push) : Nat → St → List Nat → Outcome St
  | _, s, [] => .ok s
  | k, s, p :: ps => do
    let s ← superchunk taps pick c m stamp s p (junk k) (push k)
    run taps pick c m stamp junk push (k + 1) s ps

end Verif.LinkTp
