import Verif.ConcReqModel
import Verif.ProtocolModel
/-
Requests, recording lookups, cleanups and arrivals together, with the protocol by which cleanups and requests exclude each
other (module Protocol: include/readout/models/DefaultRequestHandlerModel.hpp l.211-223, 250-259, 266-277) and the accesses to the
buffer in between (module ConcReq: l.504-623, IterableQueueModel.hpp l.230-419). In module ConcReq a cleanup is allowed when no
request is running; here it takes place whenever the cleanup thread has reached l.255, one payload or several at a time, and
nothing is said about requests.

What a thread has seen of the buffer is passed on when it releases `m_cv_mutex` and received when it takes it.
-/
namespace Verif.ConcProt
open Verif.DataReq Verif.ConcReq

/-- The protocol's state and the buffer with the running requests; thread `i` of the one is thread `i` of the other.
DefaultRequestHandlerModel.hpp l.625-647. -/
structure St (P : Type) where
  prot : Protocol.St
  sys : Sys P

/-- `m` threads, nothing stored. DefaultRequestHandlerModel.hpp l.144-168. -/
def St.init (P : Type) (m : Nat) : St P := ⟨Protocol.St.init m, Sys.init P⟩

/-- What is done to the protocol when a thread enters, DefaultRequestHandlerModel.hpp l.268-270. -/
def enterProt (p : Protocol.St) (i : Nat) : Protocol.St :=
  { p with threads := p.threads.set i .entered, mutex := none, running := p.running + 1 }

/-- What is done to the protocol when a thread leaves, DefaultRequestHandlerModel.hpp l.275-276. -/
def leaveProt (p : Protocol.St) (i : Nat) : Protocol.St :=
  { p with threads := p.threads.set i .left, mutex := none, running := p.running - 1 }

/-- One step. DefaultRequestHandlerModel.hpp l.211-223, 250-277, 415-438. -/
inductive Step {P : Type} (T : PayloadType P) (k : Lookup) (geo : GeoId) (ft n : Nat) (hw : Hw) (arr : List P → Prop) :
    St P → St P → Prop where
  /-- The consumer writes a payload, IterableQueueModel.hpp l.230-248. -/
  | publish (s : St P) (p : P) (ha : arr (s.sys.pub ++ [p])) (hc : s.sys.pub.length + 1 < s.sys.popped + n) :
      Step T k geo ft n hw arr s { s with sys := { s.sys with pub := s.sys.pub ++ [p] } }
  /-- The cleanup thread removes payloads it has seen, l.255, 415-438. -/
  | clean (s : St P) (j m : Nat) (h : s.prot.cleaner = .cleaning) (h1 : s.sys.view ≤ j) (h2 : j ≤ s.sys.pub.length)
      (h3 : s.sys.popped ≤ m) (h4 : m ≤ j) :
      Step T k geo ft n hw arr s { s with sys := { s.sys with popped := m, view := j } }
  /-- A request enters, l.268-270. -/
  | enter (s : St P) (i : Nat) (dr : Request) (h : s.prot.threads[i]? = some .test) (hf : s.prot.flag = false)
      (hr : hw.made dr) :
      Step T k geo ft n hw arr s
        ⟨enterProt s.prot i,
          s.sys.put i ⟨dataRequest T k geo ft n hw.back hw.good dr, s.sys.view, s.sys.view, dr, s.sys.view, s.sys.pub.length⟩⟩
  /-- The recording thread enters, l.212-215. -/
  | enterRec (s : St P) (i : Nat) (h : s.prot.threads[i]? = some .test) (hf : s.prot.flag = false) :
      Step T k geo ft n hw arr s { s with prot := enterProt s.prot i }
  /-- A running request goes on, l.504-623. -/
  | work (s : St P) (i : Nat) (sys' : Sys P) (h : s.prot.threads[i]? = some .active)
      (st : ConcReq.Step T k geo ft n hw arr s.sys sys') (h1 : sys'.pub = s.sys.pub) (h2 : sys'.popped = s.sys.popped)
      (h3 : sys'.view = s.sys.view) (h4 : s.sys.tasks i ≠ none) (h5 : sys'.tasks i ≠ none)
      (h6 : ∀ u, u ≠ i → sys'.tasks u = s.sys.tasks u) : Step T k geo ft n hw arr s { s with sys := sys' }
  /-- It has come to its end, l.272; for the recording thread, l.218. -/
  | served (s : St P) (i : Nat) (h : s.prot.threads[i]? = some .active)
      (hx : ∀ x, s.sys.tasks i = some x → ∃ r, x.prog = .ret r) :
      Step T k geo ft n hw arr s { s with prot := { s.prot with threads := s.prot.threads.set i .wantOut } }
  /-- A request leaves, l.275-276. -/
  | leave (s : St P) (i : Nat) (x : ConcReq.Task P) (r : Result P) (h : s.prot.threads[i]? = some .out)
      (ht : s.sys.tasks i = some x) (hp : x.prog = .ret r) :
      Step T k geo ft n hw arr s ⟨leaveProt s.prot i,
        { s.sys with tasks := setTask s.sys.tasks i none, view := max s.sys.view x.sync,
                     done := s.sys.done ++ [⟨r, x.dr, x.from_, x.len, s.sys.popped, s.sys.pub.length⟩] }⟩
  /-- The recording thread leaves, l.220-223. -/
  | leaveRec (s : St P) (i : Nat) (h : s.prot.threads[i]? = some .out) (ht : s.sys.tasks i = none) :
      Step T k geo ft n hw arr s { s with prot := leaveProt s.prot i }
  /-- The other steps of the protocol: mutex, waiting, notifications, the flag; l.211-223, 250-277. -/
  | prot (s : St P) (p : Protocol.St) (st : Protocol.Own s.prot p ∨ Protocol.EnvStep s.prot p)
      (hr : p.running = s.prot.running)
      (ha : ∀ i : Nat, s.prot.threads[i]? = some .active → p.threads[i]? = some .active) :
      Step T k geo ft n hw arr s { s with prot := p }

/-- States that can occur, with `m` threads of the pool and the recording. DefaultRequestHandlerModel.hpp l.144-277. -/
inductive Reach {P : Type} (T : PayloadType P) (k : Lookup) (geo : GeoId) (ft n : Nat) (hw : Hw) (arr : List P → Prop)
    (m : Nat) : St P → Prop where
  | init : Reach T k geo ft n hw arr m (St.init P m)
  | step {s s' : St P} (h : Reach T k geo ft n hw arr m s) (st : ConcProt.Step T k geo ft n hw arr s s') :
      Reach T k geo ft n hw arr m s'

end Verif.ConcProt
