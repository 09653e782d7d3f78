import Verif.Basic
/-
Destruction of modules. A module owns its implementation through a `std::unique_ptr` to a base class:
`DataLinkHandler::m_readout_impl` (plugins/DataLinkHandler.hpp l.56), `FakeCardReader::m_source_emus`
(plugins/FakeCardReader.hpp l.72), `DataRecorder::recorder` (plugins/DataRecorder.hpp l.49). The
implementations own further objects as members or through pointers to their exact type. Deleting an
object through a pointer to a base class without virtual destructor is undefined behaviour
(C++ [expr.delete]). Only ownership and the choice of the destructor are modelled; members without
destructor actions are left out.
-/
namespace Verif.Destroy

/-- The classes concerned. -/
inductive Cls
  | dataLinkHandler | fakeCardReader | dataRecorder | dummyConsumer   -- plugins/*.hpp
  | readoutConcept | sourceEmulatorConcept | recorderConcept          -- include/readout/concepts/*.hpp
  | readoutModel | sourceEmulatorModel | tpEmulatorModel | recorderImpl
  | rawDataProcessor | requestHandler | latencyBuffer | errorRegistry
  | reusableThread | bufferedWriter | threadPool | fileSource
  deriving DecidableEq, Repr

mutual
/-- An object: its class and what it owns, in declaration order. E.g. ReadoutModel.hpp l.349-405. -/
inductive Obj
  | mk (cls : Cls) (owned : Owned)
/-- Owned objects, each with the static type through which it is owned (for a member, its class).
E.g. ReadoutModel.hpp l.349-405. -/
inductive Owned
  | nil
  | cons (static : Cls) (obj : Obj) (rest : Owned)
end

/-- The class of an object (C++ dynamic type; set by the constructor, e.g. CreateReadout.hpp l.63-70). -/
def Obj.cls : Obj → Cls
  | .mk c _ => c

mutual
/-- The destructor of an object: its owned objects are destroyed in reverse order of declaration, then
itself. E.g. the implicit destructor of ReadoutModel.hpp. `virt`: the classes with virtual destructor.
The result lists the objects whose destructor ran, in order. -/
def destroy (virt : Cls → Bool) : Obj → Outcome (List Cls)
  | .mk c os => do
    let l ← destroyOwned virt os
    .ok (l ++ [c])
/-- Destruction of what is owned, last first; a `delete` through the static type `s`.
E.g. DataLinkHandler.hpp l.56. -/
def destroyOwned (virt : Cls → Bool) : Owned → Outcome (List Cls)
  | .nil => .ok []
  | .cons s o rest => do
    let l1 ← destroyOwned virt rest
    if s = o.cls ∨ virt s = true then do
      let l2 ← destroy virt o
      .ok (l1 ++ l2)
    else .ub .badFree
end

/-- Virtual destructors in the code: none of the concept classes has one
(include/readout/concepts/ReadoutConcept.hpp l.21, RecorderConcept.hpp l.32, SourceEmulatorConcept.hpp
l.28). -/
def codeVirtual : Cls → Bool := fun _ => false

/-- A leaf object (e.g. include/readout/utils/ReusableThread.hpp l.37-48). -/
def leaf (c : Cls) : Obj := .mk c .nil

/-- Members of one type listed in order. E.g. ReadoutModel.hpp l.385-405. -/
def members : List Obj → Owned
  | [] => .nil
  | o :: os => .cons o.cls o (members os)

/-- `DefaultRequestHandlerModel`, members l.625-647: recording writer, recording and cleanup threads, thread
pool. -/
def requestHandler : Obj :=
  .mk .requestHandler (members [leaf .bufferedWriter, leaf .reusableThread, leaf .reusableThread,
    leaf .threadPool])

/-- A raw data processor with `n` post-processing threads, TaskRawDataProcessorModel.hpp l.150-157. -/
def processor (n : Nat) : Obj := .mk .rawDataProcessor (members (List.replicate n (leaf .reusableThread)))

/-- `ReadoutModel`, l.349-402: consumer thread, buffer, processor, handler, requester thread, registry,
timesync thread. -/
def readoutModel (n : Nat) : Obj :=
  .mk .readoutModel (members [leaf .reusableThread, leaf .latencyBuffer, processor n,
    requestHandler, leaf .reusableThread, leaf .errorRegistry, leaf .reusableThread])

/-- `DataLinkHandler` after init, plugins/DataLinkHandler.cpp init, hpp l.56. -/
def dataLinkHandler (n : Nat) : Obj :=
  .mk .dataLinkHandler (.cons .readoutConcept (readoutModel n) .nil)

/-- An emulated link, SourceEmulatorModel.hpp l.222-262: file contents and producer thread. -/
def sourceEmulator : Obj := .mk .sourceEmulatorModel (members [leaf .fileSource, leaf .reusableThread])

/-- A map of links, each through a pointer to the base class, plugins/FakeCardReader.hpp l.72. -/
def linkMap : List Obj → Owned
  | [] => .nil
  | o :: os => .cons .sourceEmulatorConcept o (linkMap os)

/-- `FakeCardReader` with its links, plugins/FakeCardReader.hpp l.72. -/
def fakeCardReader (links : List Obj) : Obj := .mk .fakeCardReader (linkMap links)

/-- `RecorderImpl`, RecorderModel.hpp l.114-131. -/
def recorderImpl : Obj := .mk .recorderImpl (members [leaf .bufferedWriter, leaf .reusableThread])

/-- `DataRecorder`, plugins/DataRecorder.hpp l.49. -/
def dataRecorder : Obj := .mk .dataRecorder (.cons .recorderConcept recorderImpl .nil)

/-- `DummyConsumer`, plugins/DummyConsumer.hpp l.45-60. -/
def dummyConsumer : Obj := .mk .dummyConsumer (members [leaf .reusableThread])

end Verif.Destroy
