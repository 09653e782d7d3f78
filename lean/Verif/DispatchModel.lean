/-
Selection of the detector data type from a queue instance name:
`createReadout` (src/CreateReadout.hpp l.53-164), `createSourceEmulator` (src/CreateSourceEmulator.hpp
l.30-84) and `DataRecorder::init` (plugins/DataRecorder.cpp l.37-84).
Only the choice of the payload type is modelled; construction of the chosen object is not.
-/
namespace Verif.Dispatch

/-- The payload types that occur as template arguments (CreateReadout.hpp l.63-152). -/
inductive DataType
  | wib | wib2 | daphne | swTp | ssp | rawTp | pacman
  deriving DecidableEq, Repr

/-- The latency buffer templates chosen next to the payload type (CreateReadout.hpp l.63-152). -/
inductive BufType
  | fixedRate | binarySearch | skipList
  deriving DecidableEq, Repr

/-- `inst.find(key) != std::string::npos`: `key` occurs in `inst`.
Used throughout src/CreateReadout.hpp l.60-158. -/
def has (key inst : List Char) : Bool :=
  match inst with
  | [] => key.isPrefixOf []
  | c :: cs => key.isPrefixOf (c :: cs) || has key cs

/-- The chain of tests of `createReadout` for one `raw_input` queue, CreateReadout.hpp l.61-160. `none`: no
test matches (also the `varsize` branch, l.155-157, which creates nothing). -/
def readoutOne (inst : List Char) : Option (DataType × BufType) :=
  if has "wib".toList inst && !has "wib2".toList inst then some (.wib, .fixedRate)
  else if has "wib2".toList inst then some (.wib2, .fixedRate)
  else if has "pds_queue".toList inst then some (.daphne, .binarySearch)
  else if has "pds_list".toList inst then some (.daphne, .skipList)
  else if has "sw_tp".toList inst then some (.swTp, .binarySearch)
  else if has "ssp".toList inst then some (.ssp, .binarySearch)
  else if has "raw_tp".toList inst then some (.rawTp, .binarySearch)
  else if has "pacman".toList inst then some (.pacman, .skipList)
  else none

/-- `createReadout`, CreateReadout.hpp l.53-164: the queues in order, each with its name and instance. -/
def createReadout : List (List Char × List Char) → Option (DataType × BufType)
  | [] => none
  | (name, inst) :: qs =>
    if name = "raw_input".toList then
      match readoutOne inst with
      | some r => some r
      | none => createReadout qs
    else createReadout qs

/-- `createSourceEmulator`, CreateSourceEmulator.hpp l.51-83. `TPEmulatorModel` sends
`RAW_WIB_TRIGGERPRIMITIVE_STRUCT` (src/wib/TPEmulatorModel.hpp). `none`: `nullptr`. -/
def emulator (inst : List Char) : Option DataType :=
  if has "wib2".toList inst then some .wib2
  else if has "wib".toList inst then some .wib
  else if has "pds".toList inst then some .daphne
  else if has "tp".toList inst then some .rawTp
  else none

/-- `DataRecorder::init`, DataRecorder.cpp l.37-84. `none`: the configuration is rejected. -/
def recorder (inst : List Char) : Option DataType :=
  if has "wib2".toList inst then some .wib2
  else if has "wib".toList inst then some .wib
  else if has "pds".toList inst then some .daphne
  else if has "pacman".toList inst then some .pacman
  else none

end Verif.Dispatch
