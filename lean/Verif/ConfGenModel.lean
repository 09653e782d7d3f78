import Verif.CardModel
import Verif.RouteModel
/-
The application that `generate` of python/readout/app_confgen.py (l.42-485) makes for a front-end type, a number
`n` of data links and a number `t` of trigger primitive links: queues, modules with their connections, the
configuration entries that name modules, queues or files, and the order of the start and stop commands; and
which of its connections the modules open. Not modelled: sorting of the queue list (l.105), the JSON rendering,
sizes and timeouts, which do not depend on names. `QueueToNetwork` is not part of the repository; that it reads
the queue named `input` is an assumption.
-/
namespace Verif.ConfGen
open Verif.Dispatch

/-- The choices of `--frontend-type`, app_confgen.py l.498-502. -/
inductive Frontend
  | wib | wib2 | pdsQueue | pdsList
  deriving DecidableEq

/-- The command line strings, app_confgen.py l.501. -/
def Frontend.str : Frontend → String
  | .wib => "wib"
  | .wib2 => "wib2"
  | .pdsQueue => "pds_queue"
  | .pdsList => "pds_list"

/-- A name with a decimal number at its end: the `f"..._{idx}"` of app_confgen.py and
`"data_requests_" + std::to_string(index)` of ReadoutModel.hpp l.215. -/
def num (p : String) (i : Nat) : String := p ++ Nat.repr i

/-- `f"{FRONTEND_TYPE}_link_{idx}"`, app_confgen.py l.70, 115, 138. -/
def link (fe : Frontend) (i : Nat) : String := num (fe.str ++ "_link_") i

/-- `range(NUMBER_OF_DATA_PRODUCERS, NUMBER_OF_DATA_PRODUCERS + NUMBER_OF_TP_PRODUCERS)`, app_confgen.py l.80-83. -/
def tpRange (n t : Nat) : List Nat := (List.range t).map (n + ·)

/-- A queue: instance name, whether single producer and single consumer (`FollySPSCQueue`), capacity.
app_confgen.py l.54-102. -/
structure QueueSpec where
  inst : String
  spsc : Bool
  capacity : Nat
  deriving DecidableEq

/-- app_confgen.py `dir="input"`, `dir="output"`. -/
inductive Dir
  | input | output
  deriving DecidableEq

/-- `app.QueueInfo`, app_confgen.py l.113 and following. -/
structure Conn where
  name : String
  inst : String
  dir : Dir
  deriving DecidableEq

/-- The plugin names, app_confgen.py l.111, 134, 164, 171, 182, 201, 209, 225. -/
inductive Plugin
  | card | handler | timeSyncConsumer | fragmentConsumer | network | erroredConsumer
  deriving DecidableEq

/-- `mspec(name, plugin, connections)`, app_confgen.py l.107-233. -/
structure Mod where
  name : String
  plugin : Plugin
  conns : List Conn
  deriving DecidableEq

/-- `queue_bare_specs`, app_confgen.py l.54-102. -/
def queues (fe : Frontend) (n t : Nat) : List QueueSpec :=
  [⟨"time_sync_q", false, 100⟩, ⟨"data_fragments_q", false, 100⟩, ⟨"errored_frames_q", false, 10000⟩] ++
  (List.range n).map (fun i => ⟨num "data_requests_" i, true, 1000⟩) ++
  (List.range n).map (fun i => ⟨link fe i, true, 100000⟩) ++
  (tpRange n t).map (fun i => ⟨num "raw_tp_link_" i, true, 100000⟩) ++
  (List.range n).map (fun i => ⟨num "sw_tp_queue_" i, true, 100000⟩) ++
  [⟨"tp_data_requests", true, 1000⟩] ++
  (List.range n).map (fun i => ⟨num "tpset_link_" i, true, 10000⟩)

/-- `fake_source`, app_confgen.py l.108-130. -/
def source (fe : Frontend) (n t : Nat) : Mod :=
  ⟨"fake_source", .card,
    (List.range n).map (fun i => ⟨num "output_" i, link fe i, .output⟩) ++
    (tpRange n t).map (fun i => ⟨num "output_" i, num "raw_tp_link_" i, .output⟩)⟩

/-- `datahandler_i`, app_confgen.py l.131-160. -/
def dataHandler (fe : Frontend) (i : Nat) : Mod :=
  ⟨num "datahandler_" i, .handler,
    [⟨"raw_input", link fe i, .input⟩, ⟨"timesync", "time_sync_q", .output⟩,
     ⟨"data_requests_0", num "data_requests_" i, .input⟩, ⟨"data_response_0", "data_fragments_q", .output⟩,
     ⟨"tp_out", num "sw_tp_queue_" i, .output⟩, ⟨"tpset_out", num "tpset_link_" i, .output⟩,
     ⟨"errored_frames", "errored_frames_q", .output⟩]⟩

/-- `timesync_consumer`, app_confgen.py l.161-167. -/
def timeSyncConsumer : Mod := ⟨"timesync_consumer", .timeSyncConsumer, [⟨"input_queue", "time_sync_q", .input⟩]⟩

/-- `fragment_consumer`, app_confgen.py l.168-178. -/
def fragmentConsumer : Mod :=
  ⟨"fragment_consumer", .fragmentConsumer, [⟨"input_queue", "data_fragments_q", .input⟩]⟩

/-- `sw_tp_handler_i`, app_confgen.py l.179-197. -/
def swTpHandler (i : Nat) : Mod :=
  ⟨num "sw_tp_handler_" i, .handler,
    [⟨"raw_input", num "sw_tp_queue_" i, .input⟩, ⟨"timesync", "time_sync_q", .output⟩,
     ⟨"requests", "tp_data_requests", .input⟩, ⟨"fragments", "data_fragments_q", .output⟩]⟩

/-- `tpset_publisher_i`, app_confgen.py l.198-205. -/
def publisher (i : Nat) : Mod :=
  ⟨num "tpset_publisher_" i, .network, [⟨"input", num "tpset_link_" i, .input⟩]⟩

/-- `raw_tp_handler_i`, app_confgen.py l.206-221. -/
def rawTpHandler (i : Nat) : Mod :=
  ⟨num "raw_tp_handler_" i, .handler,
    [⟨"raw_input", num "raw_tp_link_" i, .input⟩, ⟨"timesync", "time_sync_q", .output⟩]⟩

/-- `errored_frame_consumer`, app_confgen.py l.222-232. -/
def erroredConsumer : Mod :=
  ⟨"errored_frame_consumer", .erroredConsumer, [⟨"input_queue", "errored_frames_q", .input⟩]⟩

/-- `mod_specs`, app_confgen.py l.107-233. -/
def modules (fe : Frontend) (n t : Nat) : List Mod :=
  [source fe n t] ++ (List.range n).map (dataHandler fe) ++ [timeSyncConsumer] ++ [fragmentConsumer] ++
  (List.range n).map swTpHandler ++ (List.range n).map publisher ++ (tpRange n t).map rawTpHandler ++
  [erroredConsumer]

/-- `queue_index(args, ..).find(name)`: the connection of that name. ReadoutModel.hpp l.87, 215;
WIBFrameProcessor.hpp l.203; DummyConsumer.cpp l.38. -/
def find (cs : List Conn) (n : String) : Option Conn := cs.find? (fun c => c.name == n)

/-- Opening queues by name; a missing one makes `queue_index` throw (ReadoutModel.hpp l.87, DummyConsumer.cpp
l.38) or has an empty instance name, for which no queue exists (WIBFrameProcessor.hpp l.209). -/
def openAll (cs : List Conn) : List String → Outcome (List Conn)
  | [] => .ok []
  | n :: ns =>
    match find cs n with
    | none => .throws .configError
    | some c => do
      let r ← openAll cs ns
      .ok (c :: r)

/-- The handler that `createReadout` makes from the connections, src/CreateReadout.hpp l.53-164. -/
def handlerType (cs : List Conn) : Option DataType :=
  (createReadout (cs.map (fun c => (c.name.toList, c.inst.toList)))).map (·.1)

/-- Which numbered request and response queues are named. Numbers beyond the number of connections cannot be
reached without a gap (ReadoutModel.hpp l.215-225). -/
def numbered (cs : List Conn) : Route.Names :=
  ⟨(List.range (cs.length + 1)).filter (fun k => (find cs (num "data_requests_" k)).isSome),
   (List.range (cs.length + 1)).filter (fun k => (find cs (num "data_response_" k)).isSome)⟩

/-- The queues opened by the raw data processor: only that of the WIB opens any. WIBFrameProcessor.hpp
l.199-213. -/
def openProcessor (cs : List Conn) : DataType → Outcome (List Conn)
  | .wib => do
    let e ← openAll cs ["errored_frames"]
    .ok ((find cs "tp_out").toList ++ (find cs "tpset_out").toList ++ e)
  | _ => .ok []

/-- The queues a data link handler opens: ReadoutModel.hpp `init` l.82-101 and
`setup_request_response_queues` l.211-226; DataLinkHandler.cpp `init` throws if there is no handler type. -/
def openHandler (cs : List Conn) : Outcome (List Conn) :=
  match handlerType cs with
  | none => .throws .configError
  | some ty => do
    let ks ← Route.setup (numbered cs)
    let p ← openAll cs (ks.flatMap (fun k => [num "data_requests_" k, num "data_response_" k]))
    let b ← openAll cs ["raw_input", "timesync"]
    let x ← openProcessor cs ty
    .ok (p ++ b ++ x)

/-- The queues a module opens in `init`: FakeCardReader.cpp l.48-76, ReadoutModel.hpp l.82-101, DummyConsumer.cpp
l.35-43; the network module is assumed to open `input`. -/
def openMod (m : Mod) : Outcome (List Conn) :=
  match m.plugin with
  | .card =>
    let outs := m.conns.filter (fun c => decide (c.dir = .output))
    match Card.init (outs.map (fun c => (c.name, c.inst))) with
    | none => .throws .configError
    | some _ => .ok outs
  | .handler => openHandler m.conns
  | .network => openAll m.conns ["input"]
  | .timeSyncConsumer => openAll m.conns ["input_queue"]
  | .fragmentConsumer => openAll m.conns ["input_queue"]
  | .erroredConsumer => openAll m.conns ["input_queue"]

/-- What travels through a queue: the template argument of the source or sink. -/
inductive Payload
  | data (ty : DataType) | timeSync | request | fragment | tpSet | wibFrame
  deriving DecidableEq

/-- The template argument with which a module opens a connection: CreateSourceEmulator.hpp l.51-83 for the card;
ReadoutModel.hpp l.371-398 and WIBFrameProcessor.hpp l.204-209 for a handler; TimeSyncConsumer.cpp,
FragmentConsumer.cpp, ErroredFrameConsumer.cpp; `msg_type` in app_confgen.py l.407 for the network module. -/
def payload (m : Mod) (c : Conn) : Option Payload :=
  match m.plugin with
  | .card => (emulator c.inst.toList).map .data
  | .handler =>
    if c.name = "raw_input" then (handlerType m.conns).map .data
    else if c.name = "timesync" then some .timeSync
    else if c.name = "tp_out" then some (.data .swTp)
    else if c.name = "tpset_out" then some .tpSet
    else if c.name = "errored_frames" then some .wibFrame
    else if "data_requests_".toList.isPrefixOf c.name.toList then some .request
    else if "data_response_".toList.isPrefixOf c.name.toList then some .fragment
    else none
  | .timeSyncConsumer => some .timeSync
  | .fragmentConsumer => some .fragment
  | .network => some .tpSet
  | .erroredConsumer => some .wibFrame

/-- `link_confs` of the card, app_confgen.py l.255-277, with the file each kind of emulator reads
(`data_filename`: SourceEmulatorModel.hpp l.97; `tp_data_filename`: TPEmulatorModel.hpp l.95). -/
def linkConfs (n t : Nat) (dataFile tpFile : String) : List Card.Entry :=
  (List.range n).map (fun i => ⟨num "output_" i, dataFile⟩) ++
  (tpRange n t).map (fun i => ⟨num "output_" i, tpFile⟩)

/-- What is modelled of a handler's configuration: `region_id`, `element_id`, `output_file`,
`enable_raw_recording`, `enable_software_tpg`. app_confgen.py l.284-402. -/
structure HandlerConf where
  module : String
  region : Nat
  element : Nat
  outputFile : String
  recording : Bool
  tpg : Bool
  deriving DecidableEq

/-- `f"output_{idx}.out"`, app_confgen.py l.316, 354, 392. -/
def outFile (i : Nat) : String := num "output_" i ++ ".out"

/-- The handlers' configurations, app_confgen.py l.284-323, 324-361, 362-402. -/
def handlerConfs (n t : Nat) (tpg : Bool) : List HandlerConf :=
  (List.range n).map (fun i => ⟨num "datahandler_" i, 0, i, outFile i, true, tpg⟩) ++
  (List.range n).map (fun i => ⟨num "sw_tp_handler_" i, 0, i, outFile i, false, tpg⟩) ++
  (tpRange n t).map (fun i => ⟨num "raw_tp_handler_" i, 0, i, outFile i, false, tpg⟩)

/-- The publishers' configurations: module and port, app_confgen.py l.403-418. -/
def publisherConfs (n : Nat) : List (String × Nat) :=
  (List.range n).map (fun i => (num "tpset_publisher_" i, 5000 + i))

/-- The modules that get a configuration, app_confgen.py l.248-419. -/
def configured (n t : Nat) (tpg : Bool) : List String :=
  ["fake_source"] ++ (handlerConfs n t tpg).map (·.module) ++ (publisherConfs n).map (·.1)

/-- `conf` of the raw data processor: with software TPG the WIB processor dereferences both sinks.
WIBFrameProcessor.hpp l.215-237, sinks l.203-208. -/
def confProcessor (cs : List Conn) (tpg : Bool) : Outcome Unit :=
  match handlerType cs with
  | some .wib =>
    if tpg then
      if (find cs "tp_out").isSome ∧ (find cs "tpset_out").isSome then .ok () else .ub .nullDeref
    else .ok ()
  | some _ => .ok ()
  | none => .throws .configError

/-- A module pattern of a command: a name, or a name followed by `.*`. app_confgen.py l.430-438. -/
inductive Pat
  | exact (s : String)
  | pre (s : String)
  deriving DecidableEq

/-- Whether the pattern covers the module: full match of the regular expression. -/
def Pat.covers : Pat → String → Bool
  | .exact s, m => s == m
  | .pre s, m => s.toList.isPrefixOf m.toList

/-- The start command, app_confgen.py l.425-440. -/
def startSeq : List Pat :=
  [.pre "datahandler_", .exact "fake_source", .pre "data_recorder_", .exact "timesync_consumer",
   .exact "fragment_consumer", .pre "sw_tp_handler_", .pre "raw_tp_handler_", .pre "tpset_publisher_",
   .exact "errored_frame_consumer"]

/-- The stop command, app_confgen.py l.445-460. -/
def stopSeq : List Pat :=
  [.exact "fake_source", .pre "datahandler_", .pre "data_recorder_", .exact "timesync_consumer",
   .exact "fragment_consumer", .pre "sw_tp_handler_", .pre "raw_tp_handler_", .pre "tpset_publisher_",
   .exact "errored_frame_consumer"]

/-- The record command, app_confgen.py l.473-478. -/
def recordPat : Pat := .pre "datahandler_"

end Verif.ConfGen
