import Verif.EmuModel
import Verif.DispatchModel
/-
The emulator card `FakeCardReader` (plugins/FakeCardReader.cpp): its links are created by `init`
(l.48-76), configured by `do_conf` (l.87-120), released by `do_scrap` (l.122-134) and started by
`do_start` (l.135-147). A link is a `SourceEmulatorModel` (include/readout/models/SourceEmulatorModel.hpp
conf l.78-123, scrap l.127, start l.129-136) or a `TPEmulatorModel` (src/wib/TPEmulatorModel.hpp), which
agree in what is modelled here: whether the link is configured, and the file contents it replays.
The file system is a parameter: contents of a readable file, `none` if it cannot be read
(include/readout/utils/FileSourceBuffer.hpp l.41-80).
-/
namespace Verif.Card

/-- A link: `m_is_configured` and the contents of `m_file_source` (`none`: null pointer).
SourceEmulatorModel.hpp l.252-258. -/
structure Link where
  configured : Bool
  source : Option (List Nat)
  deriving DecidableEq, Repr

/-- An entry of `link_confs`: queue name and file. Used at FakeCardReader.cpp l.97-106. -/
structure Entry where
  queue : String
  file : String
  deriving DecidableEq

/-- `m_source_emus` (FakeCardReader.hpp l.72) and `m_configured` (l.68). -/
structure Card where
  links : List (String × Link)
  configured : Bool
  deriving DecidableEq, Repr

/-- The exceptions of `do_conf`, FakeCardReader.cpp l.100, 104, 111, and the one passed on from the link,
SourceEmulatorModel.hpp l.100. -/
inductive Err
  | notFound | twice | notAll | unreadable
  deriving DecidableEq, Repr

/-- `m_source_emus.find`, FakeCardReader.cpp l.98. -/
def lookup (ls : List (String × Link)) (n : String) : Option Link :=
  (ls.find? (fun x => x.1 == n)).map (·.2)

/-- Replace the link of that name, FakeCardReader.cpp l.106. -/
def update (ls : List (String × Link)) (n : String) (e : Link) : List (String × Link) :=
  ls.map (fun x => if x.1 = n then (x.1, e) else x)

/-- `init`, FakeCardReader.cpp l.48-76, on the output queues (name and instance): `none` if it throws,
because a name occurs twice or no emulator can be created (src/CreateSourceEmulator.hpp l.83). -/
def init (qs : List (String × String)) : Option Card :=
  if (qs.map (·.1)).Nodup ∧ ∀ q ∈ qs, (Dispatch.emulator q.2.toList).isSome then
    some ⟨qs.map (fun q => (q.1, ⟨false, none⟩)), false⟩
  else none

/-- `SourceEmulatorModel::conf`, l.78-123: the file buffer is made anew before reading (l.94-101). -/
def linkConf (read : String → Option (List Nat)) (e : Link) (file : String) : Link × Bool :=
  if e.configured then (e, true)
  else match read file with
    | some d => (⟨true, some d⟩, true)
    | none => (⟨false, some []⟩, false)

/-- The loop of `do_conf` over the entries, FakeCardReader.cpp l.97-107: an exception leaves what was done
so far in place. -/
def confLoop (read : String → Option (List Nat)) :
    List (String × Link) → List Entry → List (String × Link) × Option Err
  | ls, [] => (ls, none)
  | ls, c :: cs =>
    match lookup ls c.queue with
    | none => (ls, some .notFound)
    | some e =>
      if e.configured then (ls, some .twice)
      else
        let r := linkConf read e c.file
        if r.2 then confLoop read (update ls c.queue r.1) cs
        else (update ls c.queue r.1, some .unreadable)

/-- `do_conf`, FakeCardReader.cpp l.87-120: the new state and the exception, if any. -/
def doConf (read : String → Option (List Nat)) (c : Card) (es : List Entry) : Card × Option Err :=
  if c.configured then (c, none)
  else
    match confLoop read c.links es with
    | (ls, some e) => (⟨ls, false⟩, some e)
    | (ls, none) =>
      if ls.all (fun x => x.2.configured) then (⟨ls, true⟩, none)
      else (⟨ls, false⟩, some .notAll)

/-- `do_scrap`, FakeCardReader.cpp l.122-134. -/
def doScrap (c : Card) : Card :=
  ⟨c.links.map (fun x => (x.1, { x.2 with configured := false })), false⟩

/-- Starting a link: the producer takes its data from `m_file_source` (SourceEmulatorModel.hpp l.159-169),
which is not checked. `n` iterations with payload size, tick, dropouts and first timestamp given. -/
def runLink (sz tick : Nat) (drops : List Bool) (t0 n : Nat) (e : Link) : Outcome Emu.St :=
  match e.source with
  | none => .ub .nullDeref
  | some d => Emu.run ⟨d, sz, tick, drops⟩ t0 n

/-- The commands between which a card lives. FakeCardReader.cpp l.42-45. -/
inductive Cmd
  | conf (es : List Entry)
  | scrap

/-- A history of commands; exceptions go back to the caller and leave the card as it is then.
FakeCardReader.cpp l.87-134. -/
def history (read : String → Option (List Nat)) (c : Card) : List Cmd → Card
  | [] => c
  | .conf es :: cs => history read (doConf read c es).1 cs
  | .scrap :: cs => history read (doScrap c) cs

end Verif.Card
