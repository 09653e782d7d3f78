import Verif.Basic
/-
The file descriptors of a process: which object of the project opens, changes, uses and closes which
descriptor. Objects: any number of `BufferedFileWriter` (include/readout/utils/BufferedFileWriter.hpp),
`BufferedFileReader` (include/readout/utils/BufferedFileReader.hpp) and of zero-copy recording request handlers
(include/readout/models/ZeroCopyRecordingRequestHandlerModel.hpp), next to the rest of the process, which opens and
closes descriptors of its own.

Below the code of the project, part of the trusted base:
* the operating system: `open` hands out a number not in use or fails; `fcntl(F_SETFL)` replaces the status flags
  O_APPEND and O_DIRECT; calls on a number that is not open fail without effect;
* boost: a `file_descriptor_sink` or `_source` made with `close_handle` closes its descriptor when it is closed or when
  its last copy is destroyed; resetting or destroying a chain closes its device; pushing to a chain that already
  has a device throws `std::logic_error`.
Simplifications: one call at a time (the steps of a recording thread are separate calls, so that anything may happen
between them); contents of files are the subject of the modules File and ZeroCopy.
-/
namespace Verif.Fd

/-- Who opened a descriptor. BufferedFileWriter.hpp l.117, BufferedFileReader.hpp l.88,
ZeroCopyRecordingRequestHandlerModel.hpp l.53. -/
inductive Obj where
  | writer (i : Nat) | reader (i : Nat) | zc (i : Nat) | env (i : Nat)
  deriving DecidableEq

/-- An open descriptor: who opened it, for which file, and its status flags. System state below
BufferedFileWriter.hpp l.112-117. -/
structure Desc where
  owner : Obj
  path : Nat
  direct : Bool
  append : Bool
  deriving DecidableEq

/-- Kinds of system calls on a descriptor. BufferedFileWriter.hpp l.169, 182, 190; ZeroCopy… l.131-185. -/
inductive Act where
  | read | write | fcntl | close
  deriving DecidableEq

/-- A system call: by whom, of which kind, and what the number stood for at that moment. Log of the operating system
(no line of the project). -/
structure Ev where
  by_ : Obj
  act : Act
  was : Option Desc
  deriving DecidableEq

/-- The descriptor table of the process and the system calls made so far. Below BufferedFileWriter.hpp l.104-191. -/
structure Os where
  tab : Nat → Option Desc
  evs : List Ev

/-- One entry of the table replaced. Below BufferedFileWriter.hpp l.104-191. -/
def put (t : Nat → Option Desc) (n : Nat) (d : Option Desc) : Nat → Option Desc := fun m => if m = n then d else t m

/-- `::open`, e.g. BufferedFileWriter.hpp l.117: the system chooses a number or refuses; a choice that is in use is read
as a refusal. -/
def sysOpen (os : Os) (d : Desc) : Option Nat → Os × Option Nat
  | none => (os, none)
  | some n => if os.tab n = none then ({ os with tab := put os.tab n (some d) }, some n) else (os, none)

/-- `fcntl(n, F_SETFL, …)`, BufferedFileWriter.hpp l.169, 182, 190: O_DIRECT as given, O_APPEND cleared. -/
def sysFcntl (os : Os) (o : Obj) (n : Nat) (direct : Bool) : Os :=
  { tab := put os.tab n ((os.tab n).map (fun d => { d with direct := direct, append := false })),
    evs := os.evs ++ [⟨o, .fcntl, os.tab n⟩] }

/-- `::close(n)`, ZeroCopy… l.185, and below the streams. -/
def sysClose (os : Os) (o : Obj) (n : Nat) : Os :=
  { tab := put os.tab n none, evs := os.evs ++ [⟨o, .close, os.tab n⟩] }

/-- `::write` or `::read`: which file it goes to. ZeroCopy… l.131, 139, 147, 178, and below the streams. -/
def sysUse (os : Os) (o : Obj) (a : Act) (n : Nat) : Os := { os with evs := os.evs ++ [⟨o, a, os.tab n⟩] }

/-- The value of an `int m_fd`: not yet assigned (BufferedFileWriter.hpp l.200, ZeroCopy… l.196: no initialiser), -1 after
a failed open, or a number. -/
inductive Num where
  | unset | bad | num (n : Nat)
  deriving DecidableEq

/-- The result of `::open` as stored in `m_fd`, BufferedFileWriter.hpp l.117. -/
def toNum : Option Nat → Num
  | none => .bad
  | some n => .num n

/-- A system call on the number in `m_fd`: reading it unassigned is undefined behaviour (as an access to an object
outside its lifetime), -1 is refused by the system. BufferedFileWriter.hpp l.169, 182, 190. -/
def onNum (os : Os) (f : Num) (call : Nat → Os) : Outcome Os :=
  match f with
  | .unset => .ub .deadObject
  | .bad => .ok os
  | .num n => .ok (call n)

/-- How a call ended: normally, refusing (`false`), or with an exception. BufferedFileWriter.hpp l.119, 135, 157. -/
inductive Ret where
  | done | refused | threw
  deriving DecidableEq

/-! ### BufferedFileWriter -/

/-- Members of a writer, BufferedFileWriter.hpp l.193-205: `m_is_open`, `m_use_o_direct`, `m_fd`, the descriptor `m_sink`
holds, and whether the chain `m_output_stream` has a device. -/
structure W where
  isOpen : Bool
  useDirect : Bool
  fd : Num
  sink : Option Nat
  chained : Bool
  deriving DecidableEq

/-- A new writer, l.73, 199-204. -/
def W.new : W := ⟨false, true, .unset, none, false⟩

/-- `m_output_stream.reset()`, l.170: writes the rest of the buffer and closes the device. -/
def chainReset (os : Os) (o : Obj) (w : W) : Os × W :=
  match w.chained, w.sink with
  | true, some n => (sysClose (sysUse os o .write n) o n, { w with sink := none, chained := false })
  | _, _ => (os, { w with chained := false })

/-- `close`, l.165-172. -/
def wClose (os : Os) (o : Obj) (w : W) : Outcome (Os × W) := do
  let os1 ← onNum os w.fd (fun n => sysFcntl os o n false)
  let r := chainReset os1 o w
  .ok (r.1, { r.2 with isOpen := false })

/-- Assignment to `m_sink`, l.122: what it held before is closed if it still is open. -/
def dropSink (os : Os) (o : Obj) (w : W) : Os :=
  match w.sink with
  | some n => sysClose os o n
  | none => os

/-- The part of `open` after the possible `close`, l.109-141. `known`: the compression algorithm is one of the four. -/
def wOpenFresh (os : Os) (o : Obj) (w : W) (path : Nat) (known : Bool) (choice : Option Nat) : Os × W × Ret :=
  let r := sysOpen os ⟨o, path, w.useDirect, false⟩ choice
  match r.2 with
  | none => (r.1, { w with fd := .bad }, .threw)
  | some n =>
    let os2 := dropSink r.1 o w
    if known = false then (os2, { w with fd := .num n, sink := some n }, .threw)
    else if w.chained then (os2, { w with fd := .num n, sink := some n }, .threw)
    else (os2, { w with fd := .num n, sink := some n, chained := true, isOpen := true }, .done)

/-- `open`, l.99-141. -/
def wOpen (os : Os) (o : Obj) (w : W) (path : Nat) (direct known : Bool) (choice : Option Nat) :
    Outcome (Os × W × Ret) := do
  let w0 := { w with useDirect := direct }
  if w0.isOpen then do
    let r ← wClose os o w0
    .ok (wOpenFresh r.1 o r.2 path known choice)
  else .ok (wOpenFresh os o w0 path known choice)

/-- `write`, l.154-160: refused unless open; otherwise the bytes go to the device of the chain. -/
def wWrite (os : Os) (o : Obj) (w : W) : Outcome (Os × W × Ret) :=
  if w.isOpen = false then .ok (os, w, .refused)
  else match w.sink with
    | some n => .ok (sysUse os o .write n, w, .done)
    | none => .ub .nullDeref

/-- `flush`, l.178-191: not guarded by `m_is_open`. -/
def wFlush (os : Os) (o : Obj) (w : W) : Outcome (Os × W × Ret) := do
  let os1 ← onNum os w.fd (fun n => sysFcntl os o n false)
  let os2 := match w.chained, w.sink with
    | true, some n => sysUse os1 o .write n
    | _, _ => os1
  let os3 ← onNum os2 w.fd (fun n => sysFcntl os2 o n w.useDirect)
  .ok (os3, w, .done)

/-- The destructor, l.78-82, followed by those of the members; the storage may then hold a new writer. -/
def wDestroy (os : Os) (o : Obj) (w : W) : Outcome (Os × W × Ret) :=
  if w.isOpen then do
    let r ← wClose os o w
    .ok (dropSink r.1 o r.2, W.new, .done)
  else .ok (dropSink os o w, W.new, .done)

/-- Calls on a writer. BufferedFileWriter.hpp l.78-191. -/
inductive WOp where
  | open_ (path : Nat) (direct known : Bool) (choice : Option Nat)
  | write | flush | close | destroy
  deriving DecidableEq

/-- A call on a writer. BufferedFileWriter.hpp l.78-191. -/
def wCall (os : Os) (o : Obj) (w : W) : WOp → Outcome (Os × W × Ret)
  | .open_ p d k c => wOpen os o w p d k c
  | .write => wWrite os o w
  | .flush => wFlush os o w
  | .close => do let r ← wClose os o w; .ok (r.1, r.2, .done)
  | .destroy => wDestroy os o w

/-! ### BufferedFileReader -/

/-- Members of a reader, BufferedFileReader.hpp l.144-152: `m_is_open` and the descriptor of the device of the chain. -/
structure R where
  isOpen : Bool
  chain : Option Nat
  deriving DecidableEq

/-- A new reader, l.67. -/
def R.new : R := ⟨false, none⟩

/-- `open`, l.82-112. The source is a local: when `open` leaves with an exception it is destroyed, which closes the
descriptor; so it is when the chain already has a device and `push` throws. -/
def rOpen (os : Os) (o : Obj) (r : R) (path : Nat) (known : Bool) (choice : Option Nat) : Os × R × Ret :=
  let x := sysOpen os ⟨o, path, false, false⟩ choice
  match x.2 with
  | none => (x.1, r, .threw)
  | some n =>
    if known = false then (sysClose x.1 o n, r, .threw)
    else if r.chain.isSome then (sysClose x.1 o n, r, .threw)
    else (x.1, ⟨true, some n⟩, .done)

/-- `read`, l.127-133. -/
def rRead (os : Os) (o : Obj) (r : R) : Outcome (Os × R × Ret) :=
  if r.isOpen = false then .ok (os, r, .refused)
  else match r.chain with
    | some n => .ok (sysUse os o .read n, r, .done)
    | none => .ub .nullDeref

/-- `close`, l.138-142, and destruction of the chain. -/
def rClose (os : Os) (o : Obj) (r : R) : Os × R × Ret :=
  match r.chain with
  | some n => (sysClose os o n, ⟨false, none⟩, .done)
  | none => (os, ⟨false, none⟩, .done)

/-- Calls on a reader. BufferedFileReader.hpp l.67-142. -/
inductive ROp where
  | open_ (path : Nat) (known : Bool) (choice : Option Nat)
  | read | close | destroy
  deriving DecidableEq

/-- A call on a reader. BufferedFileReader.hpp l.67-142. -/
def rCall (os : Os) (o : Obj) (r : R) : ROp → Outcome (Os × R × Ret)
  | .open_ p k c => .ok (rOpen os o r p k c)
  | .read => rRead os o r
  | .close => .ok (rClose os o r)
  | .destroy => .ok (rClose os o r)

/-! ### Zero-copy recording -/

/-- Members of a zero-copy recording handler, ZeroCopyRecordingRequestHandlerModel.hpp l.196-197. -/
structure Z where
  fd : Num
  direct : Bool
  deriving DecidableEq

/-- A new handler, l.21-26, 196-197. -/
def Z.new : Z := ⟨.unset, false⟩

/-- `conf`, l.31-57: with raw recording enabled the file is opened, whatever `m_fd` held before. -/
def zConf (os : Os) (o : Obj) (z : Z) (enable : Bool) (path : Nat) (direct : Bool) (choice : Option Nat) : Os × Z × Ret :=
  if enable then
    let r := sysOpen os ⟨o, path, direct, false⟩ choice
    (r.1, ⟨toNum r.2, direct⟩, if r.2.isSome then .done else .refused)
  else (os, z, .refused)

/-- Writing a whole chunk in a recording, l.129-134, 138-143. -/
def zChunk (os : Os) (o : Obj) (z : Z) : Outcome (Os × Z × Ret) := do
  let os1 ← onNum os z.fd (fun n => sysUse os o .write n)
  .ok (os1, z, .done)

/-- Writing the last part of the buffer in a recording, l.145-148. -/
def zTail (os : Os) (o : Obj) (z : Z) : Outcome (Os × Z × Ret) := do
  let os1 ← onNum os z.fd (fun n => sysFcntl os o n false)
  let os2 ← onNum os1 z.fd (fun n => sysUse os1 o .write n)
  let os3 ← onNum os2 z.fd (fun n => sysFcntl os2 o n z.direct)
  .ok (os3, z, .done)

/-- Completing the last payload at the end of a recording, l.176-183. -/
def zLast (os : Os) (o : Obj) (z : Z) : Outcome (Os × Z × Ret) := do
  let os1 ← onNum os z.fd (fun n => sysFcntl os o n false)
  let os2 ← onNum os1 z.fd (fun n => sysUse os1 o .write n)
  .ok (os2, z, .done)

/-- The end of a recording, l.185: `m_fd` keeps its value. -/
def zEnd (os : Os) (o : Obj) (z : Z) : Outcome (Os × Z × Ret) := do
  let os1 ← onNum os z.fd (fun n => sysClose os o n)
  .ok (os1, z, .done)

/-- Calls on a zero-copy recording handler; chunk, tail, last and end are the steps of a recording. There is no
destructor that closes `m_fd`. ZeroCopyRecordingRequestHandlerModel.hpp l.31-193. -/
inductive ZOp where
  | conf (enable : Bool) (path : Nat) (direct : Bool) (choice : Option Nat)
  | chunk | tail | last | end_ | destroy
  deriving DecidableEq

/-- A call on a zero-copy recording handler. ZeroCopyRecordingRequestHandlerModel.hpp l.31-193. -/
def zCall (os : Os) (o : Obj) (z : Z) : ZOp → Outcome (Os × Z × Ret)
  | .conf e p d c => .ok (zConf os o z e p d c)
  | .chunk => zChunk os o z
  | .tail => zTail os o z
  | .last => zLast os o z
  | .end_ => zEnd os o z
  | .destroy => .ok (os, Z.new, .done)

/-! ### The process -/

/-- All objects. BufferedFileWriter.hpp l.193-205, BufferedFileReader.hpp l.144-152, ZeroCopy… l.196-197. -/
structure World where
  os : Os
  wr : Nat → W
  rd : Nat → R
  zc : Nat → Z

/-- Nothing open. BufferedFileWriter.hpp l.73, BufferedFileReader.hpp l.67, ZeroCopy… l.21-26. -/
def World.init : World := ⟨⟨fun _ => none, []⟩, fun _ => W.new, fun _ => R.new, fun _ => Z.new⟩

/-- Replacement of one object. (Bookkeeping of the model, no line of the project.) -/
def upd {α : Type} (f : Nat → α) (i : Nat) (a : α) : Nat → α := fun j => if j = i then a else f j

/-- Calls in the process. BufferedFileWriter.hpp l.78-191, BufferedFileReader.hpp l.67-142, ZeroCopy… l.31-193; the rest of
the process opens files and closes what it opened. -/
inductive Call where
  | w (i : Nat) (op : WOp)
  | r (i : Nat) (op : ROp)
  | z (i : Nat) (op : ZOp)
  | envOpen (i path : Nat) (append : Bool) (choice : Option Nat)
  | envClose (i n : Nat)
  deriving DecidableEq

/-- The object a call is made on. BufferedFileWriter.hpp l.78-191, BufferedFileReader.hpp l.67-142, ZeroCopy… l.31-193. -/
def Call.obj : Call → Obj
  | .w i _ => .writer i
  | .r i _ => .reader i
  | .z i _ => .zc i
  | .envOpen i _ _ _ => .env i
  | .envClose i _ => .env i

/-- Closing by the rest of the process: what it opened itself. (Environment, no line of the project.) -/
def envClose (os : Os) (o : Obj) (n : Nat) : Os :=
  match os.tab n with
  | some d => if d.owner = o then sysClose os o n else os
  | none => os

/-- One call. BufferedFileWriter.hpp l.78-191, BufferedFileReader.hpp l.67-142, ZeroCopy… l.31-193. -/
def exec (x : World) : Call → Outcome (World × Ret)
  | .w i op => do
    let r ← wCall x.os (.writer i) (x.wr i) op
    .ok ({ x with os := r.1, wr := upd x.wr i r.2.1 }, r.2.2)
  | .r i op => do
    let r ← rCall x.os (.reader i) (x.rd i) op
    .ok ({ x with os := r.1, rd := upd x.rd i r.2.1 }, r.2.2)
  | .z i op => do
    let r ← zCall x.os (.zc i) (x.zc i) op
    .ok ({ x with os := r.1, zc := upd x.zc i r.2.1 }, r.2.2)
  | .envOpen i p a c =>
    let r := sysOpen x.os ⟨.env i, p, false, a⟩ c
    .ok ({ x with os := r.1 }, if r.2.isSome then .done else .refused)
  | .envClose i n => .ok ({ x with os := envClose x.os (.env i) n }, .done)

end Verif.Fd
