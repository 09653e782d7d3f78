import Verif.Basic
/-
Names of worker threads (include/readout/utils/ReusableThread.hpp l.62-69 and its callers) and the script that pins threads
to CPUs by their names (scripts/performance/balancer.py l.22-76).

Simplifications: what the script prints is left out; of a process its name, command line and threads with names and CPU sets
are kept; a process or thread that disappears or is not accessible while the script runs is not modelled. From the
documentation of psutil: setting an empty list of CPUs means all of them, and an invalid CPU raises an error.
-/
namespace Verif.Pin

/-! ### Names of threads -/

/-- Decimal digit. -/
def digit (d : Nat) : Char := Char.ofNat (48 + d)

/-- Decimal digits of `n` (`%d`), ReusableThread.hpp l.66; `fuel > n` suffices. -/
def decF : Nat → Nat → List Char
  | 0, _ => []
  | fuel + 1, n => if n < 10 then [digit n] else decF fuel (n / 10) ++ [digit (n % 10)]

/-- `%d`, ReusableThread.hpp l.66. -/
def dec : Int → List Char
  | .ofNat n => decF (n + 1) n
  | .negSucc n => '-' :: decF (n + 2) (n + 1)

/-- Name before truncation, ReusableThread.hpp l.66. -/
def fullName (role : List Char) (tid : Int) : List Char := role ++ '-' :: dec tid

/-- `set_name`, ReusableThread.hpp l.62-69: a buffer of 16 characters, the last for the terminating zero. -/
def threadName (role : List Char) (tid : Int) : List Char := (fullName role tid).take 15

/-- Role of the i-th post-processing thread, include/readout/models/TaskRawDataProcessorModel.hpp l.57. -/
def postRole (i : Nat) : List Char := "postprocess-".toList ++ dec i

/-- Naming of post-processing threads, TaskRawDataProcessorModel.hpp l.54-58: in every round the last thread. `none`: a thread
that has the name it was created with. -/
def namePost (link : Int) : Nat → List (Option (List Char)) → List (Option (List Char))
  | 0, ths => ths
  | k + 1, ths => (namePost link k ths).dropLast ++ [some (threadName (postRole k) link)]

/-- `conf` of the processor of a link: `add` tasks are added (src/wib/WIBFrameProcessor.hpp l.233-234), each with a thread
(TaskRawDataProcessorModel.hpp l.117-121), then the threads are named (l.54-58). -/
def confPost (link : Int) (add : Nat) (ths : List (Option (List Char))) : List (Option (List Char)) :=
  let ths := ths ++ List.replicate add none
  namePost link ths.length ths

/-- Names of the other threads of a link: include/readout/models/ReadoutModel.hpp l.130-132,
DefaultRequestHandlerModel.hpp l.133-134. -/
def linkRoles : List (List Char) :=
  ["consumer".toList, "timesync".toList, "requests".toList, "recording".toList, "cleanup".toList]

/-! ### The script -/

structure Thread where
  name : List Char
  cpus : List Nat
  deriving DecidableEq

structure Proc where
  name : List Char
  cmdline : List (List Char)
  threads : List Thread
  deriving DecidableEq

/-- Pin file: application, thread name, CPUs. balancer.py l.31-33. -/
abbrev PinFile := List Char → Option (List Char → Option (List Nat))

/-- Python's `in` on strings, balancer.py l.40. -/
def contains (pat : List Char) : List Char → Bool
  | [] => pat.isPrefixOf []
  | c :: s => pat.isPrefixOf (c :: s) || contains pat s

/-- `cmdline[cmdline.index('--name') + 1]`, balancer.py l.68; `none`: an exception. -/
def appName : List (List Char) → Option (List Char)
  | [] => none
  | a :: rest => if a = "--name".toList then rest.head? else appName rest

/-- CPUs to set, balancer.py l.62-71: the empty list if anything goes wrong. -/
def wanted (pin : PinFile) (p : Proc) (t : Thread) : List Nat :=
  match appName p.cmdline with
  | none => []
  | some app => match pin app with
    | none => []
    | some m => (m t.name).getD []

/-- `cpu_affinity(new_aff)`, balancer.py l.73; `none`: an exception. `n` CPUs. -/
def setCpus (n : Nat) (cpus : List Nat) (t : Thread) : Option Thread :=
  if cpus = [] then some { t with cpus := List.range n }
  else if cpus.all (· < n) then some { t with cpus := cpus } else none

/-- The threads of a process, balancer.py l.56-73; `false`: ended by an exception. -/
def pinThreads (n : Nat) (pin : PinFile) (p : Proc) : List Thread → List Thread × Bool
  | [] => ([], true)
  | t :: ts =>
    match setCpus n (wanted pin p t) t with
    | none => (t :: ts, false)
    | some t' =>
      let r := pinThreads n pin p ts
      (t' :: r.1, r.2)

/-- The script, balancer.py l.38-75, for the processes of the machine. -/
def balance (n : Nat) (pin : PinFile) (target : List Char) : List Proc → List Proc × Bool
  | [] => ([], true)
  | p :: ps =>
    if contains target p.name then
      let r := pinThreads n pin p p.threads
      if r.2 then
        let q := balance n pin target ps
        ({ p with threads := r.1 } :: q.1, q.2)
      else ({ p with threads := r.1 } :: ps, false)
    else
      let q := balance n pin target ps
      (p :: q.1, q.2)

end Verif.Pin
