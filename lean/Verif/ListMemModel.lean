import Verif.ProtocolModel
/-
The memory of the sorted-list latency buffer (include/readout/models/SkipListLatencyBufferModel.hpp) as its threads use it.
The list is folly's `ConcurrentSkipList`: every operation goes through an accessor; a payload that was removed keeps its memory
as long as there are accessors, and is freed when the last one is released. `front()` and `back()` return plain pointers,
their accessor is released before they return (l.153-163).

Threads: the consumer (include/readout/models/ReadoutModel.hpp l.228-257), the cleanup thread with either cleanup
(src/daphne/DAPHNEListRequestHandler.hpp l.59-99 or DefaultRequestHandlerModel.hpp l.415-438), any number of request
threads (DefaultRequestHandlerModel.hpp l.261-305, 504-623), the recording thread (l.194-248), the thread of the waiting
requests (l.440-502), the stop command (ReadoutModel.hpp l.159-176), and any number of calls of `occupancy()`. Cleanups and
requests exclude each other by the protocol of module Protocol.

Simplifications: an operation of the list takes effect at one moment (releasing the last accessor and freeing included; folly
may also put off the freeing, which is left open here). Addresses are numbers of allocations, so memory used again counts as
different. Null pointers are in other modules (C22, C64, C82): a thread that meets one stops here. Which payloads a request or
a recording wants, and when it ends, is left open. A new list at conf (l.75-79) is not modelled.
-/
namespace Verif.ListMem

/-- Owners of accessors; `size k`: the calls of `occupancy()`. SkipListLatencyBufferModel.hpp l.81-173. -/
inductive Who where
  | consumer | cleaner | recorder | waiter | flush
  | req (i : Nat)
  | size (k : Nat)
  deriving DecidableEq

/-- The list: contents of the memory (times by address), the linked payloads in order, where removed ones point to, removed and
not yet freed, freed, number of allocations, accessors. folly/ConcurrentSkipList.h below SkipListLatencyBufferModel.hpp
l.177. -/
structure Mem where
  ts : Nat → Nat
  list : List Nat
  succ : Nat → Option Nat
  bin : List Nat
  freed : List Nat
  next : Nat
  accs : List Who

/-- A new list, SkipListLatencyBufferModel.hpp l.38-42. -/
def Mem.init : Mem := ⟨fun _ => 0, [], fun _ => none, [], [], 0, []⟩

/-- A function changed at one place (times l.101, pointers l.170 of SkipListLatencyBufferModel.hpp). -/
def upd {α : Type} (f : Nat → α) (i : Nat) (a : α) : Nat → α := fun j => if j = i then a else f j

/-- `SkipListTAcc acc(m_skip_list)`, SkipListLatencyBufferModel.hpp l.85, 100, 155, 168. -/
def Mem.acquire (x : Mem) (w : Who) : Mem := { x with accs := x.accs ++ [w] }

/-- End of the scope of an accessor, SkipListLatencyBufferModel.hpp l.87, 103, 157, 172: with the last one the removed payloads
are freed, unless this is put off. -/
def Mem.release (x : Mem) (w : Who) (later : Bool) : Mem :=
  if x.accs.erase w = [] ∧ later = false then { x with accs := [], bin := [], freed := x.freed ++ x.bin }
  else { x with accs := x.accs.erase w }

/-- The place of a new payload in the order of times. SkipListLatencyBufferModel.hpp l.101. -/
def place (ts : Nat → Nat) (a : Nat) : List Nat → List Nat
  | [] => [a]
  | b :: l => if ts a < ts b then a :: b :: l else b :: place ts a l

/-- `acc.insert`, SkipListLatencyBufferModel.hpp l.101: refused if the time is there already. -/
def Mem.insert (x : Mem) (t : Nat) : Mem :=
  if ∃ b ∈ x.list, x.ts b = t then x
  else { x with ts := upd x.ts x.next t, list := place (upd x.ts x.next t) x.next x.list, next := x.next + 1 }

/-- The payload after `a` in a list. SkipListLatencyBufferModel.hpp l.59-63. -/
def after (a : Nat) : List Nat → Option Nat
  | [] => none
  | b :: l => if a = b then l.head? else after a l

/-- `++` of an iterator at `a`: a removed payload still points to its successor of then. SkipListLatencyBufferModel.hpp
l.59-63. -/
def Mem.nextOf (x : Mem) (a : Nat) : Option Nat := if a ∈ x.list then after a x.list else x.succ a

/-- `acc.remove`, `acc.pop_back`: DAPHNEListRequestHandler.hpp l.81, SkipListLatencyBufferModel.hpp l.170. -/
def Mem.remove (x : Mem) (a : Nat) : Mem :=
  if a ∈ x.list then { x with list := x.list.erase a, bin := x.bin ++ [a], succ := upd x.succ a (after a x.list) }
  else x

/-- `acc.lower_bound`, SkipListLatencyBufferModel.hpp l.149. -/
def Mem.lower (x : Mem) (t : Nat) : Option Nat := x.list.find? (fun a => decide (t ≤ x.ts a))

/-- The consumer: idle, with an accessor and a payload of time `t`, inserted. SkipListLatencyBufferModel.hpp l.97-104. -/
inductive Cons where
  | idle
  | acc (t : Nat)
  | done

/-- The cleanup. First line: before, after. Second line, DAPHNEListRequestHandler.hpp l.66-96, all with the accessor: begun, tail
and head read (l.67-68), in the loop with the time of the tail (l.80), removed (l.81), head read again (l.87), about to end.
Third line, DefaultRequestHandlerModel.hpp l.424-435, with the number of rounds left: about to call `front()`, begun, pointer
read, accessor released, about to call `pop(1)`, begun, removed. -/
inductive Clean where
  | rest | done
  | held | ends (tail head : Nat) | loop (tts head : Nat) | again (tts : Nat) | next (tts head : Nat) | fin
  | more (n : Nat) | front (n : Nat) | got (h n : Nat) | ptr (h n : Nat) | want (n : Nat) | pop (n : Nat) | popped (n : Nat)

/-- A request, DefaultRequestHandlerModel.hpp l.514-617: before, `front()` (l.516) begun, pointer read, accessor released,
`back()` (l.517) begun, pointer read, accessor released, first time read (l.518), both read (l.519), iterator (l.534-569) with
the payloads collected, iterator gone and copying (l.617), after. -/
inductive Req where
  | rest
  | fAcc | fGot (p : Nat) | fPtr (p : Nat)
  | bAcc (p : Nat) | bGot (p q : Nat) | ptrs (p q : Nat) | second (q : Nat)
  | known
  | iter (x : Option Nat) (ps : List Nat)
  | copy (ps : List Nat)
  | done

/-- The recording, DefaultRequestHandlerModel.hpp l.200-240: not recording, at the top of the loop, `front()` (l.205) begun,
pointer read, accessor released, about to look up (l.206-216), iterator (l.217-238). -/
inductive Rec where
  | rest | top
  | fAcc | fGot (p : Nat) | fPtr (p : Nat)
  | ready
  | iter (x : Option Nat)

/-- The waiting requests, DefaultRequestHandlerModel.hpp l.446-448: elsewhere, `back()` begun, pointer read, accessor
released. -/
inductive Wait where
  | rest | acc | got (p : Nat) | ptr (p : Nat)

/-- Where a payload is read: cleanup, request, recording through the iterator, recording at l.206, waiting requests.
DefaultRequestHandlerModel.hpp l.206, 226-236, 425, 448, 518-617; DAPHNEListRequestHandler.hpp l.72-89. -/
inductive Site where
  | cleaner
  | req (i : Nat)
  | recIter
  | recFront
  | waiter
  deriving DecidableEq

/-- Everything. `faults` (ghost): reads of freed memory. Thread `i < m` of the protocol is request thread `i`, thread `m` is the
recording. DefaultRequestHandlerModel.hpp l.625-660. -/
structure St where
  mem : Mem
  prot : Protocol.St
  cons : Cons
  cl : Clean
  rq : Nat → Req
  rc : Rec
  wt : Wait
  faults : List (Site × Nat)

/-- `m` request threads, nothing stored. DefaultRequestHandlerModel.hpp l.144-168. -/
def St.init (m : Nat) : St := ⟨Mem.init, Protocol.St.init (m + 1), .idle, .rest, fun _ => .rest, .rest, .rest, []⟩

/-- Reading the payload at address `a`. E.g. DefaultRequestHandlerModel.hpp l.448. -/
def St.read (s : St) (w : Site) (a : Nat) : St :=
  if a ∈ s.mem.freed then { s with faults := s.faults ++ [(w, a)] } else s

/-- Several payloads are read, DefaultRequestHandlerModel.hpp l.617. -/
def St.reads (s : St) (w : Site) (l : List Nat) : St := l.foldl (fun s a => s.read w a) s

/-- Nobody uses the buffer: what stop has brought about when it flushes, DefaultRequestHandlerModel.hpp l.170-182,
ReadoutModel.hpp l.162-171. -/
def St.quiet (s : St) : Prop := s.cl = .rest ∧ (∀ i, s.rq i = .rest) ∧ s.rc = .rest ∧ s.wt = .rest

/-- `m_max_ts_diff`, DAPHNEListRequestHandler.hpp l.103. -/
def maxDiff : Nat := 10000000

/-- One step of one thread. `oldest`: the cleanup is the one of DAPHNEListRequestHandler.hpp, otherwise the default one.
`lazy`: freeing may be put off. -/
inductive Step (oldest lazy : Bool) (m : Nat) : St → St → Prop where
  /-- SkipListLatencyBufferModel.hpp l.85, from anywhere -/
  | sizeBegin (s : St) (k : Nat) : Step oldest lazy m s { s with mem := s.mem.acquire (.size k) }
  /-- SkipListLatencyBufferModel.hpp l.87 -/
  | sizeEnd (s : St) (k : Nat) (later : Bool) (h : .size k ∈ s.mem.accs) :
      Step oldest lazy m s { s with mem := s.mem.release (.size k) (lazy && later) }
  /-- SkipListLatencyBufferModel.hpp l.100 -/
  | consAcc (s : St) (t : Nat) (h : s.cons = .idle) :
      Step oldest lazy m s { s with mem := s.mem.acquire .consumer, cons := .acc t }
  /-- SkipListLatencyBufferModel.hpp l.101 -/
  | consInsert (s : St) (t : Nat) (h : s.cons = .acc t) : Step oldest lazy m s { s with mem := s.mem.insert t, cons := .done }
  /-- SkipListLatencyBufferModel.hpp l.103 -/
  | consEnd (s : St) (later : Bool) (h : s.cons = .done) :
      Step oldest lazy m s { s with mem := s.mem.release .consumer (lazy && later), cons := .idle }
  /-- DAPHNEListRequestHandler.hpp l.66 -/
  | dBegin (s : St) (hk : oldest = true) (hp : s.prot.cleaner = .cleaning) (h : s.cl = .rest) :
      Step oldest lazy m s { s with mem := s.mem.acquire .cleaner, cl := .held }
  /-- DAPHNEListRequestHandler.hpp l.67-68 -/
  | dEnds (s : St) (a b : Nat) (h : s.cl = .held) (ht : s.mem.list.getLast? = some a) (hh : s.mem.list.head? = some b) :
      Step oldest lazy m s { s with cl := .ends a b }
  /-- DAPHNEListRequestHandler.hpp l.94-95: nothing stored -/
  | dEmpty (s : St) (h : s.cl = .held) (hn : s.mem.list = []) : Step oldest lazy m s { s with cl := .fin }
  /-- DAPHNEListRequestHandler.hpp l.72-79, the difference is too large -/
  | dOver (s : St) (a b : Nat) (h : s.cl = .ends a b) (hd : maxDiff < s.mem.ts a - s.mem.ts b) :
      Step oldest lazy m s { (s.read .cleaner a).read .cleaner b with cl := .loop (s.mem.ts a) b }
  /-- DAPHNEListRequestHandler.hpp l.72-77, it is not -/
  | dUnder (s : St) (a b : Nat) (h : s.cl = .ends a b) (hd : s.mem.ts a - s.mem.ts b ≤ maxDiff) :
      Step oldest lazy m s { (s.read .cleaner a).read .cleaner b with cl := .fin }
  /-- DAPHNEListRequestHandler.hpp l.81: the payload is looked for by its own time -/
  | dRemove (s : St) (t b : Nat) (h : s.cl = .loop t b) :
      Step oldest lazy m s { s.read .cleaner b with mem := s.mem.remove b, cl := .again t }
  /-- DAPHNEListRequestHandler.hpp l.87 -/
  | dFirst (s : St) (t b : Nat) (h : s.cl = .again t) (hh : s.mem.list.head? = some b) :
      Step oldest lazy m s { s with cl := .next t b }
  /-- DAPHNEListRequestHandler.hpp l.89-90, 80: on -/
  | dOn (s : St) (t b : Nat) (h : s.cl = .next t b) (hd : maxDiff ≤ t - s.mem.ts b) :
      Step oldest lazy m s { s.read .cleaner b with cl := .loop t b }
  /-- DAPHNEListRequestHandler.hpp l.89-90, 80: enough -/
  | dStop (s : St) (t b : Nat) (h : s.cl = .next t b) (hd : t - s.mem.ts b < maxDiff) :
      Step oldest lazy m s { s.read .cleaner b with cl := .fin }
  /-- DAPHNEListRequestHandler.hpp l.97 -/
  | dEnd (s : St) (later : Bool) (h : s.cl = .fin) :
      Step oldest lazy m s { s with mem := s.mem.release .cleaner (lazy && later), cl := .done }
  /-- DefaultRequestHandlerModel.hpp l.421, with `n` rounds ahead -/
  | lBegin (s : St) (n : Nat) (hk : oldest = false) (hp : s.prot.cleaner = .cleaning) (h : s.cl = .rest) :
      Step oldest lazy m s { s with cl := .more n }
  /-- DefaultRequestHandlerModel.hpp l.419, 437: not above the limit any more -/
  | lSkip (s : St) (hk : oldest = false) (hp : s.prot.cleaner = .cleaning) (h : s.cl = .rest) :
      Step oldest lazy m s { s with cl := .done }
  /-- DefaultRequestHandlerModel.hpp l.425 or 435, SkipListLatencyBufferModel.hpp l.155 -/
  | lAcc (s : St) (n : Nat) (h : s.cl = .more n) : Step oldest lazy m s { s with mem := s.mem.acquire .cleaner, cl := .front n }
  /-- SkipListLatencyBufferModel.hpp l.156 -/
  | lFront (s : St) (n b : Nat) (h : s.cl = .front n) (hh : s.mem.list.head? = some b) :
      Step oldest lazy m s { s with cl := .got b n }
  /-- SkipListLatencyBufferModel.hpp l.157 -/
  | lPtr (s : St) (n b : Nat) (later : Bool) (h : s.cl = .got b n) :
      Step oldest lazy m s { s with mem := s.mem.release .cleaner (lazy && later), cl := .ptr b n }
  /-- DefaultRequestHandlerModel.hpp l.425: older than what the recording wants -/
  | lOld (s : St) (n b : Nat) (h : s.cl = .ptr b (n + 1)) : Step oldest lazy m s { s.read .cleaner b with cl := .want n }
  /-- DefaultRequestHandlerModel.hpp l.425, 429: not older; one look at the front remains (l.435) -/
  | lBreak (s : St) (n b : Nat) (h : s.cl = .ptr b (n + 1)) : Step oldest lazy m s { s.read .cleaner b with cl := .more 0 }
  /-- DefaultRequestHandlerModel.hpp l.426, SkipListLatencyBufferModel.hpp l.168 -/
  | lPop (s : St) (n : Nat) (h : s.cl = .want n) : Step oldest lazy m s { s with mem := s.mem.acquire .cleaner, cl := .pop n }
  /-- SkipListLatencyBufferModel.hpp l.170 -/
  | lRemove (s : St) (n a : Nat) (h : s.cl = .pop n) (ht : s.mem.list.getLast? = some a) :
      Step oldest lazy m s { s with mem := s.mem.remove a, cl := .popped n }
  /-- SkipListLatencyBufferModel.hpp l.172 -/
  | lAgain (s : St) (n : Nat) (later : Bool) (h : s.cl = .popped n) :
      Step oldest lazy m s { s with mem := s.mem.release .cleaner (lazy && later), cl := .more n }
  /-- DefaultRequestHandlerModel.hpp l.435 -/
  | lEnd (s : St) (b : Nat) (h : s.cl = .ptr b 0) : Step oldest lazy m s { s.read .cleaner b with cl := .done }
  /-- DefaultRequestHandlerModel.hpp l.255-258 -/
  | cleaned (s : St) (hp : s.prot.cleaner = .cleaning) (h : s.cl = .done) :
      Step oldest lazy m s { s with prot := { s.prot with cleaner := .reset }, cl := .rest }
  /-- DefaultRequestHandlerModel.hpp l.514-516 -/
  | qFront (s : St) (i : Nat) (hi : i < m) (hp : s.prot.threads[i]? = some .active) (h : s.rq i = .rest) :
      Step oldest lazy m s { s with mem := s.mem.acquire (.req i), rq := upd s.rq i .fAcc }
  /-- SkipListLatencyBufferModel.hpp l.156 -/
  | qFirst (s : St) (i p : Nat) (h : s.rq i = .fAcc) (hh : s.mem.list.head? = some p) :
      Step oldest lazy m s { s with rq := upd s.rq i (.fGot p) }
  /-- SkipListLatencyBufferModel.hpp l.157 -/
  | qFrontEnd (s : St) (i p : Nat) (later : Bool) (h : s.rq i = .fGot p) :
      Step oldest lazy m s { s with mem := s.mem.release (.req i) (lazy && later), rq := upd s.rq i (.fPtr p) }
  /-- DefaultRequestHandlerModel.hpp l.517 -/
  | qBack (s : St) (i p : Nat) (h : s.rq i = .fPtr p) :
      Step oldest lazy m s { s with mem := s.mem.acquire (.req i), rq := upd s.rq i (.bAcc p) }
  /-- SkipListLatencyBufferModel.hpp l.162 -/
  | qLast (s : St) (i p q : Nat) (h : s.rq i = .bAcc p) (ht : s.mem.list.getLast? = some q) :
      Step oldest lazy m s { s with rq := upd s.rq i (.bGot p q) }
  /-- SkipListLatencyBufferModel.hpp l.163 -/
  | qBackEnd (s : St) (i p q : Nat) (later : Bool) (h : s.rq i = .bGot p q) :
      Step oldest lazy m s { s with mem := s.mem.release (.req i) (lazy && later), rq := upd s.rq i (.ptrs p q) }
  /-- DefaultRequestHandlerModel.hpp l.518 -/
  | qOldest (s : St) (i p q : Nat) (h : s.rq i = .ptrs p q) :
      Step oldest lazy m s { s.read (.req i) p with rq := upd s.rq i (.second q) }
  /-- DefaultRequestHandlerModel.hpp l.519 -/
  | qNewest (s : St) (i q : Nat) (h : s.rq i = .second q) :
      Step oldest lazy m s { s.read (.req i) q with rq := upd s.rq i .known }
  /-- DefaultRequestHandlerModel.hpp l.534, SkipListLatencyBufferModel.hpp l.148-150 -/
  | qLower (s : St) (i t : Nat) (h : s.rq i = .known) :
      Step oldest lazy m s { s with mem := s.mem.acquire (.req i), rq := upd s.rq i (.iter (s.mem.lower t) []) }
  /-- DefaultRequestHandlerModel.hpp l.546-567: the payload is looked at and taken, or not; the iterator goes on -/
  | qWalk (s : St) (i x : Nat) (ps : List Nat) (take : Bool) (h : s.rq i = .iter (some x) ps) :
      Step oldest lazy m s { s.read (.req i) x with
                          rq := upd s.rq i (.iter (s.mem.nextOf x) (if take then ps ++ [x] else ps)) }
  /-- DefaultRequestHandlerModel.hpp l.569-570: the iterator goes out of scope -/
  | qIterEnd (s : St) (i : Nat) (x : Option Nat) (ps : List Nat) (later : Bool) (h : s.rq i = .iter x ps) :
      Step oldest lazy m s { s with mem := s.mem.release (.req i) (lazy && later), rq := upd s.rq i (.copy ps) }
  /-- DefaultRequestHandlerModel.hpp l.617 -/
  | qCopy (s : St) (i : Nat) (ps : List Nat) (h : s.rq i = .copy ps) :
      Step oldest lazy m s { s.reads (.req i) ps with rq := upd s.rq i .done }
  /-- DefaultRequestHandlerModel.hpp l.570-598, or l.605-610 for an empty buffer: nothing is taken -/
  | qNothing (s : St) (i : Nat) (h : s.rq i = .known ∨ s.rq i = .rest)
      (hp : s.prot.threads[i]? = some .active) (hi : i < m) : Step oldest lazy m s { s with rq := upd s.rq i .done }
  /-- DefaultRequestHandlerModel.hpp l.272-276 -/
  | qServed (s : St) (i : Nat) (hp : s.prot.threads[i]? = some .active) (h : s.rq i = .done) :
      Step oldest lazy m s { s with prot := { s.prot with threads := s.prot.threads.set i .wantOut }, rq := upd s.rq i .rest }
  /-- DefaultRequestHandlerModel.hpp l.194-201: a record command -/
  | rBegin (s : St) (h : s.rc = .rest) : Step oldest lazy m s { s with rc := .top }
  /-- DefaultRequestHandlerModel.hpp l.204-205 -/
  | rFront (s : St) (h : s.rc = .top) : Step oldest lazy m s { s with mem := s.mem.acquire .recorder, rc := .fAcc }
  /-- SkipListLatencyBufferModel.hpp l.156 -/
  | rFirst (s : St) (p : Nat) (h : s.rc = .fAcc) (hh : s.mem.list.head? = some p) : Step oldest lazy m s { s with rc := .fGot p }
  /-- DefaultRequestHandlerModel.hpp l.206: nothing stored -/
  | rNone (s : St) (later : Bool) (h : s.rc = .fAcc) (hn : s.mem.list = []) :
      Step oldest lazy m s { s with mem := s.mem.release .recorder (lazy && later), rc := .ready }
  /-- SkipListLatencyBufferModel.hpp l.157 -/
  | rFrontEnd (s : St) (p : Nat) (later : Bool) (h : s.rc = .fGot p) :
      Step oldest lazy m s { s with mem := s.mem.release .recorder (lazy && later), rc := .fPtr p }
  /-- DefaultRequestHandlerModel.hpp l.206 -/
  | rTime (s : St) (p : Nat) (h : s.rc = .fPtr p) : Step oldest lazy m s { s.read .recFront p with rc := .ready }
  /-- DefaultRequestHandlerModel.hpp l.203: the position is known already -/
  | rKnown (s : St) (h : s.rc = .top) : Step oldest lazy m s { s with rc := .ready }
  /-- DefaultRequestHandlerModel.hpp l.217 -/
  | rLower (s : St) (t : Nat) (h : s.rc = .ready) (hp : s.prot.threads[m]? = some .active) :
      Step oldest lazy m s { s with mem := s.mem.acquire .recorder, rc := .iter (s.mem.lower t) }
  /-- DefaultRequestHandlerModel.hpp l.219 -/
  | rServed (s : St) (x : Option Nat) (h : s.rc = .iter x) (hp : s.prot.threads[m]? = some .active) :
      Step oldest lazy m s { s with prot := { s.prot with threads := s.prot.threads.set m .wantOut } }
  /-- DefaultRequestHandlerModel.hpp l.225-236: the payload is written, the iterator goes on -/
  | rWalk (s : St) (x : Nat) (h : s.rc = .iter (some x)) (hp : s.prot.threads[m]? = some .idle) :
      Step oldest lazy m s { s.read .recIter x with rc := .iter (s.mem.nextOf x) }
  /-- DefaultRequestHandlerModel.hpp l.238 -/
  | rIterEnd (s : St) (x : Option Nat) (later : Bool) (h : s.rc = .iter x) (hp : s.prot.threads[m]? = some .idle) :
      Step oldest lazy m s { s with mem := s.mem.release .recorder (lazy && later), rc := .top }
  /-- DefaultRequestHandlerModel.hpp l.241-245 -/
  | rEnd (s : St) (h : s.rc = .top) : Step oldest lazy m s { s with rc := .rest }
  /-- DefaultRequestHandlerModel.hpp l.446 -/
  | wBack (s : St) (h : s.wt = .rest) : Step oldest lazy m s { s with mem := s.mem.acquire .waiter, wt := .acc }
  /-- SkipListLatencyBufferModel.hpp l.162 -/
  | wLast (s : St) (p : Nat) (h : s.wt = .acc) (ht : s.mem.list.getLast? = some p) : Step oldest lazy m s { s with wt := .got p }
  /-- DefaultRequestHandlerModel.hpp l.447: nothing stored -/
  | wNone (s : St) (later : Bool) (h : s.wt = .acc) (hn : s.mem.list = []) :
      Step oldest lazy m s { s with mem := s.mem.release .waiter (lazy && later), wt := .rest }
  /-- SkipListLatencyBufferModel.hpp l.163 -/
  | wBackEnd (s : St) (p : Nat) (later : Bool) (h : s.wt = .got p) :
      Step oldest lazy m s { s with mem := s.mem.release .waiter (lazy && later), wt := .ptr p }
  /-- DefaultRequestHandlerModel.hpp l.448 -/
  | wTime (s : St) (p : Nat) (h : s.wt = .ptr p) : Step oldest lazy m s { s.read .waiter p with wt := .rest }
  /-- `flush`, SkipListLatencyBufferModel.hpp l.91, 168 -/
  | fBegin (s : St) (h : s.quiet) (hf : .flush ∉ s.mem.accs) : Step oldest lazy m s { s with mem := s.mem.acquire .flush }
  /-- SkipListLatencyBufferModel.hpp l.170 -/
  | fRemove (s : St) (a : Nat) (h : s.quiet) (hf : .flush ∈ s.mem.accs) (ht : s.mem.list.getLast? = some a) :
      Step oldest lazy m s { s with mem := s.mem.remove a }
  /-- SkipListLatencyBufferModel.hpp l.172 -/
  | fEnd (s : St) (later : Bool) (h : s.quiet) (hf : .flush ∈ s.mem.accs) :
      Step oldest lazy m s { s with mem := s.mem.release .flush (lazy && later) }
  /-- Protocol steps without effect on the buffer: mutex, waiting, entering, leaving, notifications, the flag;
  DefaultRequestHandlerModel.hpp l.211-223, 250-277 -/
  | prot (s : St) (p : Protocol.St) (st : Protocol.Own s.prot p ∨ Protocol.EnvStep s.prot p)
      (ha : ∀ i : Nat, s.prot.threads[i]? = some .active → p.threads[i]? = some .active)
      (hc : s.prot.cleaner = .cleaning → p.cleaner = .cleaning) : Step oldest lazy m s { s with prot := p }

/-- States that can occur. -/
inductive Reach (oldest lazy : Bool) (m : Nat) : St → Prop where
  | init : Reach oldest lazy m (St.init m)
  | step (s s' : St) (h : Reach oldest lazy m s) (st : Step oldest lazy m s s') : Reach oldest lazy m s'

end Verif.ListMem
