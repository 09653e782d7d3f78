# Formal model of DUNE-DAQ/readout

Plan written before the proofs; kept current as the model grows.

## Method

* `/repo` is read as text; it is neither built nor run.
* Lean 4 model in `lean/Verif`. For each area there are up to three files:
  `Model*` (transcription of the code, each definition citing file and lines),
  `Spec*`/lemmas, and `Props*` (property theorems with a concrete example beside each).
* Undefined behaviour (null dereference, out-of-range access, read of a dead object,
  mismatched deallocation, modulo zero) is a distinct outcome, never a default value.
* Concurrency is modelled by small-step machines whose steps are single atomic
  accesses or critical sections; theorems quantify over all reachable states.
* A property that is false of the code gets a theorem proving the negation with a
  concrete witness (suffix `_false` or `_counterexample`) and a `_partial` theorem.

## Plan per property

* **C01 Ring latency buffer is a bounded FIFO**: Ring model (indices over Nat with the code's wrap rules, slots carry a lifetime flag). Refinement: abstraction function to a list, simulation for every operation, then induction over call sequences against an independent bounded-FIFO machine.
* **C02 Buffer queries agree with the contents**: Same model; each query proved equal to the query of the abstract list in every well-formed state; 32-bit/size_t width side conditions stated.
* **C03 Iterating visits every stored element once, oldest first**: Iterator model with the end sentinel; traversal with fuel proved equal to the abstract list; `good` characterised.
* **C04 Single-producer single-consumer safety under all interleavings**: Small-step two-thread machine, one step per atomic access; inductive invariant linking the index values, program counters and ghost histories.
* **C05 A successful buffer configuration leaves usable, correctly releasable storage**: Allocation option logic as a decision function returning which allocator is used; conf sequences; expected FALSE (stale pointer when reconfigured with an option combination handled by no branch; NUMA+alignment freed by numa_free). Negation with witness + `_partial` for the safe combinations.
* **C06 Popping never removes more than is stored**: popFront without the assertion; expected FALSE for pop(x) with x > occupancy; witness + `_partial` with the precondition x <= occupancy.
* **C07 Timestamp search finds the element covering a timestamp**: Line-by-line model of the loop on physical indices with a fuel-free well-founded measure; spec is the predecessor element in the abstract list.
* **C08 Fixed-rate lookup equals binary search on gap-free data**: Model of the arithmetic lookup; proved equal to the C07 specification on gap-free contents.
* **C09 Fixed-rate lookup never returns a wrong element**: Expected FALSE with gaps; witness + `_partial` (gap-free contents; boundary one past the end is not good()).
* **C10 Sorted-list latency buffer keeps unique timestamps in order and discards the oldest**: Sorted-list model of the folly skip list; pop removes newest: negation + `_partial` for the rest.
* **C11 A found data request returns exactly the requested frames**: data_request extraction loop on the ring model; spec is a filter over all frames in storage order.
* **C12 Data request classification is complete and consistent**: Decision model of data_request incl. counters; classification theorem; unreachability of the last branch. Expected FALSE for windows that end before they begin (module DataReqWindow): the fixed-rate lookup has no element for times after the newest payload.
* **C13 A found fragment is complete with respect to everything ever received**: History machine: arrivals (monotone), cleanup (prefix removal), request; inductive invariant buffer = suffix of history.
* **C14 Every fragment echoes its request**: Fragment header model with all fields; every emission path.
* **C15 The waiting-request scan neither loses nor duplicates requests**: Imperative swap-and-pop scan modelled on lists with index; spec is a partition/multiset statement.
* **C16 Parked requests are answered within a bounded number of passes**: Iterate C15 passes over arbitrary newest-timestamp sequences.
* **C17 Every data request is answered exactly once by the end of the run**: Global request life-cycle machine with stop phases; expected FALSE because a pool task may park a request after the waiting thread has exited; witness + `_partial`.
* **C18 A request is never answered twice**: Same machine; conservation invariant.
* **C19 Cleanup never overlaps a running request**: Protocol machine with mutex/condition variable, any number of request threads; inductive invariant.
* **C20 Cleanup and requests never deadlock each other**: Same machine; enabledness theorem and a terminating-measure theorem for the pending cleanup.
* **C21 Cleanup only discards the oldest data and respects its size limit**: cleanup / cleanup_check model over the abstract buffer.
* **C22 Cleanup never touches an empty buffer**: Expected FALSE: popping everything leaves a null front that is dereferenced; witness + exact characterisation `_partial`.
* **C23 Error registry reflects the latest interval per error**: Map model; history semantics.
* **C24 Missing frames in the buffer are always flagged**: Pipeline machine (timestamp check, write with possible rejection, cleanup with registry expiry); expected FALSE after overflow; witness + `_partial` for histories without rejected writes.
* **C25 Recording writes no payload twice and keeps time order**: Recording machine; expected FALSE for types with zero expected tick (PACMAN); `_partial` for positive tick.
* **C26 Recording loses no payload to cleanup**: Same machine; invariant relating recorded history, buffer and recording position.
* **C27 Recording always makes progress while data is available**: Expected FALSE: gap + cleanup; witness with a proof that the stall is permanent; `_partial` when the position is covered.
* **C28 TP sets partition time**: TPHandler model with a sorted multiset as buffer; induction over calls.
* **C29 Every accepted TP is sent exactly once or still pending**: Same model; permutation invariant.
* **C30 No TP is accepted for a window that was already sent**: Same model; characterisation.
* **C31 Stitched raw TPs account for every hit**: tp_stitch model; expected FALSE, witnesses + `_partial`.
* **C32 Hit finder pedestal state stays in range**: Per-channel integer model of frugal tracking; potential-function invariant.
* **C33 Vectorised and scalar hit finders agree**: Per-lane model of AVX2 (16-bit saturating/wrapping ops) and scalar model; simulation under stated side conditions.
* **C34 Channels do not influence each other**: 64-bit lane multiplication model; equivalence under non-negative sigma; search for a reachable violation.
* **C35 Splitting the stream into superchunks does not change the hits**: State-passing fold; append law.
* **C36 One hit per over-threshold run with the right duration**: Run-length semantics over the over-threshold bit stream.
* **C37 Decoding the hit buffer recovers every hit**: Encoder/decoder round trip.
* **C38 Frame expansion unpacks every ADC value**: Byte-level model of the shuffles/shifts/masks/blends (a register is a function from byte number to byte value); the specification gives the bit offset of every ADC value in its segment independently of any shuffle.
* **C39 Expanded registers match the channel tables**: Permutation tables copied from the source; composition proved for every frame; partition of 0..255 by kernel evaluation (finite, complete).
* **C40 Timestamps written to a payload read back unchanged**: BitVec round trips.
* **C41 Discontinuities are detected exactly**: State machine over timestamps; iff theorem.
* **C42 Errored-frame forwarding is throttled**: Counter machine; note that the configured reset frequency is ignored (hard-coded 10000): negation + `_partial`.
* **C43 Reusable worker thread runs each accepted task exactly once**: Two-thread small-step machine of ReusableThread; invariant.
* **C44 A ready worker accepts and starts work**: Expected FALSE (window between readiness and task assignment / missed notification); witness + `_partial`.
* **C45 Recorded files read back what was written**: Byte-stream model with buffer; induction. With O_DIRECT (module FileDirect) exactly: nothing is lost iff every stretch between two flushes fits into the buffer or begins on a block boundary with buffers of whole blocks; otherwise a write is refused and the file is a proper beginning.
* **C46 Opening an existing file overwrites it**: Expected FALSE (no truncation); witness + `_partial` (fresh file or new data at least as long).
* **C47 Source emulator replays the input cyclically**: Offset machine; cyclic index theorem; out-of-bounds witness for sources smaller than one element.
* **C48 Rate limiter never exceeds its rate**: Integer-time model of the limiter.
* **C49 Every received payload is accounted for**: Consume loop model; counting invariant.
* **C50 Post-processing sees stored payloads in order**: Queue/thread machine.
* **C51 Readout type selection is consistent across modules**: String dispatch functions; expected FALSE (order of tests differs); witness + `_partial`.
* **C52 Photon-detector list cleanup bounds the stored time span**: Loop over sorted list.
* **C53 Recorder module stores the popped stream**: do_work model. With O_DIRECT the exact condition on the lengths of the runs (FileDirect).
* **C54 Fake triggers request a window of fixed length in the past**: Arithmetic of run_timesync; the trigger number also as the signed int it is, exact condition for its overflow.
* **C55 Copying into a wrapped buffer preserves the data**: Expected FALSE on wrap; witness + `_partial` (no wrap).
* **C56 Zero-copy recording writes the buffer contents**: Chunk arithmetic model; expected only partial.
* **C57 Raw TP emulator replays well-formed files**: Offset machine on well-formed files; expected only partial.
* **C58 Recording never reads discarded payloads**: Recording machine of C25-C27 with one step for the loop condition and one for the body; expected FALSE (the iteration runs outside the protocol); witness, plus an exact description of what else can happen.
* **C59 Trigger primitives are sent with bounded delay**: TPHandler machine of C28 with a pacing hypothesis; necessity of the hypothesis by witness.
* **C60 Stitched trigger primitives have the right time over threshold**: tp_stitch model of C31; FALSE (mixed units); witness.
* **C61 Reconfiguring keeps post-processing single**: conf of the task processor model; FALSE from the second conf on; `_partial` for the first.
* **C62 Emulated error injection follows its rate**: Generator as function of an arbitrary random word sequence; indices in range, rates zero and one.
* **C63 A payload in a fragment or recording is complete**: sizes in bytes of each payload structure against the bytes copied.
* **C64 A data request searches from the beginning of its window**: search key construction of data_request per payload type.
* **C65 Emulated raw TP payloads are released correctly**: ownership machine of one emulator round.
* **C66 No hit without a signal**: hit-finder model of C32-C37; filter of positive taps; FALSE for wrapping filter sums.
* **C67 Frame expansion stays inside the superchunk**: memory blocks with size; loads outside are undefined behaviour; FALSE for the last superchunk of a buffer.
* **C68 Trigger primitive times are sample times**: hit time arithmetic of find_collection_hits in 64 bits.
* **C69 Software hits are reported for the right electronics channel**: composition of C38/C39 with C34-C37.
* **C70 A fragment without error is exact with respect to the whole run**: multi-run transition system over the pipeline of C24 and the request of C11-C13; invariant: contents are a suffix of what the run received and gaps are flagged.
* **C71 Runs are independent**: same system; flush at stop gives the data part, ghost run numbers the request part. With it, all requests answered when stop returns unless parked late.
* **C72 A rejected configuration has no effect**: `conf` as a function on the handler's settings; partial for the limit, counterexample through the removal fraction, with the cleanup of C21/C22.
* **C73 A full buffer is relieved by the next cleanup**: real-valued bounds on the rounded limit and removal size, then C21/C22 and `write`; draining by strong induction on the occupancy.
* **C74 Recordings go to the configured file**: fold of `conf` over any sequence of configurations.
* **C75 Monitoring reports account for everything**: transition system with any number of counting threads and ghost counts; invariant relating counters, reports and ghosts. Zeroing of the two counters by a beginning thread is one step.
* **C76 An emulator card accepts exactly the complete configurations**: loop lemma for entries (what an exception-free loop did, when it is exception-free), then iff for clean cards; scrap after any history; counterexamples after a rejection.
* **C77 Destroying a module ends its threads and closes its files**: ownership trees with static and dynamic types; mutual induction on trees; counterexample for the three modules, repair with virtual destructors.
* **C78 Disorder of PACMAN messages is counted**: the counter of the modelled stage against the number of non-increasing neighbours; false for backward steps.
* **C79 Time synchronisation messages carry the newest timestamp of the run**: transition system of the processing and time synchronisation threads over several runs with a ghost history.
* **C80 The low-pass filter of the hit finder has the designed taps**: real analysis (window and sinc positive, symmetry, exact cosines, bounds on pi and the square root of five); double precision enters as an error bound.
* **C81 Requests on sorted-list links**: full data request on the sorted list with the search key as parameter; equal to the C11/C12 specifications restricted to payloads not before the key.
* **C82 Sorted-list links keep and serve everything received**: event system with ghost history; invariant: first payload per time is stored or discarded, discarded ones are older.
* **C83 A request is answered on its own response queue**: set-up loop; transition system with requests tagged by sink, conservation law by counting.
* **C84 Trigger primitive links answer every request at once with an empty fragment**: same system with the other handler.
* **C85 Consumer modules take every packet once and count it**: transition system of module, thread and producer over runs.
* **C86 Every signal becomes exactly one trigger primitive in a set**: compose the hit finder (C36) with the TP handler (C28-C30, C59): the chain over the superchunks of a run is a history of the handler; the TPs offered for a channel are those of the runs in its sample stream, by induction over the superchunks.
* **C87 Concurrent calls on the error registry take effect one at a time**: machine with one step per access to map and mutex; forward simulation into an indivisible registry (linearizability); negation for the unlocked queries, and the same simulation with locked queries to show that the lock is all that is missing.
* **C88 The generated application is wired up consistently**: the generator as a function of front-end and numbers of links to queues, modules and configuration entries with their real names; which connections each module opens, computed by the models of the dispatch (C51), the card (C76) and the request queues (C83); a table of who reads and writes which queue as specification; negations for the requests of software trigger primitive handlers, identifiers and the order of commands.
* **C89 Trigger primitives of a link follow from the bytes of its superchunks**: the whole of `find_collection_hits` per superchunk as one function on memory, composed of the models of the frame expansion (C38, C67, C69), the hit finder (C33-C37, C66) and the TP handler (C86); specification per electronics channel from the samples in the bytes; partial because signals reported later than the timeout are dropped (counted; negation proved), the pedestal seed comes from another channel at the first superchunk (C34), each superchunk needs eight readable bytes behind it (C67), and pending primitives at the end of the run are not sent.
* **C90 Threads access shared members without data races**: every function run by a thread as lists of lock, unlock, wait and access actions; all interleavings as a transition system with lock owners, the count of running requests and the cleanup flag; an invariant (each thread keeps to a locking discipline for the rest of its function; running requests and cleanup exclude each other) gives that all races are in a short list, and a witness run for every entry of the list gives that the list is exact.
* **C91 A request that runs while data arrives answers as for the contents at one moment**: requests as programs of single loads with their memory orders; all threads as a transition system in which loads may return old values and only acquire loads synchronise; a weakest-precondition calculus that is stable under arrivals, specifications of `occupancy`, `front`, `back`, `good`, `++`, both lookups and the extraction loop, an invariant over all threads. False as the code stands because `back()` loads the write index relaxed (witness run); partial: proved if that one load has order acquire, or on hardware where relaxed loads synchronise. Windows with begin after end are covered; with the fixed-rate lookup they need an acquire load in `good()` too, or such hardware (second witness run: else they race at `good()`). Module ConcProt joins this system with the protocol of C19, so that the exclusion of cleanups and requests is derived from the mutex, counter and flag instead of assumed.
* **C92 A request to an emulated link is answered with the data of the emulator's file**: product of the emulator (C47), a bounded queue and the link over many runs (C70), driven by run control in the generated order; invariant: what was taken and what is queued is a sublist of the emulator's planned output, losses counted; exactness of fragments extended to all later payloads of the emulator. False when a payload found the raw data queue full: the fragment lacks its frames without error bit although the link has registered the gap (witness); partial: proved for runs without lost or refused payloads. The first payload of every run is reported as a gap (proved).
* **C93 Photon-detector links answer requests exactly with what was stored, over all runs**: the threads and commands of C70 with a frame processor that checks nothing; invariant: the buffer holds the last part of the payloads stored in the run (no assumption on the data), and every sent fragment is exact for every forward-going continuation of them. Proved. C24 is false of these links whatever happens (witness).
* **C94 Post-processing of a run depends on nothing but the run's payloads**: consumer, post-processing and cleanup threads with the memory of the slots (writes in two steps, a function whose slot is written meanwhile sees anything), start and stop over many runs; invariant: pointers under way are to consecutive payloads of the run, none of them removed, so none overwritten; composed with C89 for the trigger primitives. False when a cleanup may leave fewer payloads than pointers can be under way (witness; such settings are accepted); partial: settings that leave the queue's capacity and two, runs without refused payloads.
* **C95 Request statistics account for every request**: request threads as lists of counter accesses, report taking the values one by one, start zeroing them one by one; invariant: reported + unreported + still to be added = fragments sent + still to be sent; the additions of an attempt agree with C12. False: averages of reports between the two additions of a request, sums of response times of 2^31 µs, counts at the next start (witnesses).
* **C96 Trigger primitive statistics account for every primitive**: hit finding thread with one step per counter access and per push, report taking the values one by one, start zeroing them; invariant: reported + unreported + owed = what the queues took; simulation of the handler model of C28 to C30. False: a primitive refused by its queue is in no number, a set refused by its queue is not noticed, primitives held at the next start vanish (witnesses).
* **C97 The recording file holds what the record commands asked for**: composition of the recording loop (Record), the recording thread's life and the writer (File) over many commands and runs; invariant: writer state = writer operations of all recordings so far, every recording a stretch of one run's history, number of started commands = recordings. False: repeated payloads, commands silently dropped, a recording lost with O_DIRECT after an unaligned one (witnesses); with O_DIRECT the exact condition on the lengths of the recordings (RecSessDirect, from FileDirect).
* **C98 The stop command of a link returns**: all threads of the link with counted payloads and requests; lexicographic measure that every step after the markers are cleared decreases (consumer, cleanup, requester and time sync, request weights, the rest), and progress: until the command has returned some thread can move. False: arrivals that never pause keep the consumer or the clearing of the request queues going; a worker that missed its launch keeps the command waiting for ever (witnesses).
* **C99 A request is answered after at most two evaluations**: one request followed through pool, waiting list with retry counter and evaluations on the link of module Session; invariant on its evaluations and passes: a reissued request has a later payload in the run, so by the classification of C12 its evaluation answers. False: after refused payloads, the request circulates for ever; a window that ends before it begins circulates until a payload at or after both its ends has arrived, then one evaluation answers it (proved, `C99_every_window_partial`); a window that ends exactly at the newest payload is given up although its data are there (witnesses).
* **C100 Recent data stay available**: the runs of module Session with cleanups restricted to the configured parameters and ghosts for the payloads since the last pass; invariant: the buffer holds the last K payloads taken or all of them, and has room for the rest of the burst; K and the reserve as explicit functions of the fractions with the error of single precision. False while a recording holds back cleanups and for bursts beyond the reserve (witnesses).
* **C101 The recorder module over its whole life**: product of the worker thread (module Thread), the file writer (module File), the queue, the commands and reports, one step per access; invariant: sent = given to the writer ++ packet in hand ++ queue, and the files are what a small specification computes from the confs. Witnesses: left-over packets, a start refused right after a stop, a stop that never returns, a file configured twice, uncounted packets, the data race on the time of the last report. With O_DIRECT (RecModDirect): an invariant of the writer that holds for every configuration, files are beginnings of the specified ones.
* **C102 Settings of the generated configuration are safe**: the settings as functions of the slowdown factor; rational arithmetic with the error of single precision gives the conditions of C100 (last 70 %, bursts of a twelfth of the buffer) and, up to the factor 35, that of C94; at 36 the latter fails (witness).
* **C103 Fragment validation**: the callback and the code behind the early `return`, with bounds and overflow of `int` as undefined behaviour; exact characterisation for whole WIB and DAPHNE frames; composition with C70: fragments of a regular run pass. Witnesses: nothing is ever reported; gaps, zero first byte, fragments of more than 2.3 s.
* **C104 Photon-detector links over time**: the link of C93 with the cleanups of C100 and the request of C99; invariant: the buffer holds the last K stored payloads or all of them; classification of C12 without a condition on the window (bisection never misses), hence the bound of C99 without its exceptions. Retention for removal fractions up to 1 - 2^-22 (a fraction of one: C22).
* **C105 Raw trigger primitive links over the life of the module**: payloads as owning pointers (null as undefined behaviour), the stitching of C31 over all runs with its `int` counters, the start of a recording. Expected FALSE in every part; witnesses for each, and what does hold: one stream since construction, at most one stored primitive per hit, independence of runs that leave nothing open.
* **C106 Emulated photon-detector data**: C92 for the bisected link of C93: the emulator of C43 (dropouts allowed), the bounded queue, the link. The invariant carries reachability of the link, so that C93 applies; what was taken is a sublist of what was emitted, hence goes forward. Completeness holds without losses; counterexample for a payload lost at the full queue.
* **C107 Modules act only on files they opened**: descriptor table of the process, every system call logged with what the number stood for; writers, readers, zero-copy handlers and the rest of the process in any interleaving; specification (which file is wanted) from the calls and their results alone. Per-object invariants with a frame lemma. Expected FALSE for zero-copy recording (closed after the first recording, never assigned when not configured, overwritten when reconfigured) and for `flush` of a writer that is not open; proved for careful use.
* **C108 Timestamps in emulator mode**: overwriting in front of the link of C70/C93; invariant: log of the run (WIB) or of the life (WIB2, DAPHNE) = multiples of the duration, registry empty. Expected FALSE for WIB2 and DAPHNE: processors not reset with a run.
* **C109 Requests on sorted-list links while data arrive**: history of arrivals (linked, then counted) as functions of time; each operation of the request sees the list at its own moment. In-order arrivals: everything that arrives after the search lies behind the window, so the loop sees what was there. Any order: frames between those of the contents at the search and of the contents seen later. Expected FALSE for late payloads.
* **C110 Threads are named and pinned individually**: decimal numbers with their inverse, names cut at the last hyphen, truncation to 15 characters; the script as a fold over processes with the meaning of psutil's calls. Expected FALSE: long names, several tasks added by one configuration, threads not listed in the pin file, other processes whose name contains the target.
* **C111 Sorted photon-detector links over their whole life**: transition system as for C85 over the sorted buffer; invariant that needs no order of arrival (what is missing from the buffer lies the limit or more behind the newest), a second one for arrivals that are never that late, retry bound as for C104. Expected FALSE: windows beginning inside a payload, stragglers, windows that end before they begin, requests parked after the waiting-list thread has left (left behind at stop).
* **C112 A recording reads the buffer while data arrive**: the recording thread as programs of single loads (module ConcReq) with a continuation per call; the lookup runs under the cleanup protocol, everything else unprotected, with arbitrary results of the read-index loads in `good()`. Invariant: the position is the end time of the last payload written, so the next payload written is the next received; cleanups remove only below the position. Separate invariant for races. Expected FALSE: absence of races (two relaxed loads; `front()` outside the protection), progress (a cleanup under way at the beginning). Progress of a recording left alone (ConcRecProgress): induction on what is not yet written, each pass writing at least one payload; conversely a position before everything stored is never reached again.
* **C113 Emulated links run at the configured rate and clock**: executions of the limiter (C48) with call times; invariant that the deadline stays on the original schedule and the delay shrinks; period as floor of rounded quotients with error bounds; payload times from C47. Expected FALSE: stalls of more than 10 ms; WIB2 and photon-detector clocks.
* **C114 A link that was configured can take data**: `ReadoutModel::conf` on top of the allocation model of C05, with failing allocations, then writes to the ring; induction over the commands and over the payloads. Expected FALSE: `bad_alloc` is swallowed, unsupported combinations are accepted, a thrown command leaves a released pointer.
* **C115 The memory that a link uses does not grow with time**: counting lemma (values in an interval, at most m per value) applied to the ages of parked requests (C16), the start times of pending primitives (C29, C59) and the timestamps of the sorted buffer (C52); names in the registry (C23). Expected FALSE: primitives sent too rarely; raw trigger primitive links (C105).
* **C116 A link obeys commands that fit and refuses the others**: command automaton of the module (pool, waiting thread, file, recording, working threads), specification from the list of commands alone; exact condition for survival, exact set of refused commands, accounting of requests. Expected FALSE: no command checks the state; only a `stop` outside a run fails, by the exception of `std::thread::join`.
* **C117 Emulator cards and recorders obey commands that fit and refuse the others**: two small automata over the same commands, specification from the list of commands alone; survival iff every command fits. Expected FALSE: nothing is refused; `start` in a run frees the rate limiter, `scrap; conf` the file buffer under the producing thread, `conf` the file under the recording thread.
* **C118 Hit finding in software follows the configuration and holds memory only in a run**: processor with a heap of blocks; specification from the list of events alone (latest configuration, run going on); survival iff, buffers exactly while hits are sought, number and settings of the searches of a payload. Expected FALSE for the settings: hit finding is never switched off, every configuration with it adds a function, and the queue of induction samples is never read.
* **C119 The reported number of stored payloads was right at some moment**: indices with single stores and loads; specification counts writes and removals. Expected FALSE (the code's own comment forbids the call from a third thread): exact value of every report, moments when it is right, witnesses for nearly full and for empty.
* **C120 A recording can be replayed**: composition of RecSess (C97), Emu (C47) and EmuLink (C92): the file is the concatenation of equally long payloads, so element i is payload i; times by induction over a gap-free run. Expected FALSE in general: gaps are not replayed, repeated recordings repeat payloads.
* **C121 Fake triggers bring data**: time synchronisation thread (load, one step per response queue) over the link of Retain; invariant: the time seen is that of a payload of the run, one request per trigger and queue; availability from C100; number of frames by counting samples in a window. Expected FALSE for the first triggers of a run (window before the first payload) and for triggers made while stopping.
* **C122 Compressed recordings can be read back**: the compressor is a parameter (any automaton whose decompressor restores what was fed, flushes anywhere); chain compressor + buffered device over File; file names and contents kept apart, so that removing an open file is seen. Invariant: history fed to the compressor, its output is what the device got. Expected FALSE after stop: flush does not reach the compressor, and only another configuration or the end of the module closes the file.
* **C123 Fast unpacking of WIB2 frames**: registers as eight 32-bit words, instructions by Intel's description; specification: sample c is the 14 bits from bit 14c on; word by word, bit by bit; loop by induction. Expected to need one word after the samples (the trailer).
* **C124 Injected frame errors**: emulator, queue and error check composed over any number of runs, with reports at any time; specification: the error words of the payloads created (ghost at the source) and of those that found room; invariant: arrived = checked ++ in hand ++ queued, with a potential for the throttle. Expected false: threshold per run (counters per bit survive a start), reports across a start, errors recorded in the file, WIB2 and DAPHNE.
* **C125 Memory of removed payloads in sorted lists**: the list with accessors, removed and freed nodes, composed with the exclusion protocol of C19; faults recorded where a payload is read; invariant: pointers of requests and cleanups are in the list, the iterator of the recording is at a node not freed and removed nodes point to nodes not freed. Expected false: pointers of `front()`/`back()` used outside the protocol, bounded memory.
* **C126 PACMAN links keep recent messages**: steps of consumer, cleanup thread (each read and removal of its own), recording and commands as one function on states; invariant: a message missing from the buffer has at least K older ones there. Expected false: the default cleanup takes the newest payloads of the sorted list. Exact description of what stays, of the answers, and of the steady state.
* **C127 Cleanups while data arrive**: as C126 but for the ring buffers: one function on states, each read and removal of a pass a step of its own; invariant `K + remaining removals <= occupancy`, and for the room `occupancy <= limit + remaining removals + arrivals since the count`. Strengthens C21, C22 and C100, in which a pass is one step; the bound on bursts of C100 is expected not to survive (arrivals before and during a pass add up).
* **C128 The configured size is the size of the buffer**: the ring buffer once more, with 32-bit indices, `int` occupancy, 64-bit byte counts and a block of bytes; refinement to the model over unbounded numbers for sizes from 2 to 2^31 - 1, which justifies the simplification of `RingModel` (and everything on top of it); expected to be false for sizes beyond 32 bits and for 0 and 1 without assertions.
* **C129 Printouts of raw trigger primitives show what the frames hold**: bit fields as places in 32-bit words, general laws of reading and assigning; printouts as labels with digits, read back by an independent reader; expected to be false for `print_bits` of a header (two labels are swapped), for a stream that is not decimal, and for the hits of a frame.
* **C130 The data file of an emulator is loaded as configured and replayed within its bounds**: the file buffer with two passes over the file, and both loops with the widths of their variables and the reported number of elements; refinement to the modules Emu and TpEmu (C47, C57), which justifies their unbounded numbers; expected to be false for the limit, for trigger primitive files from 2^31 bytes on, and for files that shrink.
* **C131 The share of emulated frames with faked errors is the configured rate**: the generator from the rate on, with tables of `int` and an abstract rounding; simulation by the generator of module Emu (negative lengths act like one), then counting over a round of the tables; expected to hold only approximately between 0 and 1 and to fail outside and for tiny rates.
* **C132 Every slowdown factor paces an emulator as it says, and stop is prompt**: the limiter with 64-bit members and `double` with infinities; finite runs (an infinite one would outlast the clock); refinement to the limiter of C48 away from the end of the clock, by extending the finite run; bounds of the period from C113's accuracy of rounding; counterexamples for 0, negative, huge factors, wrapped deadlines and for stopping.
* **C133 The views of expanded samples agree and cover a window**: the indices with 64-bit `size_t`; the specification `place` is the layout (messages, rows, ticks, channels); linear arithmetic; connection to the frames through C39_superchunk; counterexamples for channels, ticks and register numbers outside the window, which are not checked.

## Modules

| modules | code |
|---|---|
| Ring*, Spsc*, Alloc* | include/readout/models/IterableQueueModel.hpp: sequential behaviour, two-thread behaviour, storage |
| Search* | BinarySearchQueueModel.hpp, FixedRateQueueModel.hpp |
| SkipList* | SkipListLatencyBufferModel.hpp, src/daphne/DAPHNEListRequestHandler.hpp |
| DataReq*, History* , Waiting*, Lifecycle*, Protocol*, Cleanup* | DefaultRequestHandlerModel.hpp, EmptyFragmentRequestHandlerModel.hpp |
| Record*, ZeroCopy* | recording in DefaultRequestHandlerModel.hpp and ZeroCopyRecordingRequestHandlerModel.hpp |
| Registry*, TsCheck*, Pipeline*, FrameErr* | FrameErrorRegistry.hpp, timestamp and error checks of the WIB/WIB2 frame processors |
| Consume* | ReadoutModel.hpp run_consume and stop, TaskRawDataProcessorModel.hpp |
| Misc* | RateLimiter.hpp, run_timesync, dump_to_buffer |
| TpHandler*, Stitch* | TPHandler.hpp, RAWWIBTriggerPrimitiveProcessor.hpp |
| Thread* | ReusableThread.hpp |
| File* | BufferedFileWriter.hpp, BufferedFileReader.hpp, RecorderModel.hpp |
| Emu*, TpEmu* | SourceEmulatorModel.hpp, FileSourceBuffer.hpp, ErrorBitGenerator.hpp, TPEmulatorModel.hpp |
| Format* | ReadoutTypes.hpp, NDReadoutTypes.hpp, RawWIBTp.hpp |
| Dispatch* | CreateReadout.hpp, CreateSourceEmulator.hpp, DataRecorder.cpp |
| Tpg* | src/wib/tpg/Process{Naive,AVX2}.hpp, ProcessingInfo.hpp, WIBFrameProcessor.hpp (hit finding) |
| Expand* | src/wib/tpg/FrameExpand.{hpp,cpp} |
| Session* | start/stop/consume/request composition: ReadoutModel.hpp l.135-176, 228-257, 309-346 with DefaultRequestHandlerModel.hpp |
| Conf* | configuration of the request handler: DefaultRequestHandlerModel.hpp l.100-142 with cleanup and record |
| Monitor* | counters and reports: ReadoutModel.hpp l.135-208, 228-346 |
| Card* | plugins/FakeCardReader.cpp with SourceEmulatorModel.hpp conf/scrap/start |
| Destroy* | ownership and destructors of modules: include/readout/concepts, plugins/*.hpp, ReadoutModel.hpp l.349-402 |
| Proc* | timestamp stages of PACMAN and DAPHNE: PACMANFrameProcessor.hpp l.57-86 and the DAPHNE one |
| Sync* | time synchronisation thread over runs: ReadoutModel.hpp l.259-307 |
| Fir* | filter design: DesignFIR.cpp l.20-68 |
| ListLink* | sorted-list links: data request, runs, cleanup with concurrent arrivals (SkipListLatencyBufferModel.hpp, DAPHNEListRequestHandler.hpp, NDReadoutTypes.hpp) |
| Route* | queue set-up and routing of requests (ReadoutModel.hpp l.211-226, 276-346), trigger primitive handler (EmptyFragmentRequestHandlerModel.hpp) |
| Consumer* | consumer modules (plugins/DummyConsumer.cpp) |
| TpChain* | hits to TP sets over a run: decoding loop, timestamps, counters, sending (WIBFrameProcessor.hpp l.420-503, TPHandler.hpp) |
| RegConc* | the error registry under concurrent calls, step by step (FrameErrorRegistry.hpp) |
| ConfGen* | the generated application: queues, modules, configuration entries, command order (python/readout/app_confgen.py) and which connections the modules open |
| LinkTp* | `find_collection_hits` from the bytes of superchunks to trigger primitive sets |
| Race* | locks and accesses to shared members by all threads of a link |
| ConcReq* | data requests step by step, concurrent with arrivals, with memory orders |
| EmuLink* | emulator card, raw data queue and link together, over many runs |
| PdsLink* | runs of a link searched by bisection, with a processor that checks nothing |
| TpRuns* | post-processing over many runs with the memory of the buffer, composed with the software trigger primitives |
| MonReq* | monitoring counters of the request handler with concurrent reports |
| MonTp* | monitoring counters of software hit finding with concurrent reports |
| RecSess* | recordings over many record commands and runs, down to the bytes of the file |
| StopLink* | all threads of a link from the stop command to its return |
| Retry* | one request during a run: evaluations, parking, passes with retry counter |
| Retain* | runs with cleanups by the configured settings: how much recent data is kept |
| RecMod* | the recorder module: commands, worker thread, files, reports |
| GenSet* | settings written by app_confgen.py for a data link, as functions of the slowdown factor |
| Valid* | validation of fragments in the fragment consumer |
| PdsKeep* | photon-detector links: retention, requests for recent data, bound on evaluations |
| RawLink* | raw trigger primitive links: null payloads, processor over many runs, start of a recording |
| PdsEmu* | the photon-detector emulator, its queue and the bisected link together |
| Fd* | descriptor table of the process: writers, readers, zero-copy handlers |
| FakeTs* | WIB, WIB2 and DAPHNE links in emulator mode |
| ConcList* | requests on sorted-list links with payloads arriving between their operations |
| Pin* | names of worker threads; scripts/performance/balancer.py |
| ConcProt* | requests, cleanups and arrivals with the protocol of module Protocol |
| ListLife* | photon-detector links with the sorted buffer over all runs |
| ConcRec* | recording load by load, concurrent with arrivals and cleanups |
| EmuRate* | pace and clock of the source emulators |
| ConfLink* | configuring a link and writing to its buffer (`ReadoutModel::conf`) |
| Mem* | bounds on the waiting list, the error registry, pending primitives and the sorted buffer |
| Cmd* | commands of the data link handler in any order |
| WorkCmd* | commands of the emulator card and the recorder in any order |
| TpgLife* | buffers, switch and queues of the hit finder over configurations and runs |
| MonBuf* | `occupancy` called by the monitoring thread while the buffer changes |
| Replay* | a recording file as the input of an emulator card, alone and feeding a link |
| FakeTrig* | the time synchronisation thread making fake triggers for its own link |
| Comp* | compression in the file writer and reader, names and contents of files, recorder and link opening them |
| Unpack2* | vectorised unpacking of WIB2 frames of the test program |
| Inject* | injected frame errors from the emulator to reports and the queue of errored frames, over runs |
| ListMem* | accessors, removal and freeing in the sorted-list latency buffer |
| PacLife* | PACMAN links over runs: default cleanup of the sorted list, step by step |
| ConcClean* | cleanup of the ring buffers step by step, with arrivals in between |
| Words* | the ring buffer with the widths of its members |
| RawTp* | fields and printouts of raw trigger primitives |
| SrcFile* | FileSourceBuffer.hpp, the emulators' loops with widths |
| ErrRate* | ErrorBitGenerator.hpp with signed tables and rounding |
| Pace* | RateLimiter.hpp with 64-bit members and all `double` factors; leaving the producing loop |
| View* | FrameExpand.hpp lines 21-102: `WindowCollectionADCs`, accessors of `RegisterArray` |

## Findings

Statements which the code does not satisfy. Each has a machine-checked witness (theorem suffix
`_counterexample` or named in MANIFEST.json).

Buffers and allocation
* C05: four allocation option combinations leave the buffer pointer dangling, freed by the wrong routine, or freed twice.
* C06: popping more than is stored makes old elements reappear.
* C09, C24: the fixed-rate lookup is off by the number of missing payloads, and on an empty buffer computes with an absent front.
* C10, C21: the sorted-list buffer's `pop` removes the newest elements; hence PACMAN's default cleanup discards the newest data.
* C11: with sorted-list buffers the frames of the payload straddling the window begin are left out.  C12: a window that ends before it begins is answered as found and empty, but on fixed-rate buffers it is retried until the run ends (or times out) if it begins more than a payload after the newest stored one.
* C22: `pop_size_pct = 1` empties the buffer and then dereferences an absent front.
* C114: when the buffer of a link cannot be allocated, `conf` only reports an error and returns; the run starts and the first payload is written through a null pointer. A configuration refused for missing NUMA support leaves the released pointer in the buffer, so the corrected configuration releases it again.
* C116: the data link handler checks no state. `start` in a run ends the process (assignment to a joinable `std::thread`) after dropping the queued requests; `conf` in a run or during a recording releases the buffer under the threads that use it; `start` before `conf` begins a run without a thread for requests, which are dropped by the next `start`; `scrap` has no effect; `stop` outside a run fails with `std::system_error`.
* C119: `get_info` calls `occupancy()` from a third thread, which its comment calls undefined: if more payloads are removed between its two loads than were stored at the first, the report says nearly full though the buffer is nearly empty; it may also say empty though the buffer never was.
* C125: `front()` and `back()` of the sorted list return pointers that nothing protects. The recording thread (for its first position) and the check of waiting requests read through them outside the exclusion protocol: after a cleanup in between, freed memory is read; on PACMAN links the cleanup takes away the very payload the waiting requests look at. Removed payloads are freed only at a moment when nobody uses the list: overlapping uses keep them all.
* C127: the burst that may arrive between two cleanups without a refusal halves when a pass takes time: arrivals before the count and arrivals during the pass add up (proved bound: twice the burst above the limit; counterexample for the bound of C100). A recording that sets its position between the test and the removal of a pass does not save the payload just tested.
* C128: `size_` keeps the low 32 bits of the configured 64-bit size: 2^32 + 2 elements are allocated, one place is used. From 2^31 on `occupancy` overflows `int` (with preallocation already in `conf`). The number of bytes is computed modulo 2^64; a huge size can be accepted with a block smaller than one element. Without assertions size 0 is accepted and writes outside, size 1 is accepted and refuses every payload.

Requests
* C17: a request parked or issued while the run stops is never answered.
* C24: a rejected write or a backward jump leaves an unflagged gap.
* C64: PACMAN's search key is uninitialised memory.  C63: SSP payloads are cut off.  C40: PACMAN and SSP cannot fake timestamps.
* C51: `sw_tp`, mixed names and `pds` without suffix are taken for different types by different modules.
* C70: after a refused payload a request may be answered without error bit and without frames although the payload is stored.  C71: a request parked late survives the stop and is answered with data of the next run.
* C75: the request counters are zeroed by `start` and again by each of the two counting threads when it begins, so requests counted in between are never reported; the totals are 32-bit and are reported as 1.8e19 after 2^31 payloads (3.6 hours at 166 kHz).
* C54: the number of fake triggers is a signed `int` that no command resets; trigger 2^31 of a link is undefined behaviour (6.8 years at one per 100 ms).
* C81: on list links nothing is returned of a payload begun before the window.  C82: a late payload makes a list link serve incomplete fragments without error; PACMAN keeps only the first message of each second because messages are compared by their time in seconds.  C83: request queues behind a gap in the numbering are silently never read.  C84: requests left in the queue at the end of the run are discarded unanswered.
* C87: `has_error` reads the map without the mutex. A request that asks while a second gap is being registered (between `erase` and `insert`) is told that there is no gap although one has been registered all along, and then uses the constant-time lookup on data with a gap (wrong start, C09); in C++ terms it is a data race.
* C88: in the generated application the software trigger primitive handlers get their request and response queues under names (`requests`, `fragments`) that no code looks up: nothing ever reads `tp_data_requests` (which is declared single-consumer but given to every such handler), and these handlers never answer. They also share region, element number and output file name with the detector link handler of the same number.
* C90: the length of the waiting list is read without its lock, by `get_info` (l.307-362) and by the loop condition of `check_waiting_requests` (l.440-502), while pool threads append to it; the error registry is asked by requests without the lock (FrameErrorRegistry.hpp l.63-65) while the consumer inserts into the map.
* C91: `back()` (IterableQueueModel.hpp l.408-409) loads the write index with relaxed order, and `data_request` reads the payload it points to: when a payload arrives between `front()` and `back()`, that read is a data race. With an acquire load there no request can race with the consumer; the relaxed loads in `Iterator::good()` are harmless then, except with the fixed-rate lookup for windows that end before they begin: the lookup may give the slot after the newest payload, and a payload arriving there is read after a relaxed load only.
* C24/C93: on the photon-detector links nothing compares timestamps, so a payload lost upstream or refused by the full buffer is neither counted as missing nor marked in the fragments covering its time.
* C95: number and total of the response times are read separately, so the reported average can exceed every response time; and the total is a 32-bit `int`, which overflows at 36 minutes of accumulated waiting.
* C95: what was counted since the last report is zeroed by the next start and never reported; a report during start shows requests of the previous run.
* C98: stop waits for the input queue and the request queues to be empty, so it does not return while payloads or requests keep arriving at least as fast as they are taken.
* C98, C44: if any worker thread misses the notification of its start, the next stop command hangs.
* C99: parking a request again sets its retry count to zero; a request whose lookup keeps failing (refused payloads with fixed-rate lookup, window_begin > window_end while the data have not reached window_begin) is reissued at every pass and neither answered nor timed out meanwhile.
* C99: passes reissue a request only if its window ends before the newest payload, the evaluation accepts windows ending at it; a request ending exactly there times out with an empty fragment although its data are stored.
* C100: during a recording cleanups may remove nothing although a pass follows every payload; the buffer fills, payloads are refused, and a request for them is answered without error bit and without frames.
* C103: `validate` of the fragment consumer returns at its first statement (`FragmentConsumer.cpp` l.40): nothing is ever reported. The code behind it would take photon-detector fragments with a zero first byte for WIB data, report correct fragments that begin or end in a gap, and overflow `int` for fragments of more than 4628198 frames (2.3 s).
* C109: on a sorted-list link a request that runs while late payloads arrive can return a later arrival without an earlier one: no moment of the buffer explains the fragment.
* C111: on a sorted photon-detector link a window that ends before it begins circulates between pool and waiting list every 10 ms without counting a retry, for as long as nothing as late as its beginning arrives; a straggler that comes 10,000,000 ticks or more behind the newest payload makes windows whose data has been discarded look complete (no error bit, no frames).
* C121: fake triggers made within 500100 ticks of the first payload of a run ask for a window that begins before the run and are answered with empty error fragments, however large the buffer; those made while the handler has already stopped are handed to a pool that has ended and never answered.
* C126: the default cleanup takes the newest payloads of the sorted list. A PACMAN link therefore keeps the first messages of a run for ever and loses the rest: in the steady state the buffer is the first messages of the run and those since the last cleanup. No window of the run is ever refused as too old; windows over discarded messages are answered as found, without error bit and without the messages. The test of the recording position looks at the oldest message while the newest goes, so recordings lose messages too.

Recording and files
* C25: PACMAN payloads recorded repeatedly.  C26: photon-detector cleanup ignores the recording position.
* C27: a gap followed by a cleanup stalls the recording for good.  C58: recording races with cleanup.
* C45, C53: flush at an unaligned length breaks O_DIRECT writing for good.  C46: existing files are not truncated.
* C55: `dump_to_buffer` never advances its source across a wrap.
* C56: zero-copy recording can hang, counts failed writes as -1, and does not reopen its file.
* C72: an out-of-range cleanup fraction is reported but stored, and the next cleanup dereferences the front of the emptied buffer.  C73: accepted limit fraction 1 or removal fraction 0 (or a capacity larger than the buffer) never relieves a full buffer.  C74: only the first configuration with raw recording counts, even after scrap.
* C97: a record command is lost without a message if the recording thread has not begun the previous one or is still flushing it (`set_work`'s result is ignored).
* C97: with O_DIRECT a recording following one whose length is no multiple of the block size does not get into the file.
* C101: `do_start` of the recorder ignores the result of `set_work` (`RecorderModel.hpp` l.81): a start right after a stop may be refused, and the run records nothing; a start that overlaps the worker's way into waiting is lost, and the stop of that run never returns.
* C101: packets still queued at stop go into the file of the next run; `do_conf` deletes the file of the runs before if it has the same name (`RecorderModel.hpp` l.68); packets counted between l.56 and l.60 are in no report; `m_time_point_last_info` is written by the worker (l.95) and by `get_info` (l.61) without synchronisation.
* C105: on a raw trigger primitive link the search element of a recording owns no frame, so `record` writes through a null pointer in its first pass (`DefaultRequestHandlerModel.hpp` l.201, 209; `ReadoutTypes.hpp` l.446-449).
* C107: a WIB link (zero-copy recording) closes its descriptor at the end of the first recording and keeps the number (`ZeroCopyRecordingRequestHandlerModel.hpp` l.185): a second record command writes into, and closes, whatever file the process has opened since; `record` does not check that recording was configured and then uses an unassigned number; every further conf, and destroying a link that did not record, leaves a descriptor open.
* C107: `flush` and `close` of a writer that is not open call `fcntl` on a stale or unassigned number (`BufferedFileWriter.hpp` l.169, 182, 190), e.g. at the end of a recorder started without configuration; `open` of an open reader throws `std::logic_error`.
* C112: the recording walks the buffer with `good()`, whose loads are relaxed and do not synchronise with the consumer: a payload that arrives during a pass is read without ordering (data race; harmless on x86). `front()` at the beginning is called without protection: its relaxed load of the read index may be newer than the load of the write index, and a cleanup under way may remove the payload before its time is read. If the cleanup removes it just after, the recording looks for a payload that is gone until it ends: nothing is written and nothing is removed from the buffer, whatever arrives.
* C122: a compressed recording is never complete after stop: flush does not reach the compressor, and the file is closed only when the recorder is configured for another file or when the module is destroyed (a link never opens another file). It may be empty, however much was recorded with every write reported successful. Configuring the recorder again for the same file removes the name first and then completes the removed file.

Processing
* C31, C60: raw TP stitching loses complete hits, counts three-part hits twice, and mixes units.
* C42: the configured error reset frequency is ignored.  C50, C61: post-processing may see payloads twice, after destruction, or from two threads.
* C43, C44: `ReusableThread` is unsafe with two callers; a ready thread may refuse work; a notification may be lost.
* C33, C36, C37: hits of total charge zero are dropped; durations saturate at 32767; the interquartile range is clamped at 102 in one version only.
* C34: the initial pedestal of channels 16-95 is taken from other channels.  C66: sharp drops wrap the filter and give spurious hits.
* C67: the frame expansion reads 8 bytes past the last superchunk of a buffer.
* C78: the PACMAN check subtracts unsigned numbers and asks whether the result is at most zero, so only repeated timestamps are counted; a message from the past is not.  C79: trigger primitive links never send time synchronisation messages since their processors record no timestamp.  C80: for an even number of taps the filter is not symmetric (integer division for the centre); with one tap the window is 0/0.
* C86: a signal that began at least the timeout before the superchunk in which it ends is dropped (only a counter tells); TPs younger than window plus timeout when the run stops are never sent, so a run shorter than the timeout sends no TP set at all.
* C88: the generated stop command stops the consumer of time syncs before the trigger primitive handlers that still send them, and the start command starts the card before the handlers of raw trigger primitives.
* C90: `get_info` of the WIB processor tests and uses the TP handler pointer and reads the software TPG flag while `conf` may replace them (`WIBFrameProcessor.hpp` l.215-263); the times of the last report are plain members written by both `start` and `get_info`.
* C94: nothing relates the size of the post-processing queue to what a cleanup leaves in the buffer; with a queue larger than that, superchunks are overwritten before the hit finder sees them, without any warning.
* C96: a trigger primitive whose push times out is reported neither as sent nor as dropped; the primitives of a set whose push times out are reported as sent.
* C96: primitives still held, and counts not yet reported, are discarded at the next start without being reported.
* C102: from the slowdown factor 36 on the generated buffer (13888 slots) is too small for the default pointer queue (10000): a cleanup may remove payloads to which pointers are still queued; nothing in the script relates the two sizes.
* C105: the raw trigger primitive processor keeps every completed primitive for its whole life although nothing reads them (`m_tps`), is not reset by start (open primitives of a run are completed in the next; a channel with two open ones stays dead), and counts frames in an `int` (overflow after 2^31 payloads).
* C110: thread names are cut to 15 characters (`ReusableThread.hpp` l.65-66): `postprocess-0-10` becomes `postprocess-0-1`, the name of link 1's thread; if one configuration adds several post-processing tasks only the last thread is named (`TaskRawDataProcessorModel.hpp` l.57 names `back()`). `balancer.py` resets the CPU set of every thread that the pin file does not list, also in other processes whose name contains the given one, and stops at the first invalid entry.
* C115: an attempt to send trigger primitives sends one set only; if attempts are two windows apart, primitives pile up without bound. (Firmware trigger primitive links keep every primitive for good, C105.)
* C118: hit finding once configured stays on: a later configuration without it has no effect on it, payloads are still searched and trigger primitives sent with the old settings, and the configuration adds a pointer queue nobody reads (a warning for every payload once it is full). The queue of induction samples (200000 slots of 3.8 kB, about 770 MB per link) is written with every superchunk and read by nobody: it is full after 199999 superchunks (1.2 s of data), from then on every copy is thrown away.
* C123: the vectorised unpacking of WIB2 frames reads one word past the words with samples; harmless only because the frame has a trailer.
* C124: the throttle of errored frames is not reset at start (a later run forwards fewer frames than the threshold); error counts since the last report are lost at the next start; the emulator erases the errors recorded in the file it replays, even with an error rate of zero; the error rate is ignored for WIB2 and DAPHNE. The counter `m_error_count` of the consumer of errored frames (`ErroredFrameConsumer.hpp`) is never initialised and never reported.
* C129: `TpHeader::print_bits` prints the accumulator after "median:" and the median after "accumulator:". `print` and `<<` use whatever base the stream has; `print_hex` leaves it decimal, also if it was hexadecimal before. `<<` of a frame shows its header only. `print_bits` shows the timestamp not in bits but in the base of the stream.

Emulators
* C47: files shorter than a payload and empty dropout patterns lead to out-of-bounds reads.
* C57: one-hit frames write behind their block; in the old format every second hit loses its times.
* C62: error rate one still produces clean frames.  C65: malloc'ed blocks are released with delete, and one object per round leaks.
* C76: a rejected card configuration stays in effect for the links it reached: the corrected configuration is refused, an incomplete one is accepted, and starting dereferences a null file buffer; a second configuration without scrap is silently ignored.  C77: ReadoutConcept, SourceEmulatorConcept and RecorderConcept have no virtual destructor although implementations are owned through them, so destroying a module is undefined behaviour (its threads run on in freed memory).
* C92: an emulated payload that finds the raw data queue full is dropped with a warning; a later request for exactly its time is answered without error bit and without frames, although the link has registered the interval as missing. The first payload of every run is counted and registered as a gap (previous timestamp 0).
* C106: as on an emulated WIB link (C92), a payload lost at the full raw data queue of a photon-detector link leaves no trace in the fragments: the request for exactly its time is answered without error bit and without frames.
* C108: in emulator mode WIB2 and DAPHNE links continue the timestamps of the previous run (no reset in `start`, unlike WIB), so links that received different numbers of payloads in run 1 disagree in run 2; a payload refused by a full buffer uses up its timestamps without any report, and requests for them are answered empty without error bit.
* C113: after one stall of more than the limiter's 10 ms allowance (a full output queue blocks for longer) the payloads missed are never made up. The data time of an emulated WIB link follows 50 MHz within half a percent; that of WIB2 runs more than a quarter ahead of it (and 2 % ahead of 62.5 MHz), that of photon-detector links covers less than two thirds of the time by 62.5 MHz, less than four fifths by 50 MHz.
* C117: a second `start` of an emulator card in a run frees the rate limiter its threads are using, `scrap` and `conf` in a run free the file buffer they replay, a `start` before `conf` dereferences a null pointer; `scrap` does not keep a card from starting. A `conf` of a recorder in a run closes and replaces the file under the writing thread; a second `start` restarts its count; a `start` before `conf` loses a packet and ends the thread.
* C120: the emulator stamps payloads itself, at equal distances from the first timestamp: a gap in the recorded run is closed (later payloads get earlier times than they had), and a file with two recordings of one run is replayed with the same payloads at two times.
* C130: the limit on the size of a data file is only a warning: every file that fits into memory is loaded; a limit of 2^31 or more turns negative, and then every file is reported to exceed it. The trigger primitive emulator multiplies in `int`: undefined behaviour in its first round for files from 2^31 + 12 bytes on. It trusts the number of elements measured before loading, so a file that shrinks meanwhile is read outside (the source emulator is safe). A file refused for lack of memory leaves a number of elements without contents.
* C131: rates of faked errors outside 0 to 1 are not refused: a rate of -1 or less marks 1000 frames in each round through the tables, a rate from 1 on still leaves 1000 frames unmarked, a rate with which a duration exceeds `int` is undefined behaviour. A positive rate below 1 in 100000 never marks any frame. Between, the share is the rate up to 2001 frames in a round, if the drawn durations have equal sums.
* C132: slowdown factors are not checked. Factor 0 turns pacing off, a negative one or one from 10^20 on is undefined behaviour, a period whose first deadline passes 2^64 ns turns pacing off too. The wait in `limit()` does not look at the run marker: a stop takes up to a period (100 minutes for a factor of 10^9).

## Trusted base

* The Lean 4.33.0 kernel. Theorems depend on at most `propext`, `Classical.choice`, `Quot.sound`;
  there are no own axioms, no `sorry`, no `native_decide`, no `bv_decide`.
  `lean/Verif` prints nothing; the axioms of each manifest theorem can be listed with `#print axioms`.
* The transcription of the C++ text into the model. Each definition cites its file and lines and
  says where it simplifies.
* C++ semantics used: integer widths and wrap-around of unsigned types are explicit where they
  matter; out-of-range access, null or dangling dereference, mismatched release, use of dead
  objects and division by zero are undefined behaviour and a separate outcome.
* Atomics: sequentially consistent interleaving, except Spsc*, where loads of the other
  thread's index may be stale (release/acquire, per-location coherence).
* Operating system and libraries, modelled by their documented interface only: file
  descriptors with O_DIRECT alignment rules, boost stream buffering, folly skip list (a
  sorted list), folly/appfwk queues (bounded FIFOs with failing push and pop), thread pool (any order),
  condition variables (with spurious wake-ups), malloc/numa allocation, std::priority_queue.
* Instruction set: AVX2 instructions as in Intel's description; the compiler's lane-wise
  64-bit multiply for `__m256i * scalar`.
* External data formats: the WIB frame layout (464 bytes: a 16-byte header, then four blocks of a 16-byte header and eight 12-byte
  segments) and the WIB2 and DAPHNE headers come from detdataformats, which is not in
  the repository; the layout used is stated in ExpandSpec and FormatModel.
* Floating point: only the filter taps (parameter of the hit finder model; their design in real arithmetic with an error bound, C80), the pop fraction (as exact rational with
  its rounding error, C22; the limit and removal sizes, C72-C73) and the rate limiter period (parameter) involve it.

Not modelled: plugin glue (init, command registration, plugins/*.cpp except the dispatch, the card reader of C76 and the consumers of C85), ERS issues
and logging, operational monitoring except the counters named in C12, C49 and C75, the compression libraries (a parameter of C122) behind the file
classes, python files other than app_confgen.py (C88), schema files, and test applications.
