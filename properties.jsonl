{"id": "C01", "title": "Ring latency buffer is a bounded FIFO", "statement": "A ring latency buffer created with size n >= 2 behaves exactly like a FIFO of at most n-1 elements: write succeeds iff fewer than n-1 elements are stored, a rejected write changes no stored element and is counted as an overflow, read returns the oldest element and fails iff the buffer is empty, pop(x) with x not above the occupancy removes exactly the x oldest elements, flush empties the buffer.", "quantifier": "every n >= 2, every finite sequence of write/read/pop/flush calls, every element value", "why_tests_cant": "Wrap-around behaviour depends on every combination of read position, write position and history; tests cover a few sizes and fill patterns.", "anchors": ["include/readout/models/IterableQueueModel.hpp: IterableQueueModel::write, read, popFront, pop, flush"]}
{"id": "C02", "title": "Buffer queries agree with the contents", "statement": "After any call history, occupancy(), isEmpty(), isFull(), front(), back() and capacity() report exactly the number of stored elements, whether there are none / n-1 of them, a pointer to the oldest / newest stored element (null iff empty), and n-1.", "quantifier": "every n >= 2 representable in the code's integer types, every reachable buffer state", "why_tests_cant": "The queries are computed from two wrapped indices; agreement must hold at all pairs of positions.", "anchors": ["include/readout/models/IterableQueueModel.hpp: occupancy, isEmpty, isFull, front, back, capacity"]}
{"id": "C03", "title": "Iterating visits every stored element once, oldest first", "statement": "Starting from begin() and incrementing until end() visits exactly the stored elements, each once, from oldest to newest; an iterator is good() iff it refers to a currently stored element.", "quantifier": "every buffer size, every read/write position, every fill level", "why_tests_cant": "The validity test is a three-way case split over wrapped indices.", "anchors": ["include/readout/models/IterableQueueModel.hpp: Iterator::operator++, Iterator::good, begin, end"]}
{"id": "C04", "title": "Single-producer single-consumer safety under all interleavings", "statement": "With one producer thread calling write and one consumer thread calling read, under every interleaving of their individual atomic loads, element accesses and atomic stores: the values the consumer obtains are, in order, a prefix of the values successfully written; no slot is accessed by both threads at the same time; no element is read before construction, constructed twice without destruction, or destroyed twice.", "quantifier": "every schedule of the two threads' atomic steps, every buffer size >= 2, every number of operations", "why_tests_cant": "Thread schedules cannot be enumerated by running the program.", "anchors": ["include/readout/models/IterableQueueModel.hpp: write, read (atomic readIndex_/writeIndex_ accesses)"]}
{"id": "C05", "title": "A successful buffer configuration leaves usable, correctly releasable storage", "statement": "Whenever conf() of a ring latency buffer returns without throwing, the buffer owns live storage of the configured size, and every later release uses the deallocation routine that matches the allocation.", "quantifier": "every combination of the allocation options (NUMA, intrinsic allocator, alignment) and every sequence of conf calls", "why_tests_cant": "Depends on option combinations and reconfiguration history; undefined behaviour is not reliably observable by tests.", "anchors": ["include/readout/models/IterableQueueModel.hpp: allocate_memory, free_memory, conf"]}
{"id": "C06", "title": "Popping never removes more than is stored", "statement": "No sequence of pop and flush calls makes the buffer report elements that were not written after the last time they were removed (no stale element is resurrected).", "quantifier": "every reachable state and every pop count", "why_tests_cant": "Only shows when pop counts race past the contents; assertions are compiled out in release builds.", "anchors": ["include/readout/models/IterableQueueModel.hpp: popFront, pop, flush"]}
{"id": "C07", "title": "Timestamp search finds the element covering a timestamp", "statement": "On a ring buffer whose elements are stored in increasing timestamp order, binary-search lookup returns end iff the buffer is empty or the requested timestamp precedes the oldest element, and otherwise the newest element whose first timestamp does not exceed the requested one. The search always terminates.", "quantifier": "every sorted buffer contents, every wrap position, every requested timestamp", "why_tests_cant": "Off-by-one and wrap errors in binary search appear only for particular positions and fill levels.", "anchors": ["include/readout/models/BinarySearchQueueModel.hpp: lower_bound", "include/readout/models/IterableQueueModel.hpp"]}
{"id": "C08", "title": "Fixed-rate lookup equals binary search on gap-free data", "statement": "If consecutive elements are separated by exactly frames-per-element x tick, then for every timestamp inside the buffered span the constant-time fixed-rate lookup returns the same element as the binary search; outside the span it returns no valid element.", "quantifier": "every gap-free buffer contents, wrap position, tick > 0, frame count > 0, timestamp", "why_tests_cant": "Arithmetic with truncating divisions and wrap-around must be right for all timestamps.", "anchors": ["include/readout/models/FixedRateQueueModel.hpp: lower_bound"]}
{"id": "C09", "title": "Fixed-rate lookup never returns a wrong element", "statement": "Whatever the buffer holds, a lookup through the fixed-rate buffer without the missing-frames flag returns only an element that is stored and whose span covers the requested timestamp.", "quantifier": "every non-empty sorted contents, including contents with gaps", "why_tests_cant": "Needs adversarial gap patterns.", "anchors": ["include/readout/models/FixedRateQueueModel.hpp: lower_bound"]}
{"id": "C10", "title": "Sorted-list latency buffer keeps unique timestamps in order and discards the oldest", "statement": "The skip-list latency buffer always holds its elements in strictly increasing timestamp order, rejects an element whose timestamp is already stored, looks up the first element not older than the request, and pop(k) discards the k oldest elements.", "quantifier": "every sequence of write/pop/flush/lookup calls", "why_tests_cant": "Depends on insertion order and history.", "anchors": ["include/readout/models/SkipListLatencyBufferModel.hpp: write, read, pop, lower_bound, front, back, flush"]}
{"id": "C11", "title": "A found data request returns exactly the requested frames", "statement": "When a data request is answered as found, the fragment contains exactly the stored frames whose timestamp t satisfies window_begin <= t < window_end, in time order and without duplicates.", "quantifier": "every sorted buffer contents (any wrap position, with or without gaps), every window", "why_tests_cant": "Boundary frames, partial superchunks and gaps combine in unboundedly many ways.", "anchors": ["include/readout/models/DefaultRequestHandlerModel.hpp: data_request", "include/readout/ReadoutTypes.hpp: begin/end/get_num_frames"]}
{"id": "C12", "title": "Data request classification is complete and consistent", "statement": "For every buffer state and window the outcome is exactly one of: found (oldest stored <= window_begin and window_end <= newest stored), gone (oldest stored > window_begin), not yet (otherwise), empty buffer; the 'uncategorised' outcome never occurs; the data-not-found error bit is set iff the returned fragment is not a found one; exactly the matching counters advance.", "quantifier": "every buffer contents, every window, running or stopping", "why_tests_cant": "Exhaustive case analysis over unbounded timestamps.", "anchors": ["include/readout/models/DefaultRequestHandlerModel.hpp: data_request, create_fragment_header, get_info"]}
{"id": "C13", "title": "A found fragment is complete with respect to everything ever received", "statement": "If the frames accepted by the buffer arrive in increasing time order, a found fragment contains every frame of the window that was ever accepted, and no frame of that window can arrive later.", "quantifier": "every history of received payloads, cleanups and requests", "why_tests_cant": "Quantifies over all histories and all future arrivals.", "anchors": ["include/readout/models/DefaultRequestHandlerModel.hpp: data_request, cleanup", "include/readout/models/ReadoutModel.hpp: run_consume"]}
{"id": "C14", "title": "Every fragment echoes its request", "statement": "Every fragment sent in response to a request (found, not found, timed out, end of run, or from the empty-fragment handler) carries that request's trigger number, trigger timestamp, window, run and sequence number and the configured link identity.", "quantifier": "every request and every path that emits a fragment", "why_tests_cant": "Many emission paths.", "anchors": ["include/readout/models/DefaultRequestHandlerModel.hpp: create_fragment_header, create_empty_fragment, check_waiting_requests, issue_request", "include/readout/models/EmptyFragmentRequestHandlerModel.hpp: issue_request"]}
{"id": "C15", "title": "The waiting-request scan neither loses nor duplicates requests", "statement": "One pass over the parked requests treats every parked request exactly once: it is either reissued (its window now ends before the newest data), answered with an empty error fragment (retries exhausted or run ended), or kept with its retry count increased by one.", "quantifier": "every list of parked requests, every newest timestamp, every retry limit, run marker on or off", "why_tests_cant": "Swap-and-pop removal while iterating is position dependent.", "anchors": ["include/readout/models/DefaultRequestHandlerModel.hpp: check_waiting_requests"]}
{"id": "C16", "title": "Parked requests are answered within a bounded number of passes", "statement": "A request parked during a run leaves the waiting list after at most retry_count + 1 passes; once the run has stopped it leaves at the next pass.", "quantifier": "every parked request, every evolution of the newest timestamp", "why_tests_cant": "Liveness bound over all evolutions of the buffer.", "anchors": ["include/readout/models/DefaultRequestHandlerModel.hpp: check_waiting_requests"]}
{"id": "C17", "title": "Every data request is answered exactly once by the end of the run", "statement": "For every request handed to the handler, exactly one fragment is pushed to the response queue by the time stop() returns.", "quantifier": "every schedule of pool threads, the waiting-list thread and stop()", "why_tests_cant": "The outcome depends on the schedule around stop.", "anchors": ["include/readout/models/DefaultRequestHandlerModel.hpp: issue_request, check_waiting_requests, stop"]}
{"id": "C18", "title": "A request is never answered twice", "statement": "In no schedule are two fragments pushed for the same issued request.", "quantifier": "every schedule of pool threads and the waiting-list thread, any number of requests", "why_tests_cant": "Schedules cannot be enumerated.", "anchors": ["include/readout/models/DefaultRequestHandlerModel.hpp: issue_request, check_waiting_requests"]}
{"id": "C19", "title": "Cleanup never overlaps a running request", "statement": "While any request is reading the latency buffer no cleanup is popping it, and vice versa.", "quantifier": "every interleaving of any number of request threads with the cleanup thread", "why_tests_cant": "Mutual exclusion over all interleavings.", "anchors": ["include/readout/models/DefaultRequestHandlerModel.hpp: issue_request, cleanup_check, record"]}
{"id": "C20", "title": "Cleanup and requests never deadlock each other", "statement": "From every reachable state of the cleanup/request protocol with unfinished work some thread can take a step, and a pending cleanup gets to run once the requests running at that time finish.", "quantifier": "every reachable protocol state", "why_tests_cant": "Deadlock freedom over all schedules.", "anchors": ["include/readout/models/DefaultRequestHandlerModel.hpp: cleanup_check, issue_request"]}
{"id": "C21", "title": "Cleanup only discards the oldest data and respects its size limit", "statement": "A cleanup pass does nothing when occupancy is at or below the pop limit; otherwise it removes only a prefix of the oldest elements, at most the configured fraction of the occupancy, and never an element at or after the next timestamp to record.", "quantifier": "every buffer contents, pop limit, pop size and recording position", "why_tests_cant": "Quantifies over contents and configuration.", "anchors": ["include/readout/models/DefaultRequestHandlerModel.hpp: cleanup, cleanup_check"]}
{"id": "C22", "title": "Cleanup never touches an empty buffer", "statement": "A cleanup pass is free of undefined behaviour for every accepted configuration.", "quantifier": "every configuration accepted by conf() and every buffer state", "why_tests_cant": "A null dereference only for extreme configurations/occupancies.", "anchors": ["include/readout/models/DefaultRequestHandlerModel.hpp: conf, cleanup"]}
{"id": "C23", "title": "Error registry reflects the latest interval per error", "statement": "has_error(name) is true iff an interval was added under that name and no later remove_errors_until(t) had t past the end of the latest interval added under that name; has_error() is true iff some error is present.", "quantifier": "every sequence of add_error/remove_errors_until calls", "why_tests_cant": "History property.", "anchors": ["include/readout/FrameErrorRegistry.hpp: add_error, remove_errors_until, has_error"]}
{"id": "C24", "title": "Missing frames in the buffer are always flagged", "statement": "At every point of a run, if the missing-frames error is not registered then the payloads stored in the latency buffer are gap-free, so the fixed-rate lookup is exact.", "quantifier": "every history of received timestamps, buffer overflows and cleanups", "why_tests_cant": "Interaction of preprocessing, buffer overflow and cleanup over all histories.", "anchors": ["src/wib/WIBFrameProcessor.hpp: timestamp_check", "src/wib2/WIB2FrameProcessor.hpp: timestamp_check", "include/readout/models/ReadoutModel.hpp: run_consume", "include/readout/models/DefaultRequestHandlerModel.hpp: cleanup, data_request"]}
{"id": "C25", "title": "Recording writes no payload twice and keeps time order", "statement": "During one recording the sequence of payloads written has strictly increasing timestamps, hence no payload is written twice.", "quantifier": "every interleaving of recording steps, arrivals and cleanups; every data type", "why_tests_cant": "History and schedule property.", "anchors": ["include/readout/models/DefaultRequestHandlerModel.hpp: record"]}
{"id": "C26", "title": "Recording loses no payload to cleanup", "statement": "From the first payload recorded onwards, no cleanup discards a payload that has not been written yet, and everything stored before the recording position has been written.", "quantifier": "every interleaving of recording steps, arrivals and cleanups", "why_tests_cant": "History and schedule property.", "anchors": ["include/readout/models/DefaultRequestHandlerModel.hpp: record, cleanup"]}
{"id": "C27", "title": "Recording always makes progress while data is available", "statement": "While a recording is active and the buffer holds a payload at or after the recording position, the next recording step writes at least one payload.", "quantifier": "every reachable state during a recording", "why_tests_cant": "Depends on gaps coinciding with cleanups.", "anchors": ["include/readout/models/DefaultRequestHandlerModel.hpp: record, cleanup", "include/readout/models/BinarySearchQueueModel.hpp: lower_bound"]}
{"id": "C28", "title": "TP sets partition time", "statement": "The TP sets sent by the TP handler have strictly increasing, pairwise disjoint windows aligned to the window size, consecutive sequence numbers starting at 0 after reset, and every TP in a set lies in the set's window and is listed in time order.", "quantifier": "every sequence of add/send calls with non-decreasing current time", "why_tests_cant": "History property over unbounded call sequences.", "anchors": ["include/readout/utils/TPHandler.hpp: add_tp, try_sending_tpsets, reset"]}
{"id": "C29", "title": "Every accepted TP is sent exactly once or still pending", "statement": "At any time the accepted TPs are exactly the TPs already sent (each in exactly one set and once as an individual TP) plus the TPs still buffered.", "quantifier": "every sequence of calls", "why_tests_cant": "History property.", "anchors": ["include/readout/utils/TPHandler.hpp: add_tp, try_sending_tpsets"]}
{"id": "C30", "title": "No TP is accepted for a window that was already sent", "statement": "add_tp accepts a TP iff its start time plus the timeout is later than the current time, and an accepted TP never belongs to a window at or before one already sent.", "quantifier": "every sequence of calls with non-decreasing current time", "why_tests_cant": "History property.", "anchors": ["include/readout/utils/TPHandler.hpp: add_tp, try_sending_tpsets"]}
{"id": "C31", "title": "Stitched raw TPs account for every hit", "statement": "Each hit of a raw TP frame ends up in exactly one completed or pending trigger primitive of its channel.", "quantifier": "every sequence of raw TP frames", "why_tests_cant": "History property; per-channel state machine.", "anchors": ["src/wib/RAWWIBTriggerPrimitiveProcessor.hpp: tp_stitch"]}
{"id": "C32", "title": "Hit finder pedestal state stays in range", "statement": "For 12-bit ADC input, the pedestal and quartile estimates stay within the 12-bit range (up to the initial +-3 offset), the accumulators stay within +-10, and no 16-bit arithmetic of the tracking wraps.", "quantifier": "every sample stream of any length", "why_tests_cant": "Long-run invariant over all inputs.", "anchors": ["src/wib/tpg/ProcessAVX2.hpp: frugal_accum_update_avx2", "src/wib/tpg/ProcessNaive.hpp: frugal_accum_update", "src/wib/tpg/ProcessingInfo.hpp: setState"]}
{"id": "C33", "title": "Vectorised and scalar hit finders agree", "statement": "On every channel and every input the AVX2 hit finder reports the same hits as the scalar reference implementation.", "quantifier": "every input window, every state produced by earlier windows, every channel", "why_tests_cant": "Equivalence of two programs over all inputs and states.", "anchors": ["src/wib/tpg/ProcessAVX2.hpp: process_window_avx2", "src/wib/tpg/ProcessNaive.hpp: process_window_naive"]}
{"id": "C34", "title": "Channels do not influence each other", "statement": "The hits reported for a channel depend only on that channel's samples.", "quantifier": "every input on all channels, every reachable state", "why_tests_cant": "Cross-lane effects need particular values on neighbouring channels.", "anchors": ["src/wib/tpg/ProcessAVX2.hpp: process_window_avx2 (threshold computation)"]}
{"id": "C35", "title": "Splitting the stream into superchunks does not change the hits", "statement": "Processing a stream window by window yields the same hits (with times relative to the window) and final state as processing it in one pass.", "quantifier": "every stream and every split into windows", "why_tests_cant": "Quantifies over all splits.", "anchors": ["src/wib/tpg/ProcessAVX2.hpp: process_window_avx2", "src/wib/tpg/ProcessNaive.hpp: process_window_naive"]}
{"id": "C36", "title": "One hit per over-threshold run with the right duration", "statement": "Each maximal run of over-threshold samples that ends produces exactly one hit, whose end time is the sample after the run and whose time over threshold is the run length.", "quantifier": "every over-threshold pattern, including runs spanning superchunks", "why_tests_cant": "All patterns.", "anchors": ["src/wib/tpg/ProcessAVX2.hpp: process_window_avx2"]}
{"id": "C37", "title": "Decoding the hit buffer recovers every hit", "statement": "The consumer of the hit buffer recovers exactly the hits that ended in the superchunk, stops at the terminator, and neither producer nor consumer runs past the 100000-entry buffer.", "quantifier": "every superchunk and state", "why_tests_cant": "All hit patterns.", "anchors": ["src/wib/WIBFrameProcessor.hpp: find_collection_hits", "src/wib/tpg/ProcessAVX2.hpp"]}
{"id": "C38", "title": "Frame expansion unpacks every ADC value", "statement": "Expanding a pair of packed segments yields the sixteen 12-bit ADC values of the packed format, zero-extended to 16 bits, in channel order.", "quantifier": "every bit pattern of the packed data", "why_tests_cant": "2^192 inputs.", "anchors": ["src/wib/tpg/FrameExpand.hpp: expand_two_segments"]}
{"id": "C39", "title": "Expanded registers match the channel tables", "statement": "For every frame, position p of the collection (induction) registers holds the ADC value of the channel that the collection (induction) table assigns to p, and the two tables together list each of the 256 channels exactly once.", "quantifier": "every frame contents, every register position", "why_tests_cant": "All frame contents; composition of many shuffles.", "anchors": ["src/wib/tpg/FrameExpand.hpp: get_block_divided_adcs, get_frame_divided_adcs", "src/wib/tpg/FrameExpand.cpp: collection_index_to_chan, induction_index_to_chan"]}
{"id": "C40", "title": "Timestamps written to a payload read back unchanged", "statement": "For every payload type with a settable timestamp, setting the first timestamp and reading it back yields the same value (within the field width of the format), and faked timestamps are evenly spaced.", "quantifier": "every 64-bit timestamp and every prior contents of the payload", "why_tests_cant": "2^64 timestamps.", "anchors": ["include/readout/ReadoutTypes.hpp: set_first_timestamp, get_first_timestamp, fake_timestamps", "include/readout/RawWIBTp.hpp: TpHeader"]}
{"id": "C41", "title": "Discontinuities are detected exactly", "statement": "The WIB/WIB2 timestamp check registers a missing-frames error for a payload iff its timestamp is not the previous timestamp plus one superchunk; in emulator mode the timestamps it assigns are perfectly continuous.", "quantifier": "every sequence of received timestamps", "why_tests_cant": "History property over all streams.", "anchors": ["src/wib/WIBFrameProcessor.hpp: timestamp_check", "src/wib2/WIB2FrameProcessor.hpp: timestamp_check"]}
{"id": "C42", "title": "Errored-frame forwarding is throttled", "statement": "Per error bit, the number of frames forwarded never exceeds the configured threshold plus one per configured number of processed frames; each frame is forwarded at most once; the total error count equals the number of set error bits.", "quantifier": "every sequence of frames and error patterns", "why_tests_cant": "History property.", "anchors": ["src/wib/WIBFrameProcessor.hpp: frame_error_check"]}
{"id": "C43", "title": "Reusable worker thread runs each accepted task exactly once", "statement": "Each task accepted by set_work is executed exactly once and tasks never overlap; destroying the thread object ends the worker thread and only then returns.", "quantifier": "every interleaving of the caller and the worker thread", "why_tests_cant": "Schedules.", "anchors": ["include/readout/utils/ReusableThread.hpp: set_work, thread_worker, get_readiness"]}
{"id": "C44", "title": "A ready worker accepts and starts work", "statement": "If get_readiness() returned true and nobody else assigned work, the next set_work is accepted and the task eventually runs.", "quantifier": "every interleaving of caller and worker", "why_tests_cant": "Lost-wakeup and narrow windows are schedule dependent.", "anchors": ["include/readout/utils/ReusableThread.hpp"]}
{"id": "C45", "title": "Recorded files read back what was written", "statement": "Without compression, a file written through the buffered writer into a fresh file and closed reads back through the buffered reader as exactly the written records in order, after which reading reports failure; writes to a closed or never opened writer are refused.", "quantifier": "every sequence of records, every buffer size, every interleaving of flush calls", "why_tests_cant": "All record sequences and buffer sizes.", "anchors": ["include/readout/utils/BufferedFileWriter.hpp", "include/readout/utils/BufferedFileReader.hpp"]}
{"id": "C46", "title": "Opening an existing file overwrites it", "statement": "After opening an existing file and writing, the file contains exactly the newly written data.", "quantifier": "every previous file contents and every written data", "why_tests_cant": "Depends on relative lengths.", "anchors": ["include/readout/utils/BufferedFileWriter.hpp: open"]}
{"id": "C47", "title": "Source emulator replays the input cyclically", "statement": "The emulator emits the payloads of its source file cyclically in file order with timestamps advancing by a constant step, and never reads outside the file contents.", "quantifier": "every source size, every number of iterations, every dropout pattern", "why_tests_cant": "All file sizes and run lengths.", "anchors": ["include/readout/models/SourceEmulatorModel.hpp: run_produce", "include/readout/utils/FileSourceBuffer.hpp: read"]}
{"id": "C48", "title": "Rate limiter never exceeds its rate", "statement": "Between any two calls the number of times limit() returns in an interval is at most the interval length divided by the period, plus a constant number of catch-up calls.", "quantifier": "every sequence of call times", "why_tests_cant": "All call timings.", "anchors": ["include/readout/utils/RateLimiter.hpp: limit"]}
{"id": "C49", "title": "Every received payload is accounted for", "statement": "Each payload popped from the raw input queue is preprocessed exactly once before it becomes visible to requests, and is then either stored or counted as dropped; payload counters equal the number popped.", "quantifier": "every sequence of arrivals and buffer states", "why_tests_cant": "History property.", "anchors": ["include/readout/models/ReadoutModel.hpp: run_consume", "include/readout/models/TaskRawDataProcessorModel.hpp"]}
{"id": "C50", "title": "Post-processing sees stored payloads in order", "statement": "Each post-processing function is invoked on stored payloads in storage order, each at most once, and everything accepted before stop is processed before stop returns.", "quantifier": "every interleaving of the consumer and post-processing threads", "why_tests_cant": "Schedules.", "anchors": ["include/readout/models/TaskRawDataProcessorModel.hpp: postprocess_item, run_post_processing_thread", "include/readout/models/ReadoutModel.hpp: run_consume"]}
{"id": "C51", "title": "Readout type selection is consistent across modules", "statement": "For every queue instance name, the data-link handler, the fake card and the recorder agree on the detector data type, whenever they accept the name.", "quantifier": "every string", "why_tests_cant": "All strings; substring overlap.", "anchors": ["src/CreateReadout.hpp: createReadout", "src/CreateSourceEmulator.hpp: createSourceEmulator", "plugins/DataRecorder.cpp: init"]}
{"id": "C52", "title": "Photon-detector list cleanup bounds the stored time span", "statement": "After a cleanup of the sorted-list photon-detector buffer the stored time span does not exceed the limit, only oldest payloads were removed, the newest is kept, and the cleanup terminates.", "quantifier": "every buffer contents", "why_tests_cant": "All contents.", "anchors": ["src/daphne/DAPHNEListRequestHandler.hpp: daphne_cleanup_request"]}
{"id": "C53", "title": "Recorder module stores the popped stream", "statement": "The recorder's output file is the concatenation of the payloads popped from the input queue, in order, until stop or the first write error; the counter equals the number popped.", "quantifier": "every stream of arrivals", "why_tests_cant": "History property.", "anchors": ["include/readout/models/RecorderModel.hpp: do_work"]}
{"id": "C54", "title": "Fake triggers request a window of fixed length in the past", "statement": "Every fake trigger request has a window of exactly 300000 ticks starting at most 500100 ticks before the current time, never before zero, with increasing trigger numbers.", "quantifier": "every evolution of the current time", "why_tests_cant": "All times incl. near zero.", "anchors": ["include/readout/models/ReadoutModel.hpp: run_timesync"]}
{"id": "C55", "title": "Copying into a wrapped buffer preserves the data", "statement": "dump_to_buffer copies the source bytes in order into the circular destination starting at the given position.", "quantifier": "every source length, position and buffer size", "why_tests_cant": "All lengths and wrap positions.", "anchors": ["include/readout/models/DefaultRequestHandlerModel.hpp: dump_to_buffer"]}
{"id": "C56", "title": "Zero-copy recording writes the buffer contents", "statement": "The zero-copy recording writes exactly the bytes of the payloads from the recording start onwards, in order, in aligned blocks.", "quantifier": "every buffer position and arrival pattern", "why_tests_cant": "Wrap-around plus alignment arithmetic.", "anchors": ["include/readout/models/ZeroCopyRecordingRequestHandlerModel.hpp: record"]}
{"id": "C57", "title": "Raw TP emulator replays well-formed files", "statement": "On a file that is a concatenation of well-formed raw TP frames, the emulator emits these frames cyclically, each with its hits, and never reads outside the file.", "quantifier": "every well-formed file, every number of iterations", "why_tests_cant": "All files.", "anchors": ["src/wib/TPEmulatorModel.hpp: run_produce, unpack_tpframe_version_1, unpack_tpframe_version_2"]}
{"id": "C58", "title": "Recording never reads discarded payloads", "statement": "While a recording runs, the recording thread only ever looks at payloads that are still stored in the latency buffer.", "quantifier": "every interleaving of recording, arrivals and cleanups", "why_tests_cant": "The failing schedule is a race.", "anchors": ["include/readout/models/DefaultRequestHandlerModel.hpp: record, cleanup"]}
{"id": "C59", "title": "Trigger primitives are sent with bounded delay", "statement": "If sending is attempted at least once per TP set window, every accepted TP leaves the handler no later than the first attempt two windows plus the timeout after its start.", "quantifier": "every sequence of add/send calls with non-decreasing current time and attempts at most a window apart", "why_tests_cant": "History property; depends on the backlog.", "anchors": ["include/readout/utils/TPHandler.hpp: add_tp, try_sending_tpsets"]}
{"id": "C60", "title": "Stitched trigger primitives have the right time over threshold", "statement": "A completed trigger primitive's time over threshold is the time from the start of its first hit to the end of its last hit.", "quantifier": "every two-part hit", "why_tests_cant": "All timestamps.", "anchors": ["src/wib/RAWWIBTriggerPrimitiveProcessor.hpp: tp_stitch"]}
{"id": "C61", "title": "Reconfiguring keeps post-processing single", "statement": "However often a link is configured before it is started, each stored payload is handed to the configured post-processing function exactly once and no internal queue is left unread.", "quantifier": "every number of successive conf commands", "why_tests_cant": "Unit tests configure once.", "anchors": ["src/wib/WIBFrameProcessor.hpp: conf", "include/readout/models/TaskRawDataProcessorModel.hpp: conf, start, postprocess_item"]}
{"id": "C62", "title": "Emulated error injection follows its rate", "statement": "The emulator's error generator never leaves its tables; with an error rate of zero it never injects an error word, and with a rate of one every frame gets an error word from its table.", "quantifier": "every number of frames and every random table", "why_tests_cant": "Random tables; long runs.", "anchors": ["include/readout/utils/ErrorBitGenerator.hpp: next, generate"]}
{"id": "C63", "title": "A payload in a fragment or recording is complete", "statement": "A payload that lies inside a requested window, or that is recorded, appears with all of its bytes, for every payload type; copying its frames one by one yields the same bytes.", "quantifier": "all payload types and payload contents", "why_tests_cant": "Sizes are compile-time constants spread over several accessors; tests that check the number of bytes use the same accessor.", "anchors": ["include/readout/ReadoutTypes.hpp: get_payload_size, get_frame_size, get_num_frames", "include/readout/models/DefaultRequestHandlerModel.hpp: data_request, record"]}
{"id": "C64", "title": "A data request searches from the beginning of its window", "statement": "For every payload type, the search for the first payload of a data request starts from the requested window begin and does not depend on uninitialised memory.", "quantifier": "all window begins, all previous memory contents", "why_tests_cant": "A test sees one particular content of uninitialised memory, often zero, for which the answer is right.", "anchors": ["include/readout/models/DefaultRequestHandlerModel.hpp: data_request", "include/readout/NDReadoutTypes.hpp: set_first_timestamp"]}
{"id": "C65", "title": "Emulated raw TP payloads are released correctly", "statement": "Every payload emitted by the raw TP emulator is released by the routine matching its allocation, and the emulator gives up no object without releasing it.", "quantifier": "all files and numbers of emitted frames", "why_tests_cant": "Mismatched release and leaks have no effect visible to a functional test.", "anchors": ["src/wib/TPEmulatorModel.hpp: run_produce, unpack_tpframe_version_1, unpack_tpframe_version_2", "include/readout/ReadoutTypes.hpp: RAW_WIB_TRIGGERPRIMITIVE_STRUCT"]}
{"id": "C66", "title": "No hit without a signal", "statement": "A hit is reported only for samples at which the filtered pedestal-subtracted signal exceeds the threshold, computed without overflow, and its charge is the sum of these filtered values; a signal that only goes below the pedestal gives no hit.", "quantifier": "all sample streams on a channel", "why_tests_cant": "Needs large negative excursions; overflow of 16-bit intermediate values.", "anchors": ["src/wib/tpg/ProcessAVX2.hpp: process_window_avx2", "src/wib/tpg/ProcessNaive.hpp: process_window_naive"]}
{"id": "C67", "title": "Frame expansion stays inside the superchunk", "statement": "Expanding the frames of a superchunk reads only bytes of that superchunk.", "quantifier": "all superchunks, at every place in memory", "why_tests_cant": "An over-read of a few bytes has no effect on the results; only the last frame of a payload at the end of an allocation would fault.", "anchors": ["src/wib/tpg/FrameExpand.hpp: expand_two_segments, get_frame_divided_adcs, expand_message_adcs_inplace"]}
{"id": "C68", "title": "Trigger primitive times are sample times", "statement": "When consecutive superchunks carry contiguous timestamps, the trigger primitive made from a hit starts at the timestamp of the first over-threshold sample, lasts 25 ticks per over-threshold sample, and its peak time lies between start and end, also if the signal spans several superchunks.", "quantifier": "all streams, all positions of the signal relative to superchunk boundaries", "why_tests_cant": "All positions and lengths of signals.", "anchors": ["src/wib/WIBFrameProcessor.hpp: find_collection_hits", "src/wib/tpg/ProcessAVX2.hpp: process_window_avx2"]}
{"id": "C69", "title": "Software hits are reported for the right electronics channel", "statement": "Running the software hit finder on superchunks in memory, the hits reported with an electronics channel number are exactly the hits in the sequence of ADC values which the frames carry for that channel, and only collection channels are reported.", "quantifier": "all contents of all superchunks of a run, all 96 collection channels", "why_tests_cant": "Composition of bit unpacking, register shuffles, transposition by time, vector processing, output buffer and channel table; a single wrong position shows only on some channels.", "anchors": ["src/wib/WIBFrameProcessor.hpp: find_collection_hits", "src/wib/tpg/FrameExpand.hpp", "src/wib/tpg/FrameExpand.cpp", "src/wib/tpg/ProcessAVX2.hpp"]}
{"id": "C70", "title": "A fragment without error is exact with respect to the whole run", "statement": "Over any number of runs, with data arriving, the buffer being cleaned and requests being made, retried and given up in any order, a fragment sent without the error bit carries exactly the frames of the requested window among all payloads the link received in that run, in time order and none twice; a window between the oldest and the newest stored payload is answered at once; a fragment with the error bit carries no frames.", "quantifier": "all interleavings of start, stop, arrivals, cleanups, requests, retries; all timestamps and windows", "why_tests_cant": "Combines timestamp checks, error flags, buffer wrap-around, cleanup, lookup and extraction; a test fixes one schedule and one data pattern.", "anchors": ["include/readout/models/ReadoutModel.hpp: start, stop, run_consume, run_requests", "include/readout/models/DefaultRequestHandlerModel.hpp: data_request, cleanup, check_waiting_requests, start, stop"]}
{"id": "C71", "title": "Runs are independent", "statement": "A fragment is sent in the run in which its request was issued and contains only data received in that run.", "quantifier": "all sequences of runs, all interleavings of stop with requests in progress", "why_tests_cant": "The window in which a request survives the end of a run is a few instructions wide.", "anchors": ["include/readout/models/ReadoutModel.hpp: start, stop", "include/readout/models/DefaultRequestHandlerModel.hpp: start, stop, issue_request, check_waiting_requests"]}
{"id": "C72", "title": "A rejected configuration has no effect", "statement": "If a configuration is reported as out of range (a cleanup fraction below 0 or above 1), the link behaves afterwards as if it had not been given.", "quantifier": "all earlier configurations, all out-of-range fractions, all buffer contents", "why_tests_cant": "Error reports are not exceptions, so a test sees only the message; the effect is on a later cleanup with particular contents.", "anchors": ["include/readout/models/DefaultRequestHandlerModel.hpp: conf, cleanup"]}
{"id": "C73", "title": "A full buffer is relieved by the next cleanup", "statement": "With any accepted configuration, when the latency buffer is full and no recording holds it, the next cleanup makes room, so that the following payload is stored; repeated cleanups bring the occupancy down to the configured limit.", "quantifier": "all accepted fractions and capacities, all buffer contents, all floating-point roundings of single-precision accuracy", "why_tests_cant": "Depends on real-valued settings and on rounding; tests use one setting.", "anchors": ["include/readout/models/DefaultRequestHandlerModel.hpp: conf, cleanup_check, cleanup, periodic_cleanups", "include/readout/models/IterableQueueModel.hpp: write, popXFront"]}
{"id": "C74", "title": "Recordings go to the configured file", "statement": "The record command writes into the output file named by the latest configuration, and is refused if that configuration has raw recording disabled.", "quantifier": "all sequences of configurations and scraps", "why_tests_cant": "Needs sequences of commands which the tests never make.", "anchors": ["include/readout/models/DefaultRequestHandlerModel.hpp: conf, record"]}
{"id": "C75", "title": "Monitoring reports account for everything", "statement": "Summed over all reports, the reported numbers of payloads and of requests equal what the link handled, each item being in exactly one report; the reported totals are those of the current run.", "quantifier": "all interleavings of the counting threads with reports, starts and stops; all numbers of items", "why_tests_cant": "Lost counts depend on the order in which threads begin; the overflow needs hours of running.", "anchors": ["include/readout/models/ReadoutModel.hpp: start, get_info, run_consume, run_timesync, run_requests"]}
{"id": "C76", "title": "An emulator card accepts exactly the complete configurations", "statement": "An emulator card accepts a configuration if and only if it names every output link exactly once, no other, with readable files; it then replays for each link the file named for it. A rejected configuration can be followed by a corrected one, and only a configured card can be started.", "quantifier": "all sets of links, all configurations, all histories of accepted and rejected configurations and scraps, all file systems", "why_tests_cant": "Depends on the history of earlier, partly applied commands.", "anchors": ["plugins/FakeCardReader.cpp: init, do_conf, do_scrap, do_start", "include/readout/models/SourceEmulatorModel.hpp: conf, scrap, start"]}
{"id": "C77", "title": "Destroying a module ends its threads and closes its files", "statement": "When a module is destroyed, the destructor of everything it owns runs: worker threads are ended and joined, files are closed.", "quantifier": "all modules, all numbers of links and of processing threads", "why_tests_cant": "Undefined behaviour which usually goes unnoticed at process exit.", "anchors": ["include/readout/concepts/ReadoutConcept.hpp", "include/readout/concepts/SourceEmulatorConcept.hpp", "include/readout/concepts/RecorderConcept.hpp", "plugins/DataLinkHandler.hpp", "plugins/FakeCardReader.hpp", "plugins/DataRecorder.hpp"]}
{"id": "C78", "title": "Disorder of PACMAN messages is counted", "statement": "The number of timestamp errors reported for a PACMAN link counts every message whose timestamp is not larger than that of the message before it, and the timestamp reported as last processed is the newest one.", "quantifier": "all sequences of messages and timestamps", "why_tests_cant": "Needs messages out of order at every distance; unsigned arithmetic hides the ones that matter.", "anchors": ["src/pacman/PACMANFrameProcessor.hpp: timestamp_check"]}
{"id": "C79", "title": "Time synchronisation messages carry the newest timestamp of the run", "statement": "Every time synchronisation message sent by a link carries a non-zero timestamp that was processed in the same run and was the newest processed when it was read; along a run the timestamps sent do not decrease if the data do not go backwards; a link whose processing never records a timestamp sends none.", "quantifier": "all interleavings of the processing thread, the time synchronisation thread and run start and stop", "why_tests_cant": "Depends on which thread is between which two instructions when a run stops and the next starts.", "anchors": ["include/readout/models/ReadoutModel.hpp: run_timesync", "include/readout/models/TaskRawDataProcessorModel.hpp: start, get_last_daq_time"]}
{"id": "C80", "title": "The low-pass filter of the hit finder has the designed taps", "statement": "For any number of taps and cutoff the designed filter passes a constant unchanged and is symmetric; rounding to integers changes the gain by at most half a unit per tap; the filter in use has the taps 1, 6, 15, 20, 15, 6, 1 and 0 whatever the rounding errors of the floating-point library (up to a tenth of a unit), with gain 64.", "quantifier": "all numbers of taps, cutoffs and multipliers; all floating-point errors up to the bound", "why_tests_cant": "A test on one machine shows the taps of that machine's mathematical library only.", "anchors": ["src/wib/tpg/DesignFIR.cpp: hamming, sinc, firwin, firwin_int", "src/wib/WIBFrameProcessor.hpp: constructor"]}
{"id": "C81", "title": "Requests on sorted-list links", "statement": "On a link whose buffer sorts by time (photon-detector list, PACMAN) every data request is classified like on the other links and never crashes, and a fragment without error carries exactly the stored frames of its window.", "quantifier": "all sorted contents, windows, request keys and counters", "why_tests_cant": "Depends on where payload borders fall relative to the window and, for PACMAN, on uninitialised memory.", "anchors": ["include/readout/models/DefaultRequestHandlerModel.hpp: data_request", "include/readout/models/SkipListLatencyBufferModel.hpp: lower_bound", "src/pacman/PACMANListRequestHandler.hpp"]}
{"id": "C82", "title": "Sorted-list links keep and serve everything received", "statement": "With payloads arriving in any order and the photon-detector cleanup running at any time, the link never crashes, and a fragment without error carries the frames in its window of all payloads received in the run.", "quantifier": "all arrival orders, cleanups and windows", "why_tests_cant": "The failing cases need a late payload exactly after a cleanup, or equal times.", "anchors": ["src/daphne/DAPHNEListRequestHandler.hpp: daphne_cleanup_request", "include/readout/models/SkipListLatencyBufferModel.hpp: write", "include/readout/models/ReadoutModel.hpp: run_consume", "include/readout/NDReadoutTypes.hpp"]}
{"id": "C83", "title": "A request is answered on its own response queue", "statement": "Every request queue named in the configuration is served, each request taken from it is answered on the response queue of the same number, at most once, whether it is answered at once, after waiting, or given up.", "quantifier": "all configurations, any number of queues, all interleavings of requests, pool tasks, retries and give-ups", "why_tests_cant": "Needs several queues with requests being parked and retried at the same time.", "anchors": ["include/readout/models/ReadoutModel.hpp: setup_request_response_queues, run_requests, run_timesync", "include/readout/models/DefaultRequestHandlerModel.hpp: issue_request, check_waiting_requests"]}
{"id": "C84", "title": "Trigger primitive links answer every request at once with an empty fragment", "statement": "On trigger primitive links each request gets, immediately and in order, one fragment with the error bit, the link's address and the request's fields, on the queue it belongs to.", "quantifier": "all sequences of requests on any number of queues, with response queues full at any time", "why_tests_cant": "Needs full response queues and the end of the run at every point.", "anchors": ["include/readout/models/EmptyFragmentRequestHandlerModel.hpp: issue_request", "include/readout/models/ReadoutModel.hpp: run_requests"]}
{"id": "C85", "title": "Consumer modules take every packet once and count it", "statement": "Over any number of runs a consumer module hands each packet of its queue to its callback at most once and in order, loses none across stop and start, and reports the number handed over since the last start.", "quantifier": "all interleavings of producer, start, stop and work thread over any number of runs", "why_tests_cant": "The stop may fall between any two instructions of the work loop.", "anchors": ["plugins/DummyConsumer.cpp: do_start, do_stop, do_work, get_info"]}
{"id": "C86", "title": "Every signal becomes exactly one trigger primitive in a set", "statement": "With software hit finding on a WIB link whose superchunks are 300 ticks apart, every run of samples over threshold on a collection channel leads to exactly one trigger primitive, with the start time and duration of the run, and this is sent in exactly one TP set whose window contains its start time; nothing else is sent.", "quantifier": "all sample values, run lengths, timeouts, window sizes, run durations and behaviours of the output queues", "why_tests_cant": "Combines tracking, filtering, hit finding, timestamps, the timeout and the sending loop over whole runs; the losses depend on where in a superchunk a signal ends and on when the run stops.", "anchors": ["src/wib/WIBFrameProcessor.hpp: find_collection_hits", "include/readout/utils/TPHandler.hpp: add_tp, try_sending_tpsets"]}
{"id": "C87", "title": "Concurrent calls on the error registry take effect one at a time", "statement": "The consumer, cleanup and request threads of a link use the error registry concurrently. Whatever the schedule, the calls and their answers are those of a registry on which each call takes effect in one instant between its call and its return; in particular an error that was added and not removed is found by every later query, and no two threads access the registry's storage without synchronisation when one of them writes.", "quantifier": "any number of threads, all call sequences, all interleavings of the accesses to map and mutex", "why_tests_cant": "The failing window is a few instructions between erase and insert; schedules cannot be enumerated by tests.", "anchors": ["include/readout/FrameErrorRegistry.hpp: add_error, remove_errors_until, has_error", "include/readout/models/DefaultRequestHandlerModel.hpp: data_request, cleanup", "src/wib/WIBFrameProcessor.hpp: timestamp_check"]}
{"id": "C88", "title": "The generated application is wired up consistently", "statement": "For every front-end type and every number of detector and trigger primitive links, the application that the configuration generator makes initialises; every connection refers to a declared queue; every queue has one reader and every single-producer queue one writer; whatever is written is read; both ends of a queue agree on the type of data; every module is configured, started and stopped exactly once, readers after writers at stop; handlers have distinct identifiers and files; and every connection is used as the configuration says, so that requests to every handler are answered.", "quantifier": "all four front-ends, all numbers of links", "why_tests_cant": "The numbers of links are unbounded, and the generator and the modules only meet at run time.", "anchors": ["python/readout/app_confgen.py: generate", "include/readout/models/ReadoutModel.hpp: init, setup_request_response_queues", "src/wib/WIBFrameProcessor.hpp: init, conf", "src/CreateReadout.hpp", "src/CreateSourceEmulator.hpp", "plugins/FakeCardReader.cpp: init, do_conf", "plugins/DummyConsumer.cpp: init"]}
{"id": "C89", "title": "Trigger primitives of a link follow from the bytes of its superchunks", "statement": "Given any sequence of superchunks in memory with consecutive timestamps, the trigger primitives sent or still pending after processing them are, for every electronics channel of the collection plane, exactly one for each time the channel's filtered, pedestal-subtracted samples are above threshold, with the times, duration and charge of that signal; there are none on other channels; every signal is counted as found; and every signal that ended sufficiently long before the last superchunk is in exactly one trigger primitive set whose aligned interval contains its start.", "quantifier": "all memory contents, all numbers of superchunks, all filter taps, windows and timeouts, all outcomes of the output queues", "why_tests_cant": "The composition of unpacking, expansion, filtering, hit finding, decoding, ordering and windowing has an unbounded input space; unit tests look at single stages with a few waveforms.", "anchors": ["src/wib/WIBFrameProcessor.hpp: find_collection_hits", "src/wib/frame_expand.hpp", "src/wib/tpg/ProcessAVX2.hpp", "include/readout/utils/TPHandler.hpp"]}
{"id": "C90", "title": "Threads access shared members without data races", "statement": "Whatever the order of commands, monitoring calls, requests, cleanups, recordings and payloads, no two threads of a link are ever about to access the same non-atomic member of the readout model, the request handler, the error registry or the raw data processor at the same time unless both only read.", "quantifier": "all interleavings of all threads, any number of pool threads, any number of runs", "why_tests_cant": "Data races depend on the interleaving; tests rarely show them and a sanitizer only sees executed schedules.", "anchors": ["include/readout/models/DefaultRequestHandlerModel.hpp: conf, start, stop, record, cleanup_check, issue_request, get_info, check_waiting_requests, data_request", "include/readout/models/ReadoutModel.hpp: start, stop, get_info, run_consume, run_timesync, run_requests", "include/readout/FrameErrorRegistry.hpp", "src/wib/WIBFrameProcessor.hpp: conf, start, stop, get_info, timestamp_check, find_collection_hits"]}
{"id": "C91", "title": "A request that runs while data arrives answers as for the contents at one moment", "statement": "Any number of data requests may run while payloads are written to the latency buffer and cleanups take place between requests. No request then reads a payload whose writing is not complete for its thread, and every request returns the code, the counters and the fragment that it would return if it had run alone on what was stored at one moment between its begin and its end; a fragment given out as found holds exactly the frames of its window among everything ever received, and data that had fully arrived before the request began, and is not cleaned up, is found.", "quantifier": "all interleavings of arrivals, cleanups and any number of concurrent requests; all values that loads may return under the C++ memory model; all buffer sizes, payload sequences, windows; both lookups", "why_tests_cant": "The answers depend on the order of single loads and stores of different threads and on memory orders; unit tests run requests on a buffer that does not change.", "anchors": ["include/readout/models/DefaultRequestHandlerModel.hpp: data_request", "include/readout/models/IterableQueueModel.hpp: occupancy, front, back, Iterator::good", "include/readout/models/BinarySearchQueueModel.hpp: lower_bound", "include/readout/models/FixedRateQueueModel.hpp: lower_bound"]}
{"id": "C92", "title": "A request to an emulated link is answered with the data of the emulator's file", "statement": "With an emulator card without dropouts feeding a link of the same kind over any number of runs, a fragment sent without the error bit has exactly one frame for every sample time of the emulator in the requested window, in time order, and the frames come from the elements of the input file taken cyclically; what the link receives in a run is what the emulator emits in it, in order, and every payload that could not be queued is counted; the link reports a gap exactly where payloads are missing.", "quantifier": "all interleavings of emulator, queue, link threads, requests and commands over any number of runs; all files, queue and buffer sizes, windows", "why_tests_cant": "Needs the whole chain from the file over the emulator's clock, the queue, the buffer and the lookup to the fragment, over all interleavings and wrap positions; unit tests exercise the parts alone.", "anchors": ["include/readout/models/SourceEmulatorModel.hpp: run_produce", "plugins/FakeCardReader.cpp: do_start, do_stop", "include/readout/models/ReadoutModel.hpp: run_consume", "include/readout/models/DefaultRequestHandlerModel.hpp: data_request", "src/CreateSourceEmulator.hpp"]}
{"id": "C93", "title": "Photon-detector links answer requests exactly with what was stored, over all runs", "statement": "On a link whose buffer is searched by bisection (DAPHNE superchunks in a queue, SSP), over any number of runs, a fragment sent without the error bit carries exactly the frames of the requested window among all payloads stored in that run, in time order, including those cleaned away since or arriving later; gaps of any length and payloads refused by a full buffer make no difference. The buffer holds the most recent part of what was stored in the run, every request is evaluated without undefined behaviour, and a window inside the stored part is answered at once.", "quantifier": "all interleavings of arrivals, cleanups, requests, retries, starts and stops over any number of runs; all timestamps that go forward; all buffer sizes and windows", "why_tests_cant": "A test covers a few runs with evenly spaced data; holes of any length, refusals and wrap positions at every point of a run cannot be enumerated.", "anchors": ["src/daphne/DAPHNEFrameProcessor.hpp: timestamp_check", "src/ssp/SSPFrameProcessor.hpp: timestamp_check", "include/readout/models/BinarySearchQueueModel.hpp: lower_bound", "include/readout/models/DefaultRequestHandlerModel.hpp: data_request", "src/CreateReadout.hpp"]}
{"id": "C94", "title": "Post-processing of a run depends on nothing but the run's payloads", "statement": "Over any number of runs, post-processing is given each payload received in a run exactly once, in order and with the contents received, starting afresh with every run, whatever the timing of the threads and although it works on pointers into a buffer whose places are reused; in particular the trigger primitives found in software at the end of a run are exactly those of the signals in the superchunks of that run.", "quantifier": "all interleavings of consumer, post-processing, cleanup, start and stop over any number of runs; all payloads, buffer and queue sizes, cleanup settings; all behaviours of the output queues", "why_tests_cant": "Whether a place in the buffer is overwritten while a pointer to it is waiting depends on the relative timing of three threads and on the settings; a test runs a few timings of one configuration.", "anchors": ["include/readout/models/ReadoutModel.hpp: run_consume, start, stop", "include/readout/models/TaskRawDataProcessorModel.hpp: postprocess_item, run_post_processing_thread, stop", "include/readout/models/DefaultRequestHandlerModel.hpp: cleanup", "src/wib/WIBFrameProcessor.hpp: start, find_collection_hits"]}
{"id": "C95", "title": "Request statistics account for every request", "statement": "In each run every data request is counted in exactly one monitoring report, as found if its fragment has no error bit and as bad otherwise; old, uncategorised and timed out requests are among the bad ones; and the reported average response time lies between the shortest and the longest response time of the requests finished since the previous report.", "quantifier": "all interleavings of the request threads, the waiting-request thread, the reports and the start command; all numbers of requests and response times", "why_tests_cant": "Reports and requests are not synchronised: which additions fall between two readings of a report depends on timing that a test cannot steer, and the sums hold only over all of them.", "anchors": ["include/readout/models/DefaultRequestHandlerModel.hpp: issue_request, get_info, check_waiting_requests, data_request, start"]}
{"id": "C96", "title": "Trigger primitive statistics account for every primitive", "statement": "In each run with software hit finding the reported numbers of hits, of trigger primitives sent, of sets sent and of primitives dropped count what happened exactly once, and every primitive found is reported as sent or as dropped or is still held.", "quantifier": "all interleavings of the hit finding thread, the reports and the start command; all primitives, times, timeouts, window sizes and behaviours of the two output queues", "why_tests_cant": "Reports and processing are not synchronised, and the sums hold only over all interleavings; the exceptions need a full queue or a run boundary at a particular moment.", "anchors": ["src/wib/WIBFrameProcessor.hpp: find_collection_hits, get_info, start", "include/readout/utils/TPHandler.hpp: add_tp, try_sending_tpsets, reset"]}
{"id": "C97", "title": "The recording file holds what the record commands asked for", "statement": "After any series of record commands and runs, whenever no recording is under way, the recording file holds exactly the payloads of the recordings made, one recording after the other and each payload once; each recording is an unbroken, time-ordered stretch of what one run stored; every record command is either carried out or answered by an error.", "quantifier": "all numbers of commands, runs, arrivals and cleanups and all their interleavings with the recording thread; all payload types with positive period, payload bytes, buffer sizes and writer settings", "why_tests_cant": "The contents of the file depend on the moments at which commands, arrivals and cleanups meet the recording thread; the lost command needs one particular moment, the lost recording a length that is no multiple of the block size.", "anchors": ["include/readout/models/DefaultRequestHandlerModel.hpp: record, stop, cleanup", "include/readout/utils/ReusableThread.hpp: set_work, get_readiness", "include/readout/utils/BufferedFileWriter.hpp: write, flush", "include/readout/models/ReadoutModel.hpp: stop"]}
{"id": "C98", "title": "The stop command of a link returns", "statement": "Once a link is told to stop, the command returns whatever the link was doing: recording, cleaning up, answering, holding or re-issuing requests, storing, synchronising or post-processing; when it has returned, no thread of the link works on and no request is being handled.", "quantifier": "all reachable states of all threads at the moment of the command, all queue contents, all interleavings afterwards, all durations of recordings, all numbers of request queues", "why_tests_cant": "Termination under every interleaving is no observable of a test run; the ways to hang need a lost notification at start or arrivals that never pause.", "anchors": ["plugins/DataLinkHandler.cpp: do_stop", "include/readout/models/ReadoutModel.hpp: stop, run_consume, run_timesync, run_requests", "include/readout/models/DefaultRequestHandlerModel.hpp: stop, record, cleanup_check, issue_request, check_waiting_requests", "include/readout/models/TaskRawDataProcessorModel.hpp: stop, run_post_processing_thread"]}
{"id": "C99", "title": "A request is answered after at most two evaluations", "statement": "During a run a data request is evaluated at most twice and met by at most retry_count + 1 passes over the waiting requests, whatever else the link does meanwhile; after that it has been answered with its data or with an empty fragment, and it is given up only if its data are not there.", "quantifier": "all runs, arrivals, gaps, cleanups, other requests and moments of the request's issue; all windows, payload types, buffer sizes and retry counts; fixed-rate and bisection lookup", "why_tests_cant": "The bound concerns every interleaving of arrivals, passes and evaluations; the requests that circulate without end need refused payloads or an odd window, and a test cannot observe 'never'.", "anchors": ["include/readout/models/DefaultRequestHandlerModel.hpp: issue_request, check_waiting_requests, data_request", "include/readout/models/FixedRateQueueModel.hpp: lower_bound"]}
{"id": "C100", "title": "Recent data stay available", "statement": "With an accepted configuration the latency buffer always holds the most recent payloads of the run, their number given by the configured size and fractions; if arrivals between two cleanup passes fit into the configured reserve, no payload is refused and every request for a window within these recent payloads is answered at its first evaluation with all frames of the window.", "quantifier": "all accepted configurations, all single precision roundings, all interleavings of arrivals, cleanup passes, requests, recordings, starts and stops over any number of runs", "why_tests_cant": "The number of payloads kept depends on the occupancy at the moment of each cleanup pass and on rounding; the bound must hold over all schedules of passes and arrivals, not on the ones a test happens to see.", "anchors": ["include/readout/models/DefaultRequestHandlerModel.hpp: conf, cleanup_check, cleanup, data_request", "include/readout/models/IterableQueueModel.hpp: write, pop"]}
{"id": "C101", "title": "The recorder module over its whole life", "statement": "Over any sequence of conf, start and stop commands the recorder takes every packet sent to it once and in order; each packet taken is in the file of the last conf before it was taken; between runs the files hold exactly the packets taken and the counter is the number of packets taken in the last run; a stop returns; the numbers of new packets reported add up to no more than were taken.", "quantifier": "all interleavings of the producer, the commands, every access of the worker thread, the file writer and reports, over any number of runs and configurations, every packet contents and buffer size", "why_tests_cant": "Depends on the interleaving of the worker's flags with commands and on histories over several runs and files.", "anchors": ["include/readout/models/RecorderModel.hpp: do_conf, do_start, do_stop, do_work, get_info", "plugins/DataRecorder.cpp", "include/readout/utils/ReusableThread.hpp", "include/readout/utils/BufferedFileWriter.hpp"]}
{"id": "C102", "title": "Settings of the generated configuration are safe", "statement": "With the buffer size and cleanup fractions that the configuration script writes for a data link, and any slowdown factor up to 5000: the settings are accepted; during a run the buffer holds the last 70 % of its size of payloads; if cleanup passes come at least once per quarter of a second of data and none meets a recording, no payload is refused, and every request for a window within the last two seconds of data is answered at once and completely; for slowdown factors up to 35 the post-processing of a run that lost nothing sees every payload once and in order.", "quantifier": "every slowdown factor, every rounding of single precision, every execution of a link (arrivals, cleanups, requests, commands)", "why_tests_cant": "Depends on rounding for every buffer size, on the interleaving of arrivals and cleanups over seconds of data and on the relation between two independent buffer sizes.", "anchors": ["python/readout/app_confgen.py: latency_buffer_size, pop_limit_pct, pop_size_pct", "include/readout/models/DefaultRequestHandlerModel.hpp: conf, cleanup", "schema/readout/readoutconfig.jsonnet: postprocess_queue_sizes"]}
{"id": "C103", "title": "The fragment consumer reports fragments that do not fit their window", "statement": "For every fragment it takes, the fragment consumer reports exactly the misfits: a first frame that is not the first of the window, a last frame that is not its last, and frames outside the window; correct fragments of the readout are not reported.", "quantifier": "every fragment: type, window, number and times of frames; every execution of the readout that produced it", "why_tests_cant": "The check is a function of the whole fragment; which fragments can occur depends on all histories of a link.", "anchors": ["plugins/FragmentConsumer.cpp: packet_callback, validate"]}
{"id": "C104", "title": "Photon-detector links keep recent data and answer every request after at most two evaluations", "statement": "On a link whose buffer is searched by bisection (DAPHNE superchunks in a queue, SSP) with accepted cleanup settings: during a run the buffer holds the last K payloads stored, or all of them, where K is what the settings leave of a buffer at its limit; a request whose window lies within the last K payloads stored is answered at its first evaluation with exactly the frames of the window among everything stored in the run; and any request whatever its window is evaluated at most twice, meets at most (retry limit + 1) passes of the waiting-request check, and nothing holds it up. Bursts, recordings, gaps and refused payloads make no difference.", "quantifier": "all interleavings of arrivals, cleanups, requests, retries, starts and stops over any number of runs; all forward-going timestamps; all accepted settings, buffer sizes and windows (also with begin after end)", "why_tests_cant": "Depends on every cleanup of a run and on the moment of each evaluation relative to every arrival; tests see a few schedules.", "anchors": ["include/readout/models/DefaultRequestHandlerModel.hpp: conf, periodic_cleanups, cleanup, check_waiting_requests, data_request", "include/readout/models/BinarySearchQueueModel.hpp: lower_bound", "src/CreateReadout.hpp"]}
{"id": "C105", "title": "Raw trigger primitive links over the life of the module", "statement": "On a link for firmware trigger primitives: the primitives assembled in a run consist of hits of that run only; a channel does not stop working; the memory used does not grow with the number of payloads processed; payloads are processed without undefined behaviour however many there are; and the record command works as on other links.", "quantifier": "all sequences of runs and payloads over the life of the module; all buffer contents", "why_tests_cant": "Growth, counter overflow and left-over state show only after hours or across runs; no test records from such a link.", "anchors": ["src/wib/RAWWIBTriggerPrimitiveProcessor.hpp: tp_stitch", "include/readout/ReadoutTypes.hpp: RAW_WIB_TRIGGERPRIMITIVE_STRUCT", "include/readout/models/DefaultRequestHandlerModel.hpp: record", "src/CreateReadout.hpp"]}
{"id": "C106", "title": "Emulated photon-detector data: from the file to the fragment", "statement": "A link fed by the photon-detector emulator, which skips iterations according to the dropout setting: every frame of every fragment lies in the requested window and belongs to a payload that the emulator created in some iteration of the run, with the bytes of the file element whose number is the count of payloads created before it and the timestamp of that iteration; frames are in time order; a fragment without the error bit carries exactly the frames of its window among the payloads stored in the run, and, if nothing was lost on the way, all frames of its window the emulator creates in the run.", "quantifier": "all files, dropout patterns, start timestamps, runs, requests, interleavings of emulator, consumer, request handling and cleanup", "why_tests_cant": "No test connects the emulator to a link and requests; holes in the data fall on arbitrary positions of the bisected buffer.", "anchors": ["include/readout/models/SourceEmulatorModel.hpp: run_produce", "src/CreateSourceEmulator.hpp", "include/readout/models/ReadoutModel.hpp: run_consume", "include/readout/models/DefaultRequestHandlerModel.hpp: data_request", "include/readout/models/BinarySearchQueueModel.hpp"]}
{"id": "C107", "title": "Modules act only on files they opened", "statement": "File writers, file readers and recording links of one process do not interfere through file descriptors: whatever a module writes, reads, flushes or closes is the file it opened itself, with the access mode it asked for; files of other modules stay open, unchanged in their mode; and no descriptor is left open when a file is closed, an open fails, a link is reconfigured or an object is destroyed.", "quantifier": "all numbers of objects, all interleavings of calls, all outcomes of opening a file, all choices of descriptor numbers by the operating system", "why_tests_cant": "Descriptor numbers are reused by the operating system, so interference shows only in a process with many files; the tests use one writer and one reader at a time and never record twice.", "anchors": ["include/readout/utils/BufferedFileWriter.hpp: open, close, flush", "include/readout/utils/BufferedFileReader.hpp: open, close", "include/readout/models/ZeroCopyRecordingRequestHandlerModel.hpp: conf, record"]}
{"id": "C108", "title": "Timestamps in emulator mode", "statement": "With emulator mode switched on, a link gives the payloads of every run the timestamps of an ideal source, whatever timestamps they carry: from the beginning of the run one payload duration apart, the frames of a payload one tick apart. So no missing frames are reported, links that receive the same number of payloads agree on timestamps, and a fragment without error bit carries exactly the made-up frames of its window.", "quantifier": "all sequences of commands, payloads with any timestamps, requests and cleanups; all numbers of runs; all geometries and buffer sizes", "why_tests_cant": "Tests look at one payload at a time; what the next run begins with and what requests find under the made-up timestamps depends on everything received before.", "anchors": ["src/wib/WIBFrameProcessor.hpp: timestamp_check", "src/wib2/WIB2FrameProcessor.hpp: timestamp_check", "src/daphne/DAPHNEFrameProcessor.hpp: timestamp_check", "include/readout/ReadoutTypes.hpp: fake_timestamps"]}
{"id": "C109", "title": "Requests on sorted-list links while data arrive", "statement": "A data request on a photon-detector list or PACMAN link that runs while payloads arrive never crashes, and its answer is the one for the contents of the buffer at one moment between its beginning and its end; a found fragment carries exactly the frames of its window among everything received up to then and afterwards.", "quantifier": "all histories of arrivals, all moments at which the operations of the request see the buffer, all windows and payload types", "why_tests_cant": "The outcome depends on how arrivals fall between the operations of the request; the tests have no concurrent insertion during a request.", "anchors": ["include/readout/models/DefaultRequestHandlerModel.hpp: data_request", "include/readout/models/SkipListLatencyBufferModel.hpp: write, occupancy, front, back, lower_bound, Iterator"]}
{"id": "C110", "title": "Threads are named and pinned individually", "statement": "After configuration every worker thread of a link carries a name that identifies its role and its link among all threads of the process. The pinning script gives every thread listed in the pin file exactly the CPUs listed for its application and name, and changes nothing else on the machine.", "quantifier": "all link numbers, numbers of post-processing tasks and configurations; all pin files, processes, command lines and threads", "why_tests_cant": "Names are cut by the operating system's limit and threads of other links and processes matter; no test looks at names or CPU sets.", "anchors": ["include/readout/utils/ReusableThread.hpp: set_name", "include/readout/models/TaskRawDataProcessorModel.hpp: conf", "scripts/performance/balancer.py"]}
{"id": "C111", "title": "Sorted photon-detector links over their whole life", "statement": "Over any number of runs and whatever the order of arrival, a photon-detector link with the sorted buffer neither crashes nor mixes runs: the buffer keeps every payload of the run that lies less than 10,000,000 ticks behind the newest, a request whose window lies in that span is answered at its first evaluation with all frames of the window, every other request is evaluated at most twice and given up after the configured number of retries at the latest, and nothing is left in the buffer after stop.", "quantifier": "all executions: commands, arrivals in any order, cleanups, requests, retries and their interleavings over any number of runs", "why_tests_cant": "What a request finds depends on the order of arrivals and cleanups before it over the whole run; tests insert a few payloads in order.", "anchors": ["src/daphne/DAPHNEListRequestHandler.hpp: cleanup", "include/readout/models/SkipListLatencyBufferModel.hpp", "include/readout/models/DefaultRequestHandlerModel.hpp: issue_request, check_waiting_requests, data_request", "include/readout/models/ReadoutModel.hpp: start, stop, run_consume"]}
{"id": "C112", "title": "A recording reads the buffer while data arrive", "statement": "While data arrive and cleanups run, a recording writes consecutive received payloads, complete and in order, to the file; everything received since the first of them is in the file or still stored; it never reads a payload that is not there or not completely written; and if data arrive without gap it does record.", "quantifier": "all interleavings of the individual index loads of the recording thread with arrivals and cleanups, all memory orders and all delays of stores, recordings beginning at any moment, also in the middle of a cleanup", "why_tests_cant": "Which index values the recording thread sees, and whether a payload is completely written when it reads it, depends on the memory model and on the interleaving of single loads; a test on x86 sees a small part of these and no data race.", "anchors": ["include/readout/models/DefaultRequestHandlerModel.hpp: record, cleanup, cleanup_check", "include/readout/models/IterableQueueModel.hpp: Iterator::good, operator++, front, lower_bound"]}
{"id": "C113", "title": "Emulated links run at the configured rate and clock", "statement": "An emulated link whose loop is fast enough makes payload k at k periods after its start, never early and without accumulating delay, also after stalls; and the times in its payloads advance like the clock that the configuration assumes (50 MHz divided by the slowdown factor).", "quantifier": "every number of payloads, every execution of the producing loop and its waits, every slowdown factor from 1 on, every rounding at least as accurate as double", "why_tests_cant": "Drift and loss show only over long times and depend on the scheduling of the loop; tests run it for seconds and do not compare data time with wall time.", "anchors": ["include/readout/utils/RateLimiter.hpp: adjust, limit", "include/readout/models/SourceEmulatorModel.hpp: start, run_produce", "src/CreateSourceEmulator.hpp: createSourceEmulator", "python/readout/app_confgen.py: CLOCK_SPEED_HZ"]}
{"id": "C114", "title": "A link that was configured can take data", "statement": "When every configuration command sent to a link returned normally, the payloads of the next run are stored in memory that the link owns, with room for one fewer than the configured number; a command that failed can be corrected by sending another.", "quantifier": "every sequence of configuration commands, every combination of allocation options, every pattern of failing allocations, every number of payloads", "why_tests_cant": "Tests do not run out of memory, use one configuration per object, and a write through a bad pointer need not be noticed.", "anchors": ["include/readout/models/ReadoutModel.hpp: conf, run_consume", "include/readout/models/IterableQueueModel.hpp: conf, allocate_memory, free_memory, write"]}
{"id": "C115", "title": "The memory that a link uses does not grow with time", "statement": "However long a link runs, what it keeps beside the ring buffer is bounded by the rates of what it receives: the requests waiting for data, the error intervals, the trigger primitives waiting to be sent, and the payloads in a sorted buffer after a cleanup.", "quantifier": "all histories of any length, all rates of requests and primitives, all orders of arrival", "why_tests_cant": "Growth shows after days; a test run ends long before, and no test looks at the sizes of internal lists.", "anchors": ["include/readout/models/DefaultRequestHandlerModel.hpp: check_waiting_requests", "include/readout/FrameErrorRegistry.hpp: add_error", "include/readout/utils/TPHandler.hpp: add_tp, try_sending_tpsets", "src/daphne/DAPHNEListRequestHandler.hpp: daphne_cleanup_request"]}
{"id": "C116", "title": "A link obeys commands that fit and refuses the others", "statement": "Whatever commands a data link handler is given and in whatever order, a command that fits what the link is doing succeeds, a run uses the last configuration and every request that arrived in the run has been looked up when stop returns; a command that does not fit (start in a run or without a configuration, conf in a run or a recording, stop outside a run) is refused, and the link goes on as if it had not been given.", "quantifier": "all sequences of conf, scrap, start, stop, record, with requests arriving and recordings ending at any point", "why_tests_cant": "The order of commands is an unbounded choice; tests give the commands in the intended order, and a double start ends the test process.", "anchors": ["plugins/DataLinkHandler.cpp: do_conf, do_scrap, do_start, do_stop, do_record", "include/readout/models/ReadoutModel.hpp: conf, start, stop", "include/readout/models/DefaultRequestHandlerModel.hpp: conf, start, stop, record"]}
{"id": "C117", "title": "Emulator cards and recorders obey commands that fit and refuse the others", "statement": "Whatever commands an emulator card or a recorder module is given and in whatever order, a command that fits what the module is doing succeeds, every packet of a run is written and the number reported is that of the run; a command that does not fit (start in a run or without a configuration, conf in a run) is refused and changes nothing.", "quantifier": "all sequences of conf, scrap, start, stop with packets arriving at any point", "why_tests_cant": "The order of commands is an unbounded choice, and the failures are uses of freed memory by another thread, which a test may pass by luck.", "anchors": ["plugins/FakeCardReader.cpp: do_conf, do_scrap, do_start, do_stop", "include/readout/models/SourceEmulatorModel.hpp: conf, scrap, start, stop", "src/wib/TPEmulatorModel.hpp: conf, scrap, start, stop", "include/readout/models/RecorderModel.hpp: do_conf, do_start, do_stop, do_work"]}
{"id": "C118", "title": "Hit finding in software follows the configuration and holds memory only in a run", "statement": "Over any number of configurations and runs of a WIB link: each payload of a run is searched for hits exactly once with the settings of the latest configuration if that enables hit finding, and not at all if it does not; the hit finder never uses or releases memory it does not own, holds buffers only while hits are being sought, leaves none behind, and keeps no queue that fills up unread.", "quantifier": "all sequences of conf (with and without hit finding), start, stop and payloads", "why_tests_cant": "Histories of configurations are unbounded; leaks, double releases and stale settings show only after particular histories.", "anchors": ["src/wib/WIBFrameProcessor.hpp: constructor, destructor, start, stop, conf, find_collection_hits", "include/readout/models/TaskRawDataProcessorModel.hpp: conf, start, stop, postprocess_item, add_postprocess_task"]}
{"id": "C119", "title": "The reported number of stored payloads was right at some moment", "statement": "The number of stored payloads in a monitoring report is the number of payloads the latency buffer held at some moment while the report was made, whatever the consumer and the cleanup do meanwhile.", "quantifier": "all interleavings of writes, removals and the steps of reports; all buffer sizes", "why_tests_cant": "The wrong values need writes and a cleanup between two loads of one function; a test that meets this is luck.", "anchors": ["include/readout/models/ReadoutModel.hpp: get_info", "include/readout/models/IterableQueueModel.hpp: occupancy, write, popFront"]}
{"id": "C120", "title": "A recording can be replayed", "statement": "If the file recorded from a link is given to an emulator card, the card sends the recorded payloads byte for byte in the recorded order, with the timestamps they had, and a link fed by it answers requests for windows within the time of the recording with the recorded frames.", "quantifier": "all arrivals, record commands, runs and interleavings of the recording; all payload types of fixed size; all later executions of the emulated link", "why_tests_cant": "Writing and reading are in different classes tested apart; whether the two agree on every series of recordings needs an argument over both.", "anchors": ["include/readout/models/DefaultRequestHandlerModel.hpp: record", "include/readout/utils/BufferedFileWriter.hpp: write, flush", "include/readout/utils/FileSourceBuffer.hpp: read", "include/readout/models/SourceEmulatorModel.hpp: conf, run_produce"]}
{"id": "C121", "title": "Fake triggers bring data", "statement": "A link configured to trigger itself makes, for the time of its newest payload, one request for every response queue, for the 300000 ticks that began 500100 ticks earlier, and answers it at once, without the error bit, with all frames of that window.", "quantifier": "all interleavings of arrivals, cleanups, requests, the time synchronisation thread and stop, over any number of runs; all accepted settings", "why_tests_cant": "The window depends on the clock, on what arrived and on what cleanups removed meanwhile; a test sees one timing.", "anchors": ["include/readout/models/ReadoutModel.hpp: run_timesync, start, stop", "include/readout/models/DefaultRequestHandlerModel.hpp: issue_request, data_request, cleanup"]}
{"id": "C122", "title": "Compressed recordings can be read back", "statement": "With each compression algorithm the payloads recorded to a file, by the recorder or by a link, read back with the same algorithm as exactly what was recorded, in order; they can be read once the recording has stopped, and a later configuration for another file leaves them alone.", "quantifier": "all payloads, buffer sizes, numbers of runs and sequences of configurations; every compressor whose decompressor restores what it was fed", "why_tests_cant": "What a compressor holds back depends on the data; whether the file is complete shows only when it is read between stop and the end of the process, which no test does.", "anchors": ["include/readout/utils/BufferedFileWriter.hpp: open, write, flush, close, destructor", "include/readout/utils/BufferedFileReader.hpp: open, read", "include/readout/models/RecorderModel.hpp: do_conf, do_work", "include/readout/models/DefaultRequestHandlerModel.hpp: conf, record"]}
{"id": "C123", "title": "Fast unpacking of WIB2 frames", "statement": "The vectorised unpacking of a WIB2 frame gives all 256 fourteen-bit samples, each once, unchanged and at its documented place, and reads nothing outside the frame.", "quantifier": "all frames (all values of all words) and all positions in memory", "why_tests_cant": "The program that tests it compares one frame with slowly rising values; 2^3584 frames exist, and a wrong shift shows only for values with the affected bits set.", "anchors": ["test/apps/test_fast_expand_wib2frame_app.cxx: unpack_one_register, unpack, RegisterArray"]}
{"id": "C124", "title": "Injected frame errors", "statement": "Error bits injected by the emulator arrive with the payloads that arrive: each payload carries the next words of the configured error pattern; the reported error counts of a run are those of the frames that arrived in it; the frames passed on as errored are frames that arrived, in order, none twice, each with an error bit, the first ones of every kind up to the threshold without exception and altogether no more than the threshold allows.", "quantifier": "all error patterns, dropout patterns, files, queue lengths, thresholds, numbers of runs, interleavings of emulator, consumer and reports, and answers of the queue of errored frames", "why_tests_cant": "A test injects one pattern for one run; which bits are counted or throttled depends on the history over runs, the lost payloads and the moment of the reports.", "anchors": ["include/readout/models/SourceEmulatorModel.hpp: run_produce", "include/readout/utils/ErrorBitGenerator.hpp: next", "include/readout/ReadoutTypes.hpp: fake_frame_errors", "src/wib/WIBFrameProcessor.hpp: frame_error_check, start, get_info"]}
{"id": "C125", "title": "Memory of removed payloads in sorted lists", "statement": "In links with a sorted-list latency buffer the memory of a payload that was removed is never read after it was freed: not by requests (nor while the fragment is filled), cleanups, recordings or the check of waiting requests. Nothing is freed twice or lost, and what was removed is freed when nobody uses the list any more.", "quantifier": "all interleavings of consumer, cleanups of either kind, any number of request threads, recording, waiting requests, monitoring and flush; all times of payloads", "why_tests_cant": "Reading freed memory usually gives the old contents, and needs a cleanup within the few instructions between fetching a pointer and reading through it.", "anchors": ["include/readout/models/SkipListLatencyBufferModel.hpp: front, back, pop, lower_bound, Iterator", "include/readout/models/DefaultRequestHandlerModel.hpp: data_request, record, check_waiting_requests, cleanup", "src/daphne/DAPHNEListRequestHandler.hpp: daphne_cleanup_request"]}
{"id": "C126", "title": "PACMAN links keep recent messages", "statement": "On a PACMAN link cleanups make room by discarding the oldest messages of the run, messages arriving meanwhile included: the most recent messages stay available for requests and recordings, a window whose data was discarded is refused as too old, and a fragment without error bit carries every message received in its window. No cleanup crashes the link.", "quantifier": "all messages in any order, all interleavings of arrivals, single steps of cleanups, positions of the recording, runs; all limits and fractions", "why_tests_cant": "What a cleanup discards becomes visible only after it, in requests for windows in the middle of a long run, whose fragments look like those of a quiet detector.", "anchors": ["include/readout/models/DefaultRequestHandlerModel.hpp: cleanup, cleanup_check, data_request", "include/readout/models/SkipListLatencyBufferModel.hpp: pop, front, write", "src/pacman/PACMANListRequestHandler.hpp", "include/readout/NDReadoutTypes.hpp: PACMAN_MESSAGE_STRUCT"]}
{"id": "C127", "title": "Cleanups while data arrive", "statement": "Data keep arriving while the cleanup of a ring buffer runs. Whatever the interleaving: the link does not crash; the buffer always holds the most recent payloads it took in the run, in order, at least the number left by the configured fractions; a pass removes exactly the fraction it counted, the oldest first, and keeps every arrival; what a recording still needs stays; and no payload is refused while no more payloads arrive between two looks of the cleanup thread at the occupancy than the settings allow.", "quantifier": "all interleavings of arrivals, single steps of cleanup passes, positions of the recording, starts and stops; all buffer sizes, limits and fractions", "why_tests_cant": "Whether payloads arrive between two instructions of the cleanup thread depends on the scheduler; a unit test calls the cleanup on a quiet buffer.", "anchors": ["include/readout/models/DefaultRequestHandlerModel.hpp: cleanup, cleanup_check, periodic_cleanups, conf", "include/readout/models/IterableQueueModel.hpp: write, pop, front, occupancy, flush", "include/readout/models/ReadoutModel.hpp: run_consume"]}
{"id": "C128", "title": "The configured size is the size of the buffer", "statement": "A link's ring buffer configured for n elements has n - 1 places, for every n that the configuration accepts: every call answers as a queue with n - 1 places would, however long it is used and however often it is reconfigured; a size that cannot be provided is refused.", "quantifier": "all configured sizes (64 bits), all sizes of elements, all amounts of available memory, with and without preallocation and assertions, all sequences of configuration commands and calls", "why_tests_cant": "Widths of members show only for buffers of gigabytes; unit tests use small ones.", "anchors": ["include/readout/models/IterableQueueModel.hpp: conf, allocate_memory, free_memory, write, read, popFront, pop, occupancy, flush, Iterator, members", "schema/readout/readoutconfig.jsonnet: LatencyBufferConf"]}
{"id": "C129", "title": "Printouts of raw trigger primitives show what the frames hold", "statement": "Each field of a raw trigger primitive header or hit keeps what was assigned to it, reduced to its width, whatever is assigned to the others; every printout (print, print_hex, print_bits, <<) shows each field under its label, and a frame's printout shows its hits.", "quantifier": "all contents of headers and hits, all assignments, all bases of the output stream, all labels", "why_tests_cant": "The unit tests print a few headers without reading the printout back; a swap of two labels or a field that leaks into its neighbour shows only for contents that differ there.", "anchors": ["include/readout/RawWIBTp.hpp: TpHeader, TpData, RawWIBTp, print, print_hex, print_bits, operator<<, set_nhits, set_timestamp"]}
{"id": "C130", "title": "The data file of an emulator is loaded as configured and replayed within its bounds", "statement": "An emulator accepts its data file only if it can be read and is within the configured limit; it then holds all of it, knows the number of whole payloads in it, warns exactly about surplus bytes, and replays it without leaving it, whatever the size of the file and whatever happens to the file meanwhile.", "quantifier": "all files, limits and payload sizes, all amounts of memory, all changes of the file between the two passes over it, all numbers of iterations, both emulators", "why_tests_cant": "Unit tests read one small file that nobody changes; widths of variables show only for files of gigabytes.", "anchors": ["include/readout/utils/FileSourceBuffer.hpp: read, num_elements, get", "include/readout/models/SourceEmulatorModel.hpp: conf, run_produce", "src/wib/TPEmulatorModel.hpp: conf, run_produce", "schema/readout/sourceemulatorconfig.jsonnet: input_limit"]}
{"id": "C131", "title": "The share of emulated frames with faked errors is the configured rate", "statement": "An emulator configured with a rate of faked frame errors marks that share of the frames it emits with error words, evenly over the whole run; a rate that makes no sense is refused.", "quantifier": "all rates, all random numbers drawn, all numbers of frames, every rounding of floating-point numbers", "why_tests_cant": "Tests sample a few thousand frames of one random table at one rate; the tables repeat after tens of millions of frames.", "anchors": ["include/readout/utils/ErrorBitGenerator.hpp: generate, next", "include/readout/models/SourceEmulatorModel.hpp: conf, run_produce", "schema/readout/sourceemulatorconfig.jsonnet: emu_frame_error_rate"]}
{"id": "C132", "title": "Every slowdown factor paces an emulator as it says, and stop is prompt", "statement": "An emulator with slowdown factor f emits one unit every f nominal periods; a factor that cannot be followed is refused; a stop command ends the emulation without waiting for the rest of a period.", "quantifier": "all factors and rates, every rounding of floating-point numbers, all clock readings, all times taken by rounds, all moments of stopping", "why_tests_cant": "Tests use one or two factors for seconds at a time, and factors at which a period is much shorter than anybody's patience; wrap-around of the clock and undefined conversions do not show.", "anchors": ["include/readout/utils/RateLimiter.hpp: adjust, init, limit", "include/readout/models/SourceEmulatorModel.hpp: conf, start, run_produce", "src/wib/TPEmulatorModel.hpp: start", "plugins/FakeCardReader.cpp: do_stop"]}
{"id": "C133", "title": "The views of expanded samples agree and cover a window", "statement": "Expanded samples can be read one by one and a register at a time. Both ways give the same sample for the same channel and tick, the sample is the one of that channel in that frame of that message, every sample has one place, and a channel or tick that is not in the window is refused. A value written into a register array as a word or as a register is read back both ways and nothing else changes.", "quantifier": "all windows of any number of messages, all contents, all channels and ticks, all positions and values of register arrays of any size", "why_tests_cant": "Index arithmetic with four nested strides: a test with one message, or with the same value in all channels, passes with most wrong strides; reading past the end of a window usually gives plausible numbers.", "anchors": ["src/wib/tpg/FrameExpand.hpp: WindowCollectionADCs, RegisterArray", "src/wib/tpg/TPGConstants.hpp"]}
