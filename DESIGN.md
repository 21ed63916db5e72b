# A Lean 4 model of postmates/cernan

`/verif/lean/Verif` holds a hand-written model of cernan (`/repo`, Rust) and
machine-checked theorems about it.  `properties.jsonl` lists the properties in
English, `MANIFEST.json` maps each to theorem names and a status,
`seeded/LOG.jsonl` records wrong programs the theorems were tried against, and
this file says what is modelled, how each property is proved, what does not hold
of the code, and what is trusted.

## Layout

| directory        | content |
|------------------|---------|
| `Verif/Model/*`  | the model: one Lean function per Rust function, every definition citing file and lines |
| `Verif/Spec/*`   | small independent specifications used to state properties |
| `Verif/Lemmas/*` | auxiliary lemmas |
| `Verif/Props/*`  | the property theorems, each with non-vacuity `example`s beside it |
| `Verif/Tests/*`  | unit and integration tests of /repo, transcribed and run on the model: they check that the model computes what the code's authors expect of the code.  Tests, not proofs of properties |

Theorem names start with the property id (`C08_...`).  A theorem that proves
only part of its property carries the suffix `_partial` and its comment says
what is missing.  Where the code violates the property as stated, a theorem
`Cxx_..._false` proves the negation on an execution of the model and the partial
theorems state what does hold.

## Modelling conventions

* `&mut self` methods become functions returning the new state.  Panics
  (`unwrap`, `assert!`, index out of range, division by zero) are explicit
  `none`/`Except.error` results, never default values.
* Strings are `List Char` (`Str`), byte strings are `List UInt8`.
* `i64`/`usize` quantities are unbounded `Int`/`Nat` unless the comment of the
  definition says otherwise (saturating, wrapping and truncating operations are
  modelled where the code performs them on values it does not control).  The
  places that compute with times are modelled a second time with 64-bit arithmetic
  in `Machine`, and compared (C115).
* `f64` is an arbitrary type `F` with operations but **no laws** (`class F64 F`),
  so theorems hold for IEEE doubles.  Where a property needs laws they are
  explicit hypotheses or classes (`LawfulAdd`, `LawfulSketch`), and the integer
  instance shows that they can be met.
* Loops that may not end (retries, run-loops) are machines: one step per
  iteration, or a script of external outcomes that may run out.
* Threads are machines too: a label says which thread performs its next step, a
  list of labels is a schedule, and theorems quantify over all schedules; C92
  quantifies over all infinite fair schedules.
* Hash maps are association lists in iteration order.  Iteration order is
  arbitrary: theorems are stated through lookup or hold for every order.
* Hash functions, the clock, random numbers, the environment, the operating
  system, brokers, HTTP servers and sockets are parameters or scripts over which
  the theorems quantify.

## Trusted base

* Lean 4.33.0's kernel.
* Axioms: at most `propext`, `Classical.choice`, `Quot.sound`.  No own axioms, no
  `sorry`, no `native_decide`/`bv_decide`, no Mathlib.
* The reading of the Rust source by which the model was written.  Nothing is
  extracted from or executed against the Rust code; the tests of /repo that can
  be written against the model (`Verif/Tests`: about 120 of them) all pass on it.
* Assumed behaviour of external code, each an explicit parameter or hypothesis:
  `std` collections and slices, `hopper` channels (FIFO, `Full` or transient
  errors returning the event), `quantiles`, `serde_json`, `serde_avro`, `toml`,
  `rdkafka`, `mio`, `lua`, `hyper`, `chrono`, the file system.  The sketches of
  `quantiles` are assumed to be total: inserting any `f64` does not panic.  Four pieces of external code are modelled
  rather than assumed because their details matter: `slice::binary_search_by`
  (`Model/Search.lean`), the `protobuf` crate's encoding (`Model/Proto.lean`), the text that
  `serde_json` writes and reads (`Model/Json.lean`; the conversion of numbers is a parameter), and the dates of
  `chrono` (`Model/Date.lean`).

## What is modelled

| source | model | not modelled |
|--------|-------|--------------|
| src/metric/mod.rs, telemetry.rs, logline.rs, event.rs | `Tags`, `Telemetry`, `Order`, `Event`, `Num` | sketches inside the `quantiles` crate |
| src/metric/ackbag.rs | `Ack` | mutex poisoning |
| src/buckets.rs | `Buckets`, `Search` | |
| src/util.rs `send` | `Send` | |
| src/util.rs `TokenSlab` | `Tcp` | |
| src/matrix.rs | `Matrix` | |
| src/thread.rs, src/source/tcp.rs | `Thread`, `Tcp`, `Stream`, `Crash` (panics of whole threads and what `join` makes of them) | mio beyond edge-triggered readiness; the stream handlers' start-up |
| the `fetch_add` calls of all components | `Counters` | |
| src/time.rs | `Time`, `Clock` | |
| src/filter/mod.rs, delay, flush_boundary, json_encode | `Filter`, `Json`, `JsonFilter` | conversion of JSON numbers (a parameter) |
| src/filter/programmable_filter.rs | `Filter`, `Lua` | the Lua interpreter: a script is a parameter, or a tree of calls of the payload library |
| examples/scripts | `Scripts` | |
| src/source/flush.rs | `Flush` | |
| src/source/internal.rs | `Internal` | wraparound of the 64-bit counters |
| src/source/file | `File`, `FileBytes`, `FileRun` | `glob` (a parameter) |
| src/source/nonblocking.rs | `Wire` | |
| src/source/avro.rs | `Avro`, `Ack` | the Avro decoder (a parameter) |
| src/source/graphite.rs, src/protocols/graphite.rs | `Graphite`, `Stream` | — |
| src/source/statsd.rs, src/protocols/statsd.rs | `Statsd`, `StatsdRecv`, `Tcp` (`Udp`) | |
| src/source/native.rs, src/sink/native.rs, src/protocols/native.rs | `Native`, `NativeWrite`, `Proto` | whether protobuf flushes on drop (a parameter) |
| src/sink/mod.rs | `Sink`, `SinkImpls` | delays |
| src/sink/console.rs, null.rs | `Console`, `SinkImpls` | formatting of numbers (a parameter) |
| src/sink/elasticsearch.rs | `Elasticsearch`, `Json`, `Date` | HTTP client |
| src/sink/influxdb.rs | `Influxdb` | HTTP client |
| src/sink/kafka.rs | `Kafka`, `Logging` | |
| src/sink/prometheus.rs | `Prometheus`, `Scrape` | the compressed bytes |
| src/http.rs | `Scrape` | tiny_http itself, headers |
| src/sink/wavefront.rs | `Wavefront` | DNS |
| src/config.rs | `Config`, `Logging` | the TOML text parser (a configuration is a `Toml` value), `clap` |
| src/bin/cernan.rs, the `init` of sinks and sources | `Topology`, `Startup`, `Pipeline`, `Net`, `Logging` | the text of log records; what is asked of the surroundings at start-up is a parameter |
| all arithmetic on times (delay filter, age thresholds, windows, bins, padding) | `Machine` | |
| src/protocols/prometheus.rs (generated, not used by the binary) | `PromProto` | accessors, reflection; unknown fields are skipped, not kept and rewritten |
| src/lib.rs, src/constants.rs | — | not used by any property |

Every definition's comment cites the lines it models and says where it simplifies.

## Per property: how it is proved and what was found

The statements are in `properties.jsonl`; theorem names in `MANIFEST.json`.

* **C01 Tag layering** (proved) — Model `TagIter::next` as a state machine, collect it to exhaustion; prove the result against a lookup spec.
* **C02 Tag edits behave like a finite map** (proved) — Association-list map with lookup spec; per-operation equations and an induction over edit scripts.
* **C03 Builder accepts exactly the well-formed points** (proved) — Model `harden` with all ten optional fields; decision theorem against an independent well-formedness predicate.
* **C04 Thaw then harden is the identity** (proved) — Equation on the model for every telemetry value.
* **C05 Adding points: kind and value rule** (proved) — Case analysis over the value algebra; count laws are assumptions on the sketch crate.  *Result:* Kind/value rule for all pairs of kinds; C05_unlike_sketches_not_additive marks the limit of count additivity.
* **C06 Adding points preserves persistence** (partial) — Expected false of the code (`persist = rhs.persist`): negation witness plus partial theorem.  *Result:* False of the code (persist := rhs.persist); negation proved with a witness, exact rule proved.
* **C07 Bin comparison is a consistent order** (partial) — False (absent vs present tag maps compare equal): witness plus partial theorem on uniformly tagged points.  *Result:* False of the code for points without a tag map; order laws proved for points that carry one.
* **C08 Bucket bookkeeping invariant** (proved) — Invariant by induction over add/reset scripts, arbitrary hash.
* **C09 One point per series and bin** (proved) — Invariant: rows strictly sorted by bin, using a proof of the binary-search contract.  *Result:* Tags are compared in iteration order, as the code does; see C116 for equal tags iterated in different orders.
* **C10 Bucket contents are the per-bin fold of arrivals** (proved) — Refinement to a list-of-arrivals spec: group by (series, bin), fold in arrival order.
* **C11 Counters are conserved** (proved) — Corollary of an additive invariant, with commutative-monoid laws as hypotheses.
* **C12 Reset keeps exactly the persistent series** (proved) — Direct equation for reset on rows satisfying the C09 invariant.
* **C13 Persistent points carry the previous value forward** (proved) — Equation for add on rows satisfying the C09 invariant.
* **C14 Fan-out delivers exactly once per channel** (proved) — Channel model with a schedule of accept/full/transient outcomes; induction over schedules.
* **C15 Fan-out preserves order per channel** (proved) — Induction over sends.
* **C16 Filter shutdown handshake** (proved) — Run loop over an input list with an arbitrary (possibly failing, stateful) process function; induction.  *Result:* Stopping point and Shutdown forwarding, for every filter step; the built-in filters meet the forwarding hypothesis.
* **C17 Filter run emits each processing result once, in order** (partial) — False (output buffer is not cleared on error): witness plus partial theorem for filters that push nothing on error.  *Result:* False of the code: the output buffer is not cleared after a failed step. C17_exact_partial: for every filter of cernan and every script, exactly what is forwarded: the output of a failed step goes out in front of the next successful one's.
* **C18 Flush-boundary filter holds events for the tolerance** (proved) — State machine; history invariant relating holds to past events and number of flushes.
* **C19 Flush-boundary filter orders what it releases** (proved) — Invariant: holds strictly sorted by timestamp.
* **C20 Flush-boundary filter loses nothing** (partial) — False for raw events: witness; partial: conservation (permutation) for timestamped events and flushes.  *Result:* False of the code for raw events (C20_nothing_lost_false). C20_exact_partial: over any history, what was emitted and what is held are together exactly the flushes and the events with a timestamp; C20_held_young: what is held came with at most tolerance flushes after it.
* **C21 Delay filter tolerance** (partial) — Decision logic; false at equality: witness plus partial.  *Result:* False of the code at distance exactly the tolerance; exact decision proved.
* **C22 JSON encode filter merge precedence** (proved) — Model merge over key/value lists; lookup theorem.
* **C23 Programmable filter runs each flush tick at most once** (partial) — State machine over flush indices with arbitrary script outcomes; monotone-history invariant. False when a tick fails.  *Result:* False of the code when tick fails (C23_held_false: the flush is then held back, and dropped at Shutdown). Exact for every script: C23_any_script_partial says the flushes passed on and the one held are the ticks due, each once; with ticks that succeed nothing is held.
* **C24 Sink delivers every event once and in order** (proved) — Sink loop over an input list with an abstract sink; trace theorem.  *Result:* Any valve behaviour: C24_eventually needs only that some number of flushes reopens the valve; C24_stuck says what happens otherwise.
* **C25 Sink flushes once per due pulse** (proved) — Trace theorem on flush calls.
* **C26 Sink shuts down only after every source has** (partial) — False (missing `break`): witness plus partial for single-source sinks.  *Result:* False of the code for two or more sources (missing break); ordering and at-most-once proved, single source exact.
* **C27 Kafka flush accounts for every in-flight message** (proved) — Kafka model with a schedule of outcomes; counting invariant over retry rounds.
* **C28 Kafka acknowledges each message exactly once** (proved) — Multiset of acks equals multiset of connection ids.
* **C29 Kafka retries preserve the message** (proved) — Invariant over retry rounds.
* **C30 Kafka valve tracks bytes in flight** (proved) — Invariant over deliver/flush scripts.
* **C31 A synchronous publish waits for its acknowledgement** (partial) — Two-thread transition system with arbitrary interleavings; safety invariant.  *Result:* Safety, no lost acknowledgement and no early release are proved for every schedule. Read per message (the answered message itself was acknowledged) the property is false: the bag is keyed by connection, so a late ack of an earlier publish, or a second channel's ack, releases the next synchronous publish. Exactly: it holds of a publish, whatever follows, iff no earlier message of the connection is still to be acknowledged when it is registered (C31_own_message_exact_partial); so always for synchronous-only, single-channel connections.
* **C32 Avro frame header and metadata round-trip** (proved) — Encoder spec and parser model; round-trip.
* **C33 Avro publishes are answered exactly when synchronous** (proved) — Connection loop over frames; trace theorem.
* **C34 Length-prefixed framing is chunking-independent** (partial) — Byte-stream state machine with arbitrary chunking; false when the 4-byte prefix is split and for empty payloads: witnesses plus partial.  *Result:* False when the stream blocks inside a 4-byte length prefix (read_exact drops the bytes read so far) and for empty payloads (Ok(0) is taken for EOF). Proved for non-empty payloads with no block inside a prefix; for every stream, exactly what is read, which does not depend on the grouping of bytes into reads (C34_exact_partial, C34_grouping).
* **C35 Oversized frames are rejected** (proved) — Decision theorem.
* **C36 write_all writes every byte once** (proved) — Induction over write schedules.
* **C37 File tailing delivers every line once** (partial) — File + watcher transition system; false for partial and blank lines: witnesses plus partial for whole non-blank lines.  *Result:* False of the code for partial lines (the last character is cut off and the line is split) and for blank lines (never delivered). Proved for appends of whole non-blank lines under every interleaving; for any appends, exactly what is delivered: each read takes the first unread line, or what is there of it, less its last character, and nothing is merged, repeated or reordered (C37_exact_partial, C37_pieces_partial).
* **C38 File tailing survives rotation** (partial) — Rotation in the same transition system.  *Result:* False of the code for two rotations between reads, and when the path is missing for two passes (the recreated file is opened at its end). Proved for rotations that happen after the watcher opened the current file; C38_exact_partial: for rotations at any time, exactly what is delivered: everything written except the files rotated away before the watcher had opened them.
* **C39 File server reads fairly** (proved) — Loop model with byte budget.
* **C40 Statsd lines parse to the documented points** (proved) — Parser model on character lists; independent grammar; soundness and completeness.
* **C41 A rejected statsd packet contributes nothing** (partial) — False (buffer not cleared): witness plus partial.  *Result:* False of the code: points of the lines before the bad one leak into the next accepted packet of the batch. Proved when rejected packets fail at their first line; nothing of accepted packets is ever lost. C41_exact_partial says exactly what a packet leaves behind and forwards: the points of the lines before its first bad one.
* **C42 Graphite payloads parse to the documented points** (proved) — Token-triple parser; exact characterisation.
* **C43 A rejected graphite line contributes nothing** (partial) — Expected false: witness plus partial.  *Result:* False of the code: same leak within a graphite connection. Proved when rejected lines fail at their first triple; nothing of accepted lines is ever lost. C43_exact_partial says exactly what is forwarded of a connection and what waits: of every line the points before its first bad triple, up to the last good line.
* **C44 Wavefront padding keeps every point** (partial) — Padding iterator as a state machine; collected output refines the input.  *Result:* Holds for every stored sequence under the assumption that the 64-bit hash distinguishes the series present (HashOk). C44_histogram_bounds_false: a histogram's zero points use the default bounds, not the series' own.
* **C45 Wavefront zero padding brackets gaps** (partial) — Local theorem on the emitted pads.  *Result:* Soundness, order and completeness of padding within a flush are proved; C45_exact_partial: exactly which zero points a flush emits and where. Across flushes a series is padded only if it has at least two points or is iterated last (C45_across_flushes_false); a series that changes kind is padded out of order (C45_mixed_kinds_false).
* **C46 Wavefront flush retries until delivered** (proved) — Retry loop over a failure schedule.  *Result:* Payload and retry loop; the text is described by C71_text_partial.
* **C47 Age thresholds bound accepted points** (partial) — Decision theorem.  *Result:* False for thresholds of 2^63 seconds or more, which are read as negative and reject every point (C47_wavefront_huge_age_false). Wavefront and Prometheus: the rule exactly for thresholds below 2^63, and C47_wavefront_exact_partial / C47_prometheus_exact_partial say for every configurable threshold exactly which points are stored. No other sink has an age threshold.
* **C48 Prometheus keeps one kind per metric name** (proved) — Invariant over insert/purge scripts.
* **C49 Prometheus distinguishes tag sets** (partial) — False (keyed by name only): witness plus partial.  *Result:* False of the code: the sink aggregates by name only, so points with other tags are merged under the first tag map (of a summary: that of the oldest sample held), exactly (C49_whose_tags_partial). Proved: points of different names never influence each other.
* **C50 Prometheus summary window** (proved) — Invariant over insert/purge scripts.  *Result:* Over whole histories, what a summary holds and reports is the replay of a small specification (C50_history). Purging removes samples further than the window from now in either direction (also future ones). The count is of accepted points since the sink started.
* **C51 Prometheus exposition is well formed** (partial) — Model of the text rendering at line level.  *Result:* Buckets and TYPE placement proved; a name has as many TYPE lines as reported names are cleaned up to it, so exactly one for each if and only if no two are cleaned up to the same (C51_types_exact_partial); a reader of the text recovers names, labels and numbers, for tags without quotes, backslashes or line feeds. False of the code: names that sanitise to the same string give several TYPE lines; label values are not escaped.
* **C52 Prometheus names are sanitised** (proved) — Byte-wise map.
* **C53 Elasticsearch keeps lines until acknowledged or exhausted** (partial) — Buffer state machine over response schedules.  *Result:* Exact description of the buffer for every history and every limit: C53_waiting_partial below 255; with limit 255 the u8 counter wraps and a refused line is kept until acknowledged (C53_waiting_255_partial, C53_limit_255_false; panic with overflow checks).
* **C54 InfluxDB flush retries the same payload** (proved) — Retry loop over a failure schedule.
* **C55 Native sink and source agree** (partial) — Composition of the sink encoder and source decoder; false for histograms: witness plus partial.  *Result:* Proved for sums, sets and summaries over any cutting of the stream, and exactly for streams with idle flushes: what was flushed before the first idle one arrives (C55_until_idle_partial). False of the code: histograms arrive corrupted, a point with 16..127 (and further ranges of) samples loses its whole batch, an idle flush closes the link, log fields are dropped, a batch over 1 MiB (any log line that long makes one) is refused by the source and lost.
* **C56 Backoff schedule** (partial) — Table lookup; monotonicity; doubling false between attempts 1 and 2.  *Result:* All of it proved except one step: delay(1) = 1 ms although the documentation says 2 ms, so the second attempt waits four times the first. The waits of a Wavefront flush are proved; a failed connection is not counted there, so that a proxy that is down is tried again without any delay.
* **C57 Topology wiring matches the configuration** (proved) — Adjacency model and wiring function; set-level theorem.  *Result:* Upstream sets, channels and flush-timer channels are exactly those of the configuration, for every order of the tables, when no two nodes forward to each other; C57_mutual says what happens otherwise.
* **C58 Misconfigured forwards are refused at start-up** (partial) — Decision theorem.  *Result:* A node with a bad forward is never started, and start-up succeeds exactly when all forwards have channels and no filter is isolated. False in full: an isolated filter panics, and bad forwards of native sources (or to sources) stop start-up late with exit status 0.
* **C59 Adjacency map operations** (proved) — Finite-relation spec.  *Result:* Every history of adds and pops; counting, filtering and popping answer from the specification's edges.
* **C60 Thread pool tracks its children** (proved) — Pool state machine; invariant over schedules.  *Result:* Fresh ids, exact join of finished threads, shutdown signals and joins all; over all schedules. A crash of a handler is C61.
* **C61 Crashed stream handlers do not compromise shutdown** (partial) — Expected false: witness plus partial.  *Result:* False of the code: joining a crashed handler panics (expect on the join result), so the rest are left running. Proved that shutdown works when no handler has crashed.
* **C62 Self-telemetry counters are reported exactly once** (proved) — Atomic counter transition system; conservation invariant.  *Result:* C62_counter, C62_report, C62_pass, C62_kinds, C62_gauge, C62_shutdown, C62_queue, C62_no_forwards over every interleaving.
* **C63 End-to-end graceful shutdown of a pipeline** (proved) — Chain of run loops connected by queues under arbitrary interleavings.  *Result:* Chains of any length of Proper filters (all built-in ones; the programmable one if its tick never fails), any sink, all schedules, pulses included; lossless queues (full queues: C14). C63_completes: from every reachable state the sink can still be reached by Shutdown (if some number of flushes reopens its valve).
* **C64 Flush timer pulses** (proved) — Prefix theorem on the timer loop.  *Result:* A pulse is lost only to a channel that reports Full (C14).
* **C65 Flush intervals are inherited** (partial) — Decision logic over optional configuration values.  *Result:* C65_flush_interval_partial: own seconds times 100 modulo 2^64, else global, else default. C65_fits: for 0 to 2^64/100 seconds this is exactly the ticks asked for. C65_wraps_false: negative or very large seconds wrap around instead of being refused.
* **C66 Kafka sink survives any message** (partial) — The panic of `from_utf8(..).unwrap()` is an outcome of the Kafka model; witness plus partial theorem.  *Result:* False of the code: str::from_utf8(&k).unwrap() panics on a metadata key that is not UTF-8 (src/sink/kafka.rs). C66_exact_partial: for a broker that answers faithfully, the sink panics exactly on histories that deliver a raw event with such a key.
* **C67 Avro source survives malformed frames** (partial) — Frame parser with panics as outcomes; witness plus partial theorem.  *Result:* False: unwrap on short reads panics the handler. C67_exact_partial: it panics on exactly the payloads that are no frame of the documented format; C67_every_connection_partial describes every connection completely.
* **C68 File server backs off when idle and not when busy** (proved) — Induction over the passes of the file server loop.
* **C69 No datagram brings the statsd source down** (partial) — Statsd parser with the sketch constructor's assertion as a panic; witness plus partial theorem.  *Result:* False for configurations with summarize_error_bound >= 1, which the loader accepts: every unmapped timer panics the source. Proved for usable configurations; C69_exact_partial: for any configuration, exactly which batches bring the source down.
* **C70 Graphite lines do not depend on packet boundaries** (partial) — Line reader over arbitrary chunkings of the byte stream, refinement to splitting at newlines; witnesses plus partial theorem.  *Result:* False when a read blocks inside a multi-byte character, and for an unterminated last line after a block. Proved otherwise, for every chunking; C70_exact_partial: for every connection, exactly which lines are handed over.
* **C71 Wavefront text is exact** (partial) — The cached formatter refines direct formatting (cache invariant); text equation; NaN witness.  *Result:* Exact text proved when every printed value can be compared; a NaN gauge or counter panics (C71_nan_false).
* **C72 Wavefront back pressure ends with a flush** (partial) — Valve against the bucket count; reset equation; a witness with 10001 gauges by induction.  *Result:* False with more than 10,000 persistent series (C72_flush_reopens_false). C72_exact_partial: after a flush the valve is open exactly if at most 10,000 series have a newest point that is persistent.
* **C73 Programmable filter emits what the script leaves** (proved) — Trace theorem over an arbitrary script.
* **C74 Prometheus never panics** (partial) — All panics of the sink are outcomes; invariant over insert/purge histories.  *Result:* False of the code for a window of 0 seconds. C74_exact_partial says exactly when inserting and flushing panics, for every window: only with a window of 0 seconds, when the first point of a name is a summary and the next summary of the name has the same time with no flush in another second in between. Scrapes never panic for windows of at least 1 second. Assumed: fewer than 2^64-1 operations, sketches whose quantile query answers whenever they are non-empty.
* **C75 Prometheus keeps counters, gauges and histograms forever** (proved) — Invariant over insert/purge histories.
* **C76 Elasticsearch documents carry the line** (partial) — Equation for the document of a line; witness for a tag named like a field.  *Result:* Exact contents of every document proved; read strictly the property is false: a tag or field named payload, path, uuid or timestamp replaces the line's own.
* **C77 Elasticsearch survives every line and answer** (partial) — Buffer and answers as multisets of ids; invariant over histories; witnesses.  *Result:* False of the code: an answer about an unknown or already acknowledged id, and a time the date library cannot represent, panic. C77_exact_partial: for limits below 255, exactly which flushes panic; C77_no_panic_partial: none with honest servers and representable times, for every limit.
* **C78 InfluxDB text is exact** (partial) — As C71 for the InfluxDB line format; integer bounds for nanoseconds.  *Result:* Text proved for comparable numbers; times proved for 0 <= seconds <= 9223372036. False of the code: times before 1970 and after 2262 are written wrongly, NaN panics.
* **C79 Native messages survive encoding** (partial) — Round trip of sizing, writing and reading the protobuf messages; the wrong size computation is followed to a proof that decoding fails.  *Result:* Proved for every payload whose points have a number of samples sized right; for all others the announced size is short and the payload is proved unreadable.
* **C80 Native sink delivers each batch** (partial) — Induction over the script of connection outcomes; the two buffers of an attempt as a state machine over an arbitrary socket, with the invariant that sent and held bytes are those written, in order.  *Result:* The flush loop is proved over what each attempt is taken for. False of the code: attempts go through two buffers that are never flushed, and errors when they are dropped are ignored, so a batch of up to 8 KiB is taken for written over a dead connection (C80_unnoticed_false); of larger ones all but 16 KiB is accounted for. C80_attempts_partial assumes the 32-bit counter does not saturate. Whether protobuf's stream passes on its bytes when dropped is a parameter (C80_undropped_false).
* **C81 Native times are whole seconds** (partial) — Integer arithmetic with 64-bit truncation.  *Result:* Proved for |ms| up to 2^51; false at the ends of the 64-bit range.
* **C82 Native source survives every input** (proved) — Totality: no input makes the decoder panic.  *Result:* The sketch library accepting the bounds 1, 10, 100, 1000 is a hypothesis.
* **C83 Sums reported about the sinks lose nothing** (partial) — Counter machine; witness with `store` instead of `fetch_add`.  *Result:* False of the code: the number of points purged by the Prometheus sink (and the Elasticsearch buffer length) is stored, not added, but reported as a sum. Proved: the last stored value is reported once.
* **C84 Several sources shut down gracefully** (partial) — Several sources feeding a chain under every schedule; witness plus partial theorem.  *Result:* False of the code: a filter forwards every Shutdown it receives, not just the last, so everything downstream of a filter with several sources stops at the first. Proved: everything received before the first Shutdown is delivered.
* **C85 Sinks bound what they hold** (partial) — Invariants over every execution of the run-loop, one per sink; exactness by running up to the bound; witnesses for sinks without a valve.  *Result:* Proved for Elasticsearch, InfluxDB, Wavefront and Kafka in every execution of the run-loop, and for Elasticsearch and InfluxDB that the bound is reached without an early flush. False of the native and console sinks, whose valves are always open (C85_native_false, C85_console_false).
* **C86 What a sink received is written out by the time it has shut down** (partial) — Ghost logs of what each flush wrote; invariant: written plus buffered is what was delivered; combined with C24 at return.  *Result:* Proved for InfluxDB, native (up to what C80 takes for written), Kafka, console and Wavefront (for Wavefront the text is that of the store built from the arrivals, as far as the numbers can be compared). Elasticsearch: every line is part of at least one flush (partial); a failed request at shutdown loses its lines (C86_elasticsearch_false). If every request is accepted in full, the requests are exactly the lines received (C86_elasticsearch_accepted); if some fail altogether, the accepted requests followed by the buffer are (C86_elasticsearch_clean_partial).
* **C87 The console prints every line and point** (proved) — Text equation for every console state.  *Result:* Exact text of a flush for every state; the external number and time formatting is a parameter.
* **C88 The nodes started are those the configuration asks for** (partial) — The loader as a function from TOML values; set equality of its nodes with a specification that reads the document directly.  *Result:* C88_nodes: nodes are exactly those the document asks for. C88_names_partial: names are distinct iff no file is tailed twice. C88_same_path_false: two file sources of one path share a name.
* **C89 Global tags reach every component that adds tags** (proved) — Lookup theorem for the tags given to every component.  *Result:* C89_global_tags, for documents without duplicate keys (WellFormed).
* **C90 Settings are used as written** (partial) — For every component and field an equation between setting and document; which documents load is characterised independently (`Acceptable`).  *Result:* Per group of components: each setting as written modulo its machine width, or the default; which configurations load at all is settled exactly (C90_loads). Missing: numbers out of range (C90_wraps_false) and settings of the wrong type that are ignored (C90_ignored_false).
* **C91 The process is wired as the configuration says** (partial) — Composition of C88 with C57 and C58.  *Result:* C91_wiring is complete given distinct file paths; C91_starts_partial inherits from C58 that a filter without neighbours makes start-up panic.
* **C92 A signal ends the process** (partial) — Machine of the whole process over an arbitrary wiring; liveness by the ensures/leads-to rules under fairness, induction over `Fed`; the converse by an invariant (an unfed node receives no Shutdown).  *Result:* The process exits exactly if every sink and filter is fed by some source (C92_exits_partial), for every configuration with distinct names, every fair schedule, and filters and sinks with the stated properties, which the built-in filters (C63_filters_proper) and sinks (C92_reopens_partial) have; and whatever queues are full when, as long as no Shutdown is sent to a full queue. False for: a sink or filter no forwards name (C92_unfed_false), two file sources with the same path (C92_same_file_false), an Elasticsearch sink holding 10001 lines while Elasticsearch is away (C92_elasticsearch_down_false), and a Shutdown sent to a full queue, which util::send drops (C92_lost_shutdown_false). C92_orderly: it never exits before a signal has arrived and all sources, filters and sinks have returned. C92_exits_run_partial: the sinks' valves need only open in what happens to them in this run, as those of Wavefront sinks given gauges and counters of at most 10,000 series do (C146_wavefront_reopens).
* **C93 Every event reaches every sink downstream** (partial) — Ghost log of what every queue accepted; invariants per node composed along the configuration.  *Result:* Queues, filters and sinks: proved for every configuration with distinct names, every schedule, every pattern of full queues and every time (C93_queues, C93_filters, C93_sinks); what is dropped is on record and is exactly what finds the queue full (C93_full). Whole way from a source to a sink, including the filters' effect and the events dropped on the way: proved for sinks fed by one source through a chain of filters (C93_lossy_partial; without drops C93_end_to_end_partial, C93_at_exit_partial). False for a sink fed by two: C93_two_sources_false, the process exits with an accepted line not delivered. For any number of sources feeding a sink, directly or through a single chain of filters: everything they sent before the signal, or before the first of them returned, is delivered (C93_several_partial, C93_before_signal), and everything if they are quiet since (C93_quiet). Where chains join further down even what was sent before the signal can be lost: C93_overtaken_false.
* **C94 Scripts read and change what they name** (partial) — Model the 18 library functions over an abstract Lua value conversion; per-call equations against an addressing relation; decision theorem for panics.  *Result:* Exact effect of every call that names something that exists, of pushing, clearing and missing strings; exact condition for panics (C94_panics_partial). False: naming something that does not exist panics (C94_out_of_range_false); metric_query takes percentile and index from the same argument (C94_query_false).
* **C95 No script can forge what it was given** (proved) — Scripts as interaction trees over the library; invariant on the payload by induction over the tree; composed with C73.  *Result:* For every program over the library (C95_limits), and for what the filter sends (C95_filter_output).
* **C96 Failing scripts leave nothing behind** (partial) — Count pushes and pops of run_lua_func; induction over events gives the exact depth; expected false.  *Result:* The stack's depth is exactly the number of failed calls (C96_stack_partial); unbounded for a script without process_log (C96_stack_grows_false).
* **C97 Every client is accepted and served** (partial) — Label machine of clients, poller, accept loop and handler threads over an edge-triggered poller; invariant: whatever waits is pending or being handled; expected false after accept errors.  *Result:* No waiting client is forgotten while its listener is registered, every accepted connection has its own thread, ended threads are joined, no panic on tokens (fewer than 2048 addresses). False of the code: one unexpected accept error (e.g. too many open files) deregisters the listener for ever; endless connections at one address keep the loop from everything else, including a shutdown; at 2048 addresses tokens collide.
* **C98 Every datagram is read once, in order** (partial) — The same machine for datagram sockets; order by a conservation invariant; expected false after read errors.  *Result:* Conservation and order for every schedule; no datagram is forgotten while no read fails; the text handed to the parser is the whole datagram up to 16250 bytes (C98_text_partial). False of the code: a longer datagram is cut without notice and the rest is parsed as something else (C98_long_datagram_false); after a read error the datagrams that wait are not read until another arrives; a failed look-up leaves a source without sockets running.
* **C99 Scrapes of the Prometheus sink are consistent, fresh, ordered and harmless** (partial) — Label machine of sink thread, server thread, lock and clients over the C74 aggregation; invariants: the aggregation is the fold of the finished operations, the lock holder is the thread in its critical section, requests are numbered; expected false for scrapes during insertions and after a panic.  *Result:* Proved for every schedule: freshness and atomicity of answers (C99_fresh), order (C99_in_order), mutual exclusion, bounded delay, at most one answer after shutdown; no panic under the conditions named in C99_healthy_partial. False: a scrape during an insertion is answered without metrics (C99_busy_false); a panic in an insertion leaves a server that answers nothing for ever (C99_poisoned_false); an address that cannot be bound kills only the server thread, and the sink panics at shutdown (C99_unbound_false).
* **C100 What cernan reports about its components is what happened** (partial) — Each function that counts gets a second reading: the list of its `fetch_add` calls (static, amount). Theorems equate the amounts under a reported name with a count over the inputs and outcomes; the C62 machine turns additions into reports. Expected false where a counter is never touched or counts something else.  *Result:* Proved: reports add up to the additions of all calls however they interleave (C100_reports); delay filter, JSON filter, Wavefront valve, Elasticsearch items and refusals. In part: InfluxDB successes and failures, Wavefront kinds other than Set, statsd, Graphite, native, Prometheus. False: InfluxDB attempts add the number of failures so far, not one each (C100_influx_attempts_false); gauges of Wavefront are counted as sums and 'set' never (C100_wavefront_set_false); requests that cannot be sent to Elasticsearch are counted nowhere; datagrams that are not UTF-8 are counted nowhere, and an empty one is good or bad depending on its predecessor; Graphite's telemetry.received counts lines; an oversized native payload loses its connection uncounted; Prometheus delays are in tenths of a millisecond; three names are never counted at all (C100_never_false).
* **C101 Every raw event becomes one Kafka message, keyed by its ordering value** (partial) — The submissions in the trace of the C27 model against the delivered events: induction over the history of deliveries and flushes, using C29 for the resubmissions; the key by induction on the digits. Expected false: order under retries.  *Result:* Messages, headers, keys and first submissions proved for every history with a broker that hands back what was submitted (C101_messages, C101_keys_differ); the order if nothing is retried (C101_order_partial). False: a retried message is published after a later one of the same ordering value (C101_order_false).
* **C102 A connection is read to the end and then released** (partial) — Label machine of one handler and its edge-triggered socket, reusing the readers of C32 and C70; invariant: waiting without a pending edge means nothing unread and an open connection; measure on bytes left for termination. Expected false for graphite (errors and EOF both lead back to poll).  *Result:* Proved for the native and Avro handlers: waiting implies everything read and the connection open; they end after a close, reset or shutdown within a bounded number of their own steps; under every schedule they take exactly the payloads that arrived completely and end at a length that is too large (C102_frames_partial: length prefixes must not be cut, C102_split_prefix_false); for any bytes cut anywhere, exactly which payloads are taken and why they end (C102_payloads_exact_partial). Graphite: for ASCII the lines taken are exactly the finished lines that arrived; for any bytes exactly which lines are taken (C102_graphite_exact_partial); false in full: it stalls after a line that is not UTF-8 and never ends on close.
* **C103 Tailing a file works on bytes** (partial) — A second, byte-level model of the watcher with the staging buffer and UTF-8 check; specification of `read_until` over growing contents by induction on fuel; invariant relating the bytes read to the lines shown; a pass is a sequence of reads; a simulation between the text-level watcher of C37-C39 and this one (UTF-8 encoding of characters, `String::pop` on bytes). Expected false for lines that are not text.  *Result:* Proved for every content and timing: the lines handed over by reads and by the server's passes are exactly the UTF-8, non-blank lines, in order and once, if every write ends with a line feed; on text the byte-level watcher returns what the text-level one of C37-C39 returns, through growth, truncation, rotation and removal; passes respect the byte limit; truncation to fewer bytes restarts; the length assertion never fails. False: lines that are not UTF-8 are lost and each costs a pass with doubling waits; writes cut inside a character lose the line; in-place rewrites of at least the old size are not noticed.
* **C104 The bucket store is a plain collection of points** (proved) — An executable specification over unordered lists of points (`Spec/Store`): `add`, `reset`, `run`. Refinement by induction on the history: the flattened rows of the store are a permutation of the specification's points; both operations respect permutation because a series has one point per bin. Corollaries settle the repository's QuickCheck tests of the store.
* **C105 The file watcher agrees with the project's own model of a file on every history** (proved) — The two experiments of src/source/file/mod.rs transcribed (`Spec/Watching`), with `none` for a failed assertion or a panic. Without truncations: an invariant that the watcher's unread text is the model's unread lines, kept by writes, rotations and the attempts of a read (`Lemmas/Watching`). With truncations: an invariant that lines given plus line feeds still readable never exceed lines written, also for the case that the next call finds the file shrunk (`Lemmas/WatchingCount`). A concrete race inside one call shows that the bound needs the files to change between calls only.  *Result:* C105_exact and C105_counts hold for every history in which files change between calls of the watcher; C105_race_false shows that the exception in the statement is needed: a line is delivered twice when the file is truncated inside a call.
* **C106 The properties the project's randomised tests sample hold of every input** (partial) — The randomised tests of src/sink/wavefront.rs, src/sink/prometheus.rs and src/metric/telemetry.rs restated for all inputs. Padding: induction over the stream of points with the number of zeros just given (`Lemmas/Wavefront`). Windows: every reachable window holds a sample until a purge; counting by induction over the store. The test of `reportable` and the one of `within` fail outside their generators (purges, tags): concrete witnesses.  *Result:* the randomised tests of wavefront.rs, prometheus.rs and telemetry.rs for all inputs; reporting every stored name is false after a purge, comparing by bins alone is false with different tag maps; both are proved on what the tests generate and beyond (no purge; equal tags).
* **C107 cernan's clock follows the system's** (partial) — `Model/Clock`: readers, the refreshing thread and the passing of time as a label machine over an arbitrary system clock. Invariant: what is stored was given at a moment between the last one read and now; after a refresh, at the moment the thread went to sleep. That the time stands still until the first refresh is shown for every length of start-up.  *Result:* Readings, order, monotonicity and freshness from the first refresh on are proved for every schedule. False in full: until the clock's thread has woken for the first time the time stands still at that of its first use (C107_fresh_false), for as long as start-up takes.
* **C108 The example scripts do what they show** (partial) — `Model/Scripts`: the three scripts as programs over the payload library of `Model/Lua`. The state of the filter after any history is shown to be the tally of metrics and lines since the last new flush, by induction on the history; `scrub` is related to a description of the names that match.  *Result:* Proved for every history of all three scripts. False of host names with a hyphen, which collectd_scrub.lua does not remove whole (C108_hyphen_false); the tests use another version of that script.
* **C109 Settings cernan does not know change nothing** (proved) — `Spec/Settings.known` lists the settings and removes all others from a configuration; the loader of `Model/Config` is shown to give the same result on what is left, table by table.  *Result:* Proved for every configuration. Consequence: four of the seven example configurations are refused at start-up, because the filters and sinks they forward to are of no known kind (Tests/Examples).
* **C110 Every accepted bin width can be used** (partial) — `Model/Buckets.addRow` panics when the binary search compares a point of the same name and tags and the width is 0 (`Model/Search.bsearchProbes` lists what is compared). The invariant of C09 gives at most one point per row at width 0; a simulation over the history then shows when the panic comes. False at width 0: exact condition and a witness configuration.  *Result:* Proved: no panic at any width other than 0 (any hash); at width 0, exactly which histories panic. False at width 0: C110_every_width_false.
* **C111 Native payloads mean what the protocol says, whoever wrote them** (proved) — `Spec/ProtoGrammar` is a grammar of messages after the protocol buffers' documentation (varints, contents, fields, messages) and a declarative meaning of points, lines and payloads; it does not mention the parser. The parser is shown to be `read all fields, then apply them` (`Lemmas/ProtoGrammar.merge_iff`), and each to be its specification, by induction over bytes and fields. The handler's events are compared with `Received`. Groups are not modelled (they are refused).  *Result:* Exact: the parser accepts bytes iff they are a message of the grammar, and says what the grammar says. The protobuf crate underneath is modelled after the encoding's definition; groups (deprecated, unused by the schema) are left out of model and grammar.
* **C112 A counter is conserved from the clients to the console, Wavefront and InfluxDB** (proved) — Composition of the statsd source (C40, C41), the store (C11, here by name and beside any other points: `C112_store_by_name`) and the console under the run-loop (`C86_console_texts`). The queue between is any list whose points of the name are a permutation of those sent; pulses, lines and other points are anywhere in it. `Spec/Totals` has the totals and the text of a flush. For Wavefront the store is reset twice per flush and the padding adds only zeros (`Padded`); for InfluxDB the points are kept as they come.  *Result:* Under exact addition (class LawfulAdd), a hash that tells the series apart and a bin width other than zero (see C110). Packets with a line that cannot be read are outside the property: C41 shows that their points leak.
* **C113 A counter is conserved from the clients to a scrape** (proved) — Composition of the statsd source (`C113_source`, from C40), the schedule of sink and server (C99: what an answer tells is a prefix of what the sink was asked, `scrape_prefix`), the aggregation (C48, C49, C75) and the text (C51): `C113_sink`. No law of addition is used: the sum is the left-to-right one.  *Result:* Counters only; names that reach the sink are the raw statsd names (a filter that renames is not in between).
* **C114 A gauge stands where its clients have put it** (partial) — `Spec/Gauges.gaugeLevel` applies the reports in order. For the store: induction over histories from the end, with C12 for resets and the effect of an addition on the iteration (`FlatStep`); the invariant is that the newest point of the series is persistent, stands at the level and has a bin that occurs among the times. For Prometheus: as C113. False of the code for relative reports after absolute ones at the Prometheus sink (`C114_prometheus_false`) and for reports that reach a store after a flush that is later than they are (`C114_late_false`).  *Result:* C114_prometheus_false and C114_late_false are findings: relative gauge reports are refused by the Prometheus sink once the gauge was set absolutely; a relative report older than the last flush is not applied.
* **C115 Tests on times are right for every time** (partial) — `Model/Machine` has the arithmetic of an `i64` (a debug build panics on overflow, a release build wraps) and the places that compute with times in it. Each is compared with the model without bounds: equal while the time is less than 2^63 s before the clock (`C115_tests_partial`), for padding while all times are within 2^62 s of 1970 (`C115_padding_partial`); for bins the exact condition of a panic (`C115_bins`). False of the code (`C115_oldest_time_false`): a time exactly 2^63 s ago has the distance i64::MIN in a release build and so passes every threshold, and makes a debug build panic; graphite clients can write it.  *Result:* Exact for bins; for the other tests, times less than 2^63 s before the clock (padding: all times within 2^62 s of 1970). False beyond: a graphite client can write a time exactly 2^63 s before the clock, which passes every threshold in a release build and panics a debug build.
* **C116 The order of a point's tags does not matter** (partial) — A tag map is a list in iteration order, so that maps with the same content may differ (`C116_same_tags`: same tags = permutation). The store is proved to hold one point per name, tags and bin in every history that iterates equal tags in one order (`C116_same_order_partial`, from C09 and C104). False of the code otherwise: `cmp_tagmap` and the hashes go through the iteration order, so two points with the same tags in different orders are kept apart (`C116_split_false` for any two such points). The same file has the order of points, `partial_cmp` (C07).  *Result:* Holds of histories that iterate equal tags in one order; false otherwise: comparison and hashing go through the iteration order of a hash map, so equal tags in different orders make two series.
* **C117 A panic in one thread leaves the others and the shutdown alone** (partial) — The process of C92/C93 with labels for panics (`Verif.Model.Crash`): a dead thread does nothing any more, `main` panics when it joins one, and then nothing happens. Refinement: every run is, in its processes and queues, a run of the process without panics in which only the dead threads' actions are missing (`C117_isolated`), so that what C93 says of queues and sinks carries over (`C117_sinks`); without panics it is that process (`C117_no_panic`); a return of `main` means that no thread has panicked and all have returned (`C117_clean_exit`). False of the code otherwise: after the panic of a source, a signal has `main` panic before it waits for any sink (`C117_source_false`, for every fair schedule); after the panic of filters that have not sent a `Shutdown`, a sink that no source reaches but through them never returns, and `main`, which joins sinks before filters, hangs for ever (`C117_filter_false`, for every schedule); events in a healthy sink's queue are never delivered (`C117_undelivered_false`). The part that holds: if only filters panic, a sink to which some way leads through filters that do not panic before they have sent a `Shutdown` returns (`C117_served_partial`, by the liveness lemmas of C92 applied to the living threads), and no other does (`C117_returns_iff_partial`).  *Result:* Isolation, the process without panics, sinks and clean exits are proved for every schedule. False of the code: a panicked source ends the process at the next signal before any sink is waited for; panicked filters leave a sink that can be reached only through them, and with it main, waiting for ever. If only filters panic, exactly the sinks that some source reaches through filters that do not panic before they have sent a Shutdown return.
* **C118 An acknowledged message was published** (partial) — Ghost trace of final outcomes and acknowledgements; counting over the rounds of a flush; the error codes sorted as the code does; witness.  At every moment of every history: C118_moments_partial in Props/ResendKafka.lean.  *Result:* Per connection, acknowledgements = published + given up (C118_acks); all published if every error is recoverable and hands the message back (C118_published_partial over a flush, C118_moments_partial at every moment of every history). False: unrecoverable errors are acknowledged too, and a full local queue counts as one (C118_full_queue_false).
* **C119 A flush of the Kafka sink ends** (partial) — The flush loop with the number of turns as fuel, over scripts of any length; induction on turns; witness for every number of turns.  *Result:* Ends, within two turns more than the number of submissions answered before the recoverable errors stop, whatever the answers (C119_ends_partial). False for a broker that does not recover: after any number of turns every message is in flight still (C119_for_ever_false).
* **C120 An Avro client's frames reach Kafka as it sent them** (proved) — Composition of C33 (from the socket), C101, C66, C86 and C118 through the sink's run-loop: the loop is shown to perform a sequence of operations whose deliveries are the queue's raw events.  *Result:* Through the whole path: socket, frame format, source, queue, run-loop, broker. Non-UTF-8 metadata keys make the sink panic (C66); after a retry the broker sees a client's messages in another order (C101); a stream that blocks inside a length prefix loses the connection (C34); unrecoverable errors lose messages (C118).
* **C121 A configuration that cannot work is refused at start-up** (partial) — Model of main up to waiting for a signal, with what is asked of the surroundings as parameters; start-up succeeds iff a list of conditions holds (induction over the sources, with the addresses bound so far); exactly which threads are dead; witnesses.  *Result:* Exact: which configurations come up in which surroundings, with which status or panic the others end (C121_ends), and what is dead or deaf of those that come up. False of scripts that do not load, malformed file patterns, statsd hosts that cannot be looked up, and a taken Prometheus address: the process comes up without that component. What a dead filter or source then means for the events forwarded to it and for a later signal is C117 (the process hangs, or ends without waiting for its sinks).
* **C122 Lines appended to any number of watched files reach the console once each** (proved) — Projection of the file server to one path: a pass over all watchers does to the watcher of a path what a pass over it alone does (the list has at most one watcher per path); invariant that what is left to read are the lines not sent yet; composition with C86_console.  *Result:* For lines appended whole between passes (what is sent of other histories of one file: C37_exact_partial, C38); the file system does not change within a pass. Files do not disturb each other for any history.
* **C123 What the sources have sent has been written by the time the process ends** (partial) — A sink node of the process as its run-loop alone on the log of its queue (steps that do not find the queue empty commute with appending to it); composition of C93 (what reaches a sink through filters), C86 (what a sink writes of what reaches it) and C92 (the process exits).  *Result:* For every configuration with distinct names, every wiring and every schedule: C123_alone (a sink of the process is where its own run-loop gets to on what its queue has accepted); C123_console, C123_native, C123_influxdb, C123_wavefront, C123_kafka (what has been written at exit, combining C93_at_exit_partial with C86), C123_direct (no filters), C123_in_the_end (with C92_exits_partial: the process does exit), C92_console_reopens (a console with bins of non-zero width and representable times never panics). C123_elasticsearch_partial: every line was part of a bulk request; missing that it was accepted, false by C86_elasticsearch_false. Sinks fed by several sources: all of it is false by C93_two_sources_false; what was sent before the signal has been written: C123_several_console, C123_several_native, C123_several_influxdb, C123_several_wavefront, C123_several_kafka. That the process exits is proved, rather than assumed, with sinks of every kind and any number of sources, for a run without full queues: C123_console_in_the_end, C123_native_in_the_end, C123_influxdb_in_the_end, C123_wavefront_in_the_end, C123_kafka_in_the_end. For Elasticsearch: C123_elasticsearch_in_the_end_partial.
* **C124 Prometheus protocol messages survive encoding** (proved) — The generated message types, sized, written and read field by field over the external encoding; a codec lemma for nested messages used at every level; the layout as lists of numbered fields after the .proto file.  *Result:* For every family below 4 GiB. The `protobuf` crate is external and modelled after the encoding's definition; the code keeps unknown fields and rewrites them, the model skips them.
* **C125 Counters add up from the clients to what the process has written when it ends** (proved) — Composition: what a sink fed by several sources has gone through when the process exits (C93), restricted to the points of one name, is what the statsd source sent of it; then C112 on the sink's own run-loop, which C123 finds in the process.  *Result:* Under exact addition (class LawfulAdd), a hash that tells the series apart and a bin width other than zero (see C110). The sources forward straight to the sink: with filters in between the points of a name may be changed by the filter. That the packets came before the signal is stated as: the source sent nothing but Shutdown after the time T, and the signal comes at T or later.
* **C126 What went through a flush-boundary filter has been delivered when the process ends** (partial) — Composition of C93 (what the filter received before the first Shutdown, and what the sink was given of it) with C20 made exact: over any history, emitted and held together are the flushes and timestamped events that came in, and what is held has seen at most tolerance flushes.  *Result:* False of the code: a filter forwards Shutdown without releasing what it holds (C126_false). C126_exact: what is missing at exit is exactly events that came with at most tolerance pulses of the timer after them; C126_partial: nothing is missing if more pulses than that came between the last event and the first Shutdown.
* **C127 Counters add up through two processes in a row** (proved) — Composition of C125 for the first process, C86 for its native sink, C55 made exact for idle flushes (frames are read up to the first empty one, from C34), and C125 for any source in the second process.  *Result:* C127_arrives: batch by batch, what the second process received from the first, with filters on both sides. C127_console and C127_wavefront: the totals. The link is one connection, given as what the receiving end sees (Carried); reconnections in between are not covered. An idle flush ends what the source takes from the connection: C55_until_idle_partial, C55_idle_false.
* **C128 A bulk request is read as it was meant, whatever characters the lines contain** (proved) — `Spec/Json` states the grammar of RFC 8259 as an inductive predicate on texts; `serde_json`'s writer and reader are modelled as functions (`Model/Json`), the reader is proved to be exactly the grammar, texts to be unambiguous and the writer to write texts of the grammar without control characters; the body's lines then follow from C76.  *Result:* serde_json's writer and reader are modelled, not executed: that the crate escapes as Model/Json says is trusted. The reader of the body (Elasticsearch) is any program that follows the grammar of Spec/Json.
* **C129 The JSON-encoding filter's payloads are JSON texts on one line** (proved) — The filter's external functions are instantiated by the JSON reader and writer of `Model/Json`; C22 gives the object, C128's lemmas the text.  *Result:* serde_json is modelled (Model/Json); the conversion of numbers is a parameter, assumed to give texts of numbers. rfc3339 is a parameter.
* **C130 A line goes to the index of its day** (proved) — `Spec/Date` defines the date of a day by counting from 1970-01-01 with the rule for the next day, and how dates are written; `chrono`'s day-to-date computation and formats are modelled (`Model/Date`) and proved to meet it by a closed formula for the number of a day; indices then follow from C76, the panic from C77.  *Result:* chrono is modelled (Model/Date), not executed: that the crate computes and formats as Model/Date says is trusted.
* **C131 What ends the JSON-encoding filter** (proved) — `Model/JsonFilter` is the filter's loop with the panic of `from_timestamp`; one induction over what arrives gives what is sent and where it stops, from C129 (payloads) and C130 (times).  *Result:* The panic itself is part of the claim. Conversion of numbers is a parameter.
* **C132 Which messages of the broker client are logged** (proved) — `Model/Logging`: the search for the text as `str::matches` does it, proved to find it anywhere by induction over the message; the levels are tables.
* **C133 A file source survives whatever its pattern matches** (partial) — `Model/FileRun`: the whole loop with paths as bytes, what a path names, the shared buffer and the panics; the phase after any turns is computed exactly from what is matched (`fate`), isolation by simulating the run in which only one path is matched.  *Result:* False of the code: a matched path that cannot be seeked in (a pipe) or whose name is not UTF-8 panics the source, a pipe nobody writes to blocks it for good (C133_pipe_false, C133_name_false), and the lines read in that turn from other files are lost (C133_lost); a pattern glob does not take panics it (C133_pattern_false). C133_exact_partial: exactly how the source ends, for all turns. C133_survives_partial: it survives everything else (directories, unreadable and vanishing files, contents that are not text). C133_isolated: while alive, each file's lines are those of a source that matches that file only. C133_lines: they are what the polling of C103 hands over.
* **C134 Every timer reading is counted once** (partial) — A measure that adds up when points are merged (number of samples, sum of samples) is followed through the store's exact addition step, the flushes of the Wavefront sink (C86) and its padding; the claim is false with padding of summaries on (each padding point counts a sample), so the number of padding points is part of the exact statement.  *Result:* False as claimed: with padding of summaries switched on each padding point counts a sample nobody reported (C134_padding_false). Exactly: written counts = readings + padding points; without that padding, readings. Console and InfluxDB print no counts of summaries; Prometheus keeps a sliding window (C50). For mapped names an empty new histogram is assumed of the crate, as a hypothesis.
* **C135 What a Prometheus server sees of a counter or a count never goes down** (proved) — The scraping machine of C99 is followed step by step to show that the answered texts tell of growing prefixes of what was asked; with C113 (what a scrape shows of a counter), C50 (count of a summary) and C75 (merged histogram) two prefixes are compared. The order of numbers is a hypothesis that IEEE doubles satisfy for numbers that are not negative. With a negative number the claim is false, shown by a witness.  *Result:* Proved for the modelled sink and server with the sink's thread alive; a restart of cernan starts from nothing. C135_counters_grow takes the order of numbers as a hypothesis (reflexive, transitive, adding a number that is not negative does not make it smaller). C135_counts_grow assumes that merging two histograms adds their counts (LawfulSketch). A counter given a negative number does go down, which is outside the claim (C135_negative_false).
* **C136 What a graphite client writes is what a scrape shows** (proved) — The graphite connection (`Model/Stream`, `Model/Graphite`) composed with the scrape machine: from the invariant of the handler at any time, the lines taken are the first of those the client wrote (`C136_lines`); by C42 their points are those of the readings (`C136_points`); by C99, C75 and C114 a scrape shows the last of the first `k` numbers (`C136_scrape`).  *Result:* Composition of the models of the graphite connection, the parser and the scrape machine. For ASCII text: characters of several bytes that are cut by the arrival of the bytes are lost (C70, C102). The points of the name are taken to reach the sink in the order in which they were sent (C101).
* **C137 Lines of a watched file become Kafka messages that tell them** (proved) — Composition of the file server (C122), the JSON-encoding filter with its panic (C131) and the Kafka sink (C101): `Each` of the events the filter has read is paired with the message first submitted for it; the lines of the file among these are those the server sent, which are those appended.  *Result:* Composition of C122, C131 and C101. The channel between filter and sink is taken to keep the order (C14, C24). The conditions are the exact ones of C131 (times) and C101 (a broker that hands messages back).
* **C138 A line is indexed once, however often it is sent** (proved) — The server is a store of documents keyed by index and id, to which a script applies any part of every request (`Spec/ElasticIndex.lean`). Invariant: keys are distinct and each document is that of a delivered line, which depends on neither the buffer nor the number of attempts; lines not waiting were acknowledged or refused (C53), and what was acknowledged was stored and stays.  C138_restarts: the same invariant over any number of lives of the sink in front of one server.  *Result:* Ids are the random ones of new_v4, taken to be distinct and to be printed injectively; the server is a specification, not code.
* **C139 An InfluxDB server shows what the points said, however often requests are repeated** (partial) — The server is a map from series and time to the field last written (`Spec/InfluxServer.lean`), reading the text of requests line by line. Writing a part of a text before all of it makes no difference, and a flush repeats one text and nothing else (C54); the rows of a text are those of its points (C78). False for counters: two increments in one second are one row (`C139_increments_false`).  *Result:* False for counters: increments of one counter within a second overwrite each other in the database (C139_increments_false). Proved: requests count once, and the last value said for a series and time is shown.
* **C140 A component depends on what is upstream of it and on nothing else** (proved) — Noninterference on the model of the whole process: a step that does not concern the part leaves it as it is (channels of components outside lead outside, an invariant), a step that does changes both processes alike; by induction a run and the run without the other steps agree on the part (`after_purged`). For a configuration the part is what is upstream of a node, closed by C57.  *Result:* On the model of the process in which no thread panics (for that see C117); the main thread's waiting for other components to be joined does not reach back into the part.
* **C141 The index holds the lines of a watched file, each once** (proved) — Composition: C138 says that a line that neither waits nor was given up has exactly one document and that there are no others; two lists of documents without repetition that have the same members are permutations of each other; what a document says of its line is C76, and what a file source sends is C122.  *Result:* The server is any that says it has written a line only if it has (Truthful); documents are compared as a multiset.
* **C142 A Wavefront proxy knows what the points said, whatever fails on the way** (proved) — A refinement: the run with failures is compared step by step with the run in which every flush succeeds at once. Texts end in a line end (`whole_format`), so the lines read from all connections are those of the single writes; a failed write is a prefix of the text, so its ended lines are among those of the text; reading some lines before reading all of them makes no difference to a map.  *Result:* A write that succeeds is taken to arrive. The proxy drops a line that a broken connection cuts; an example shows that this is needed.
* **C143 A Kafka consumer reads the message of every raw event exactly once if the broker is honest** (proved) — An invariant of runs (`Held`): the script left is the script without one answer per submission; the submissions answered finally together with the messages in flight that will be handed back are a permutation of the messages of the raw events so far; and whatever was submitted is one of these. A round of a flush resubmits just the messages handed back (C29), whose answers follow the script (`resubmit_written`); a flush leaves nothing in flight (C27). The file pipeline follows with C122 and C131 as in C137.  *Result:* The broker hands back what was submitted when it asks again (the sink can only submit what it is handed); metadata keys are distinct, as in a map; runs that do not panic (C66 says when).
* **C144 What a script or file pattern at fault does to the shutdown** (proved) — Composition of start-up (C121: which threads are dead) with the process whose threads panic (C117) and the process without panics (C92). A thread that has done nothing is not finished (`idle_unfinished`), so one that dies first is dead or `main` has panicked before (`dies`); a clean exit has no dead threads (C117_clean_exit). The hang is `Crash.starves`, the core of C117_filter_false, which asks only that the filter never sends Shutdown and that no thread but filters is dead. Which sinks return (`C144_returns_iff`) is C117_served_partial together with the hang.  *Result:* Threads dead at start-up are those of C121; no other thread panics. That valves open again and the condition on Shutdowns are those of C92; a sink returns exactly if it can be reached through filters whose scripts load, and otherwise the process hangs.
* **C145 What a native source gets over connections that break** (proved) — Spec/Reconnect.lean splits what a native sink does into connections and says what their reader sees; Props/Reconnect.lean proves that the source sends on the batches in order with repetitions (induction over the outcomes of the flush loop for the sink, over the symbols of the stream for the source), exactly once if no failed write arrives whole, that a running sink is such a history of flushes, and that a failed write that arrives whole is sent on twice.  *Result:* A write that the sink takes for a success is assumed to arrive; C80_unnoticed_false shows that the sink may be wrong about that.  Connections are taken in turn: how the source's threads interleave is not part of it.  C145_twice_false shows that a failed write that arrives whole is sent on twice.
* **C146 What is sent is delivered and written without the process having to stop** (partial) — Liveness over infinite schedules of the machine of Model/Net.lean: Spec/NetFlow.lean says what it is for a thread to be busy, for the timer to tick and for a filter to pass pulses on; Lemmas/NetFlow.lean and Props/NetFlow.lean prove by induction over queue lengths and over the chain that what has been accepted is read, that what sources have sent is delivered, and that a pulse at which the sink is due comes after it; Props/NetWritten.lean proves that a flush after a delivery means written (an invariant of the sink's loop), for console, native and InfluxDB; Props/NetAcked.lean does so for Wavefront and Kafka.  That a sink's valve opens in the end is a hypothesis about the run (`ValveReopens`), shown for native and InfluxDB sinks whose writes succeed in the end, Kafka, and Wavefront with at most 10,000 series of gauges and counters (more persistent series keep it closed: C72).  The property is false of a programmable filter whose script has no `tick`: it keeps every pulse to itself (C146_no_tick_false), hence `_partial`: the filters must pass pulses on, which all the others do (C146_filters_pass).  *Result:* Delivery is proved in full (C146_filters, C146_sinks, C146_end_to_end). Writing needs flushes, and is false of the code behind a programmable filter whose script has no tick function or one that fails: the filter keeps the timer's pulses, so sinks behind it are not flushed until something else gets through it (C146_no_tick_false). It is proved for chains of filters that pass pulses on (C146_flushed_partial, and with what is written C146_console_partial, C146_native_partial, C146_influxdb_partial, C146_wavefront_partial, C146_kafka_partial), which the delay, flush-boundary and JSON filters always do and the programmable filter does if tick never fails (C146_filters_pass). That the valve opens again is shown by C146_native_reopens, C146_influxdb_reopens, C146_kafka_reopens and C146_wavefront_reopens. Flushes come again and again (C146_flushed_again_partial). For Elasticsearch: C146_elasticsearch_partial (every line is in a request), C146_elasticsearch_accepted (in an accepted one, if requests fail or are accepted as a whole and do not fail for ever) and C146_elasticsearch_reopens.
* **C147 A synchronous publish is answered exactly if something of its connection is acknowledged** (proved) — Liveness over infinite executions of the machine of Model/Ack.lean (Spec/AckLive.lean: `Exec`, `Scheduled`, `AllAcked`, `HasChannel`).  Props/AckLive.lean follows the connection's thread from one of its own steps to the next, using the invariant of C31 that the bag holds the number of acknowledgements since the registration: an answer comes if and only if an acknowledgement does, and the execution of a source without channels shows a publish that is never answered.  Props/AckNet.lean joins it with the machine of the whole process (Spec/AckNet.lean: `Joined`): through a Kafka sink of a running process every synchronous publish is answered, by C146 and the accounting of acknowledgements.  *Result:* C147_answered_iff and C147_exact characterise the publishes that are answered, C147_answered gives sufficient conditions, C147_process shows that they are met by a source that forwards to a Kafka sink in a running process, C147_unanswered and C147_no_channel show that nothing else ends the wait.
* **C148 A line a filter cannot deal with keeps exactly the sinks behind that filter from returning** (proved) — Spec/FilterPanic.lean says when threads of the machine of C117 panic (`Governed`: a filter panics exactly when it reads an event of a given kind) and which filters are `Poisoned` (their queue accepted such an event before any `Shutdown`).  Props/FilterPanic.lean: what a filter has read comes before the first such event in its queue, so with C117's iff on sinks the condition can be told from what the queues accepted, without reference to panics (C148_returns_iff, C148_exits_iff; C148_hangs for all schedules, fair or not).  C148_json: for the JSON-encoding filter of Model/JsonFilter.lean the kind is exactly the lines out of the calendar.  C148_client: one message of a native client suffices.  *Result:* Of the machine of whole processes with panics; panics other than those of filters at what they read are excluded by the hypothesis Governed (C117 treats them). The description of the defect is part of the statement: a client can keep the process from stopping (C148_client).
* **C149 A sink that panics makes the process panic at shutdown, and only that; a line without a date does it** (proved) — Props/SinkPanic.lean, on the machine of C117.  C149_aborts: filters may panic as well, as long as every sink still is served; `main`, which joins the sinks first, passes the sinks that return (all that do not panic do, by the lemmas behind C117_served_partial) and stops at the first that panicked, whose handle it unwraps.  C149_ends: if only sinks panic the end is decided by whether one did.  C149_waited: who was waited for, for every schedule.  Spec/SinkPanic.lean: `Governed` (a sink panics exactly where the next step of its code is a panic), `Accepted`, `WritesDates` (the console and Elasticsearch with the dates of Model/Date.lean).  C149_line: a returned sink of that kind has written the dates of all lines before the first Shutdown (C86_console; an invariant over the retries of Elasticsearch), so a line without a date in its queue excludes its return.  C149_client: one message of a native client suffices.  *Result:* Of the machine of whole processes with panics. Panics of sources are excluded by hypothesis (C117 treats them); panics of filters are allowed in C149_aborts as long as every sink stays served. C149_line is about the two sinks that write dates; the sinks' other panics are covered by C149_ends without saying which input causes them. The description of the defect is part of the statement.
* **C150 The first thread main waits for that never returns decides how the process ends** (proved) — Spec/Fate.lean: `waitOrder` (the order of `main`'s joins) and `FirstStuck` (the first thread in it that never returns).  Props/Fate.lean: an invariant says what has returned when `main` has got to some thread; `main` gets past everything that returns (leads-to with the fairness of the schedule); so a process without end has `main` at the first stuck thread, and if that had panicked the next turn of `main` would abort.  The three iffs of C150_fate follow from the three implications and the uniqueness of the first stuck thread.  C150_sinks: the iff of C117 with panics of sinks as well.  *Result:* Of the machine of whole processes with panics. C150_fate has no hypothesis but fairness and a signal; C150_sinks also assumes that no Shutdown is lost, valves reopen and main does not panic.
* **C151 One stream handler that panics ends the next shutdown without waiting for any sink** (proved) — Model/Handlers.lean: the process of Model/Crash.lean in which every source owns a pool (Model/Thread.lean) and shuts it down before it sends `Shutdown`.  Lemmas/Handlers.lean: the process without pools simulates it (`run_proc`), fairly (`shadow_fair`: a source that is told to shut down gets through its pool, by induction on the handles left, as handlers told to shut down end).  Props/Handlers.lean: a source returns only if its pool has, which by the invariant of C60 means that no handler crashed; with C150 `main` then panics.  C151_frame composes this with C67.  C151_clients makes it exact in terms of what clients send: native connections by C82, graphite lines by the argument of C42, avro connections by induction on what is read.  *Result:* C151_isolated (while serving), C151_stuck, C151_aborts, C151_joins_iff, C151_ended, C151_frame, C151_clients (which bytes from which clients do it). This is the full effect of what C61 finds.
* **C152 The counters of the Elasticsearch sink account for every line** (proved) — Spec/ElasticCounts.lean: the sink over a history together with what it counts.  Props/ElasticCounts.lean: the law holds for one item of an answer, by induction for an answer and for a history; refusals stay within the limit, so the `u8` does not wrap (limit 255: C53_limit_255_false).  The upper bound on failures, and the exact laws at limit 0 (C152_no_retries) and 255 (C152_never_dropped, where the attempt counter wraps), are by the same inductions.  *Result:* C152_accounts (both bounds reached, see the examples), C152_bound, C152_no_retries (limit 0, exact), C152_never_dropped (limit 255; compare C53_limit_255_false).
* **C153 However often cernan is stopped or killed, no line of a watched file is sent twice** (proved) — Spec/Restarts.lean: a life of the file source is a run of Model/File.lean from its initial state, cut off after any number of lines sent; lives follow each other on the same growing file.  Props/Restarts.lean: C122 for each life (what was read is a prefix of what was appended while it watched), a prefix of a filtered list is the filter of a prefix, and induction on the lives.  C153_index: C138 over restarts (the invariant of C138 does not mention the sink's buffer beyond that it holds delivered lines, so it survives a new sink in front of the old store), and counting: documents have distinct ids, each that of a line delivered.  Spec/RestartsBytes.lean, Props/RestartsBytes.lean: the same for arbitrary bytes on Model/FileBytes.lean, from C103_passes_partial for each life.  *Result:* C153_restarts, C153_at_most_once, C153_missed_lost, C153_all_iff, C153_index; C153_bytes and C153_bytes_all for files of arbitrary bytes, read through the buffer; C153_exactly_once_false shows a case in which lines are lost.
* **C154 A client that repeats what was not answered loses nothing, however often cernan is killed** (proved) — Spec/Resend.lean: a life is any schedule of the machine of Model/Ack.lean from its initial state, cut off anywhere; the client counts the answers that reach it, and frame n of a life carries the n-th message from the first unanswered one on.  Props/Resend.lean: an invariant over the steps of one connection (its frames answered, acknowledged and sent are initial segments, of nearly the same length, by the place its thread is at; what others do leaves it alone), then induction on the lives.  The negation for two channels is a concrete schedule.  Props/ResendKafka.lean: C118 for every prefix of the sink's history (no message is given up within a flush, hence within no prefix of it), joined to C154_one_life by the number of acknowledgements.  *Result:* C154_one_life, C154_none_lost, C154_in_order, C154_repeats, C154_exactly_once_iff, C154_published; C154_two_channels_false for a source that forwards to two acknowledging sinks.
* **C155 A kill costs what waits in the queue and the buffer, nothing else** (proved) — The whole process as a label machine (Model/Net), with the console, native and InfluxDB sinks as plugged into the run-loop (Model/SinkImpls).  `C123_alone` says that the sink in the process is the sink alone run on what its queue accepted; an invariant of the run-loop says that what was written and what is kept make up what was given.  A flush is one step, so moments within a flush are not modelled.  *Result:* Console, native, InfluxDB, Elasticsearch (if each request failed altogether or was accepted in full), Wavefront and Kafka sinks within the whole process. A flush is one step of the model: the moments within a flush, and a sink whose flush never ends, are left out. What hopper keeps on disk over a restart is not modelled.
* **C156 A scrape of a running process tells the points the Prometheus sink has dealt with** (proved) — Model: `prometheusImpl` (Model/PromImpl.lean) runs the Prometheus aggregation (Model/Prometheus.lean) as a sink of the process of Model/Net.lean. Spec: `askedBy`, `promHistory` (Spec/PromImpl.lean) and `Scrape.Tells`. Proof: an invariant of the sink's loop that the aggregation is the run of its history (`prom_steps`), joined with the queue's log (C155's method); `C156_counter` adds C113_sink.  *Result:* C156_history: any points; C156_counter, C156_gauge, C156_source, C156_statsd, C156_graphite (one client) and C156_in_the_end: points of the name never beyond the age threshold at any reading of the clock, fewer than 2^64-1 calls, and summaries that have a greatest value. C156_healthy: when the sink's thread has not panicked; C156_reopens: the valve is then always open, so C92 and C146 apply. The scrape is one that finds the lock free; the server thread itself is C99.
## Observations about unmodelled code

Read but not turned into theorems: Wavefront's persisted points added inside
`format_stats` are overwritten (dead code); the documentation of the Elasticsearch and native
sinks says that configured tags replace an event's own, the code lets the event's win
(`C76_documents` and the C01 theorems say what the code does).

Of the example configurations shipped in examples/configs only quickstart.toml starts cernan with an external source and a sink:
basic.toml and quickstart-files.toml forward to a firehose sink, which no longer exists, counting-example.toml and
quickstart-filters.toml to filters that are not under a kind, so that start-up ends with exit code 1; receiver-config.toml and
transmitter-config.toml start the internal source and nothing else (`Verif/Tests/Examples`, run on the model).
