{"id": "C01", "title": "Tag layering", "statement": "Iterating the tags of a telemetry point or log line over a set of default tags yields every key that occurs in either map exactly once; a key carried by the point keeps the point's value, every other key gets the default's value, and this is the same value a single-key lookup with defaults returns.", "quantifier": "every own tag map (or none), every default map, every iteration order of both", "why_tests_cant": "The number of overlap patterns between two maps is unbounded and the hash-map iteration order varies by build and content.", "anchors": ["src/metric/mod.rs: TagIter::next", "src/metric/telemetry.rs: Telemetry::tags, Telemetry::get_from_tags", "src/metric/logline.rs: LogLine::tags, LogLine::get_from_tags"]}
{"id": "C02", "title": "Tag edits behave like a finite map", "statement": "Inserting, removing or overlaying tags on a point changes exactly the named keys: afterwards a lookup of an overlaid key returns the overlay's value, a removed key is absent, all other keys are untouched, and the insert/remove calls return the previous value.", "quantifier": "every tag map (present or absent), every key, value and overlay map, every sequence of edits", "why_tests_cant": "Tests try a few keys; the claim is about all maps and all edit sequences, including the absent-map representation.", "anchors": ["src/metric/telemetry.rs: insert_tag, remove_tag, overlay_tag, overlay_tags_from_map", "src/metric/logline.rs: insert_tag, remove_tag, overlay_tag, overlay_tags_from_map"]}
{"id": "C03", "title": "Builder accepts exactly the well-formed points", "statement": "Hardening a builder succeeds exactly when a name is set, exactly one of initial value and thawed value is set, an error bound is set only for summaries and is below 1, and bounds are set only for histograms; the resulting point carries the builder's name, tags, timestamp and persistence, defaulting to SET, now and non-persistent; the failure reported is the one for the first violated rule.", "quantifier": "every combination of set and unset builder fields and every value of them", "why_tests_cant": "There are 2^10 presence combinations times unbounded values; tests exercise a handful of happy paths.", "anchors": ["src/metric/telemetry.rs: SoftTelemetry::harden, SoftTelemetry builder methods, Telemetry::new"]}
{"id": "C04", "title": "Thaw then harden is the identity", "statement": "Unfreezing any point and hardening it again without changes always succeeds and returns the same name, value, kind, persistence, tags and timestamp (only the sum/count overrides are forgotten).", "quantifier": "every telemetry point", "why_tests_cant": "Needs to hold for every kind of value and every field combination, including values no constructor test builds.", "anchors": ["src/metric/telemetry.rs: Telemetry::thaw, SoftTelemetry::harden"]}
{"id": "C05", "title": "Adding points: kind and value rule", "statement": "Adding point B into point A always produces B's aggregation kind and keeps A's name, tags and timestamp; SUM results are A's number plus B's, SET results are B's number, and for like-kinded histograms and summaries the sample count of the result is the sum of the two counts.", "quantifier": "every pair of values of every kind", "why_tests_cant": "Sixteen kind combinations times unbounded contents.", "anchors": ["src/metric/telemetry.rs: impl Add for Value, impl AddAssign for Telemetry"]}
{"id": "C06", "title": "Adding points preserves persistence", "statement": "If either of two points is persistent, the point that results from adding one into the other is persistent.", "quantifier": "every pair of points", "why_tests_cant": "A sampled test only sees the flag combination it builds; the documented rule covers all four.", "anchors": ["src/metric/telemetry.rs: impl AddAssign for Telemetry (comment lines 226-229)"]}
{"id": "C07", "title": "Bin comparison is a consistent order", "statement": "The comparison used to place points in time bins is reflexive, antisymmetric and transitive, so that binary search over a row of points is meaningful; two points compare equal only when name, tags and time bin agree.", "quantifier": "every pair and triple of points, every bin width", "why_tests_cant": "Transitivity quantifies over all triples; tests compare single pairs.", "anchors": ["src/metric/telemetry.rs: Telemetry::within", "src/metric/mod.rs: cmp_tagmap"]}
{"id": "C08", "title": "Bucket bookkeeping invariant", "statement": "After any sequence of additions and resets the reported point count equals the number of points iteration yields, is_empty holds exactly when iteration yields nothing, and len equals the number of distinct series keys ever added.", "quantifier": "every sequence of add and reset operations, every hash function", "why_tests_cant": "Histories are unbounded; counters drift only on particular interleavings of merge, insert and persist-on-reset.", "anchors": ["src/buckets.rs: Buckets::add, Buckets::reset, Buckets::count, Buckets::is_empty, Buckets::len, Iter::next"]}
{"id": "C09", "title": "One point per series and bin", "statement": "No two points in a bucket store ever have the same name, tags (as iterated, see C116) and time bin, and the points of one series are iterated in strictly increasing bin order.", "quantifier": "every sequence of add and reset operations, every bin width > 0, every assignment of distinct hashes to distinct series", "why_tests_cant": "Depends on the correctness of two nested binary searches over every reachable store.", "anchors": ["src/buckets.rs: Buckets::add, Iter::next", "src/metric/telemetry.rs: Telemetry::within"]}
{"id": "C10", "title": "Bucket contents are the per-bin fold of arrivals", "statement": "For non-persistent points, after any sequence of additions the store holds, for each (series, bin) that received points, exactly one point: the first arrival with every later arrival of the same series and bin added into it in arrival order; nothing else is stored.", "quantifier": "every sequence of non-persistent additions, in any time order, every bin width > 0", "why_tests_cant": "Correctness is about all interleavings of series and out-of-order timestamps.", "anchors": ["src/buckets.rs: Buckets::add", "src/metric/telemetry.rs: impl AddAssign for Telemetry"]}
{"id": "C11", "title": "Counters are conserved", "statement": "For SUM points the total over all points in the store equals the total of all values added, however the additions are spread over series and bins.", "quantifier": "every sequence of non-persistent SUM additions, over exact arithmetic", "why_tests_cant": "A conservation law over unbounded histories.", "anchors": ["src/buckets.rs: Buckets::add", "src/metric/telemetry.rs: impl Add for Value"]}
{"id": "C12", "title": "Reset keeps exactly the persistent series", "statement": "After a flush reset, each series whose newest bin is persistent keeps exactly one point, with that newest value and the current time; every other series keeps no point; the set of known series is unchanged.", "quantifier": "every reachable store, every clock value", "why_tests_cant": "Reachable stores are unbounded, and the swap/truncate idiom only goes wrong for particular row lengths.", "anchors": ["src/buckets.rs: Buckets::reset"]}
{"id": "C13", "title": "Persistent points carry the previous value forward", "statement": "When a persistent point arrives in a new, later bin of a series that already has a point, the new bin starts from the latest earlier bin's value of the same series with the arrival added in, and the earlier bins are left as they were.", "quantifier": "every reachable store, every persistent arrival", "why_tests_cant": "Depends on the search position in every reachable row.", "anchors": ["src/buckets.rs: Buckets::add (lines 161-175)"]}
{"id": "C14", "title": "Fan-out delivers exactly once per channel", "statement": "Sending an event offers it to every downstream channel exactly once in the sense that each channel either accepts exactly one copy or reports Full, in which case the copy is dropped and the drop counter grows by exactly one; transient errors never lose or duplicate the event.", "quantifier": "every number of channels, every pattern of Full and transient errors per channel", "why_tests_cant": "Error patterns are unbounded sequences chosen by the environment.", "anchors": ["src/util.rs: send"]}
{"id": "C15", "title": "Fan-out preserves order per channel", "statement": "For any sequence of sends, the events a channel accepted are a subsequence of the sent events in order, and all of them if the channel was never Full.", "quantifier": "every sequence of events and every error pattern", "why_tests_cant": "Order across retries depends on all schedules of errors.", "anchors": ["src/util.rs: send"]}
{"id": "C16", "title": "Filter shutdown handshake", "statement": "A filter forwards every Shutdown it receives to all its downstreams and stops exactly when it has received as many as it has upstream sources; everything it emits for earlier events precedes the last Shutdown on every downstream channel.", "quantifier": "every input history, every number of sources, every filter behaviour", "why_tests_cant": "A protocol property over all histories and interleavings of upstream events.", "anchors": ["src/filter/mod.rs: Filter::run"]}
{"id": "C17", "title": "Filter run emits each processing result once, in order", "statement": "The events a filter forwards are, in order, the outputs its processing step produced for each input; when the step fails, exactly the failure event is forwarded for that input and no partial output of the failed step is ever forwarded.", "quantifier": "every input history and every filter that may fail on any input", "why_tests_cant": "Whether stale output leaks depends on which later input succeeds.", "anchors": ["src/filter/mod.rs: Filter::run"]}
{"id": "C18", "title": "Flush-boundary filter holds events for the tolerance", "statement": "A timestamped event is emitted exactly once, at the first timer flush at which its hold's age exceeds the tolerance, never before and never again; every flush is forwarded after the events it releases.", "quantifier": "every input history and every tolerance", "why_tests_cant": "An exactly-once and timing claim over unbounded histories.", "anchors": ["src/filter/flush_boundary_filter.rs: FlushBoundaryFilter::process"]}
{"id": "C19", "title": "Flush-boundary filter orders what it releases", "statement": "At each flush the released events come out grouped by non-decreasing timestamp and, for one timestamp, in arrival order.", "quantifier": "every input history and every tolerance", "why_tests_cant": "Ordering must hold for every arrival permutation.", "anchors": ["src/filter/flush_boundary_filter.rs: FlushBoundaryFilter::process"]}
{"id": "C20", "title": "Flush-boundary filter loses nothing", "statement": "Every event that enters the filter is either emitted or still held: no event is discarded.", "quantifier": "every input history including events that carry no timestamp", "why_tests_cant": "Conservation over all event kinds and histories.", "anchors": ["src/filter/flush_boundary_filter.rs: FlushBoundaryFilter::process", "src/metric/event.rs: Event::timestamp"]}
{"id": "C21", "title": "Delay filter tolerance", "statement": "A timestamped event is dropped exactly when its timestamp differs from the current time by more than the configured tolerance; all other events pass unchanged and in order.", "quantifier": "every event, clock value and tolerance", "why_tests_cant": "The boundary is a single point in an unbounded domain.", "anchors": ["src/filter/delay_filter.rs: DelayFilter::process"]}
{"id": "C22", "title": "JSON encode filter merge precedence", "statement": "Every log line becomes exactly one raw JSON event whose object maps each key to the value from the first of (parsed line or message wrapper, line fields, metadata) that defines it; every other event passes through unchanged.", "quantifier": "every log line, parse outcome, field map, tag map and default tag map", "why_tests_cant": "Key collisions between three maps are unbounded.", "anchors": ["src/filter/json_encode_filter.rs: JSONEncodeFilter::process, merge_objects"]}
{"id": "C23", "title": "Programmable filter runs each flush tick at most once", "statement": "The user's tick function runs at most once per timer-flush index and only for increasing indices, and a flush is forwarded downstream exactly when its tick was run.", "quantifier": "every sequence of timer flushes from any number of upstreams, interleaved with other events, with any pattern of script errors", "why_tests_cant": "Histories with duplicated and reordered flush pulses are unbounded.", "anchors": ["src/filter/programmable_filter.rs: ProgrammableFilter::process"]}
{"id": "C24", "title": "Sink delivers every event once and in order", "statement": "Until shutdown, each telemetry, log and raw event taken from the queue is handed to the sink exactly once, in queue order, and only while the sink's valve is open; while the valve is closed the sink is flushed and the event is kept.", "quantifier": "every queue history, every sink whose valve re-opens after finitely many flushes", "why_tests_cant": "The retry loop quantifies over all valve schedules.", "anchors": ["src/sink/mod.rs: RunnableSink::consume"]}
{"id": "C25", "title": "Sink flushes once per due pulse", "statement": "A sink is flushed by a timer pulse exactly when the pulse index is greater than all indices seen before and the sink's interval is zero or divides it; duplicated or stale pulses from other upstreams never flush again.", "quantifier": "every sequence of timer pulses, with any duplication, and every flush interval", "why_tests_cant": "Duplicate patterns are unbounded.", "anchors": ["src/sink/mod.rs: RunnableSink::consume"]}
{"id": "C26", "title": "Sink shuts down only after every source has", "statement": "A sink shuts down when and only when it has received a Shutdown from each of its upstream sources, so nothing a slower source sends before its Shutdown is lost.", "quantifier": "every queue history and every number of upstream sources", "why_tests_cant": "Needs every interleaving of several sources' tails with the first Shutdown.", "anchors": ["src/sink/mod.rs: RunnableSink::consume (lines 168-187)"]}
{"id": "C27", "title": "Kafka flush accounts for every in-flight message", "statement": "When a Kafka flush returns no message is in flight, the in-flight byte count is zero, and every message that was in flight ended exactly once as published, failed or unretryable, with the four counters adding up accordingly.", "quantifier": "every set of in-flight messages and every finite schedule of broker outcomes and retries", "why_tests_cant": "Broker outcome sequences are unbounded.", "anchors": ["src/sink/kafka.rs: Kafka::flush, Kafka::await_inflight_messages"]}
{"id": "C28", "title": "Kafka acknowledges each message exactly once", "statement": "Each message that carries a connection id is acknowledged to its connection exactly once over a flush, after its final outcome, whatever retries happen; messages without a connection id acknowledge nothing.", "quantifier": "every set of in-flight messages and every finite schedule of outcomes", "why_tests_cant": "Exactly-once across retries is a history property.", "anchors": ["src/sink/kafka.rs: Kafka::flush, Kafka::acknowledge, Kafka::await_inflight_messages"]}
{"id": "C29", "title": "Kafka retries preserve the message", "statement": "A retried message is resubmitted with the same topic, payload, key, headers and connection id as the original submission.", "quantifier": "every message and every number of retries", "why_tests_cant": "Must hold through any number of retry rounds.", "anchors": ["src/sink/kafka.rs: Kafka::flush, FailedMessageWrapper, KafkaMessageSender::try_payload"]}
{"id": "C30", "title": "Kafka valve tracks bytes in flight", "statement": "Between flushes the valve is closed exactly when the total payload size accepted since the last flush has reached the configured maximum.", "quantifier": "every sequence of deliveries and flushes", "why_tests_cant": "An invariant over all operation histories.", "anchors": ["src/sink/kafka.rs: Kafka::deliver_raw, Kafka::valve_state, Kafka::flush"]}
{"id": "C31", "title": "A synchronous publish waits for its acknowledgement", "statement": "A synchronous Avro publish is answered to the client only after some sink acknowledged the connection's message: no schedule of sink acknowledgements between registration, send and wait lets the answer out early, nor does an acknowledgement made before the wait starts get lost.", "quantifier": "every interleaving of the source thread and acknowledging sink threads", "why_tests_cant": "A concurrency property over all schedules.", "anchors": ["src/source/avro.rs: AvroStreamHandler::handle_avro_payload", "src/metric/ackbag.rs: SyncAckBag::prepare_wait, SyncAckBag::wait_for, SyncAckBag::with_props, SyncAckProps::ack"]}
{"id": "C32", "title": "Avro frame header and metadata round-trip", "statement": "Parsing an Avro frame produced by the documented layout returns the same control bits, id, ordering key, metadata map and body; version-1 frames never consume metadata bytes.", "quantifier": "every header value, metadata map within the wire limits, and body", "why_tests_cant": "Unbounded byte strings.", "anchors": ["src/source/avro.rs: Header, Payload::from"]}
{"id": "C33", "title": "Avro publishes are answered exactly when synchronous", "statement": "For each valid frame on a connection an id is written back, in frame order, exactly for the frames whose sync bit is set; an invalid frame ends the connection without answering it or anything after it.", "quantifier": "every sequence of frames on a connection", "why_tests_cant": "Sequences of valid/invalid, sync/async frames are unbounded.", "anchors": ["src/source/avro.rs: AvroStreamHandler::handle_stream, handle_avro_payload"]}
{"id": "C34", "title": "Length-prefixed framing is chunking-independent", "statement": "Reading length-prefixed payloads from a non-blocking stream returns exactly the payloads that were written, in order, however the network splits the bytes and wherever the stream would block.", "quantifier": "every sequence of payloads within the size limit and every split of the byte stream into reads", "why_tests_cant": "There are exponentially many splits of every stream.", "anchors": ["src/source/nonblocking.rs: BufferedPayload::read, read_length, read_payload"]}
{"id": "C35", "title": "Oversized frames are rejected", "statement": "A frame whose declared length exceeds the configured maximum is reported as too large and none of its body is read; a frame at or below the maximum is never so reported.", "quantifier": "every declared length and maximum", "why_tests_cant": "Boundary in an unbounded domain, and persistence of the error over later reads.", "anchors": ["src/source/nonblocking.rs: BufferedPayload::read"]}
{"id": "C36", "title": "write_all writes every byte once", "statement": "The non-blocking write helper returns success only when the bytes accepted by the stream are exactly the given buffer, in order, with nothing duplicated or skipped, whatever mix of partial writes, would-block and interrupted results occurs.", "quantifier": "every buffer and every schedule of partial writes and retriable errors", "why_tests_cant": "Schedules are unbounded.", "anchors": ["src/source/nonblocking.rs: write_all"]}
{"id": "C37", "title": "File tailing delivers every line once", "statement": "While a watched file only grows, each line appended after the watch began is delivered exactly once, in order and unaltered, however appends and reads interleave.", "quantifier": "every sequence of appends (including partial lines and blank lines) and reads", "why_tests_cant": "All interleavings of writer and reader.", "anchors": ["src/source/file/file_watcher.rs: FileWatcher::new, read_line", "src/source/file/file_server.rs: FileServer::run"]}
{"id": "C38", "title": "File tailing survives rotation", "statement": "When the watched path is replaced by a new file, the remaining lines of the old file are delivered before the lines of the new file, and the new file is read from its start.", "quantifier": "every content of old and new file and every position of the rotation relative to reads", "why_tests_cant": "All interleavings of rotation and reads.", "anchors": ["src/source/file/file_watcher.rs: FileWatcher::read_line, open_at_start"]}
{"id": "C39", "title": "File server reads fairly", "statement": "In one pass over a file the server stops as soon as the bytes read exceed the per-file limit or no complete line is available, so one busy file delays the others by at most the limit plus one line.", "quantifier": "every file content and every limit", "why_tests_cant": "Unbounded file contents.", "anchors": ["src/source/file/file_server.rs: FileServer::run"]}
{"id": "C40", "title": "Statsd lines parse to the documented points", "statement": "A packet of well-formed statsd lines parses to exactly one point per line, in order, with the line's name, the value scaled by the inverse sample rate, SUM for counters and signed gauges, SET for unsigned gauges, summary (or mapped histogram) for timers, and persistence exactly for gauges; a packet with any malformed line is rejected.", "quantifier": "every packet, every number of lines, every mapping configuration", "why_tests_cant": "A grammar over unbounded strings.", "anchors": ["src/protocols/statsd.rs: parse_statsd"]}
{"id": "C41", "title": "A rejected statsd packet contributes nothing", "statement": "No point from a rejected packet is ever forwarded.", "quantifier": "every sequence of packets read by the source", "why_tests_cant": "Leaks show only for particular sequences of bad then good packets.", "anchors": ["src/source/statsd.rs: Statsd::handle_datagrams", "src/protocols/statsd.rs: parse_statsd"]}
{"id": "C42", "title": "Graphite payloads parse to the documented points", "statement": "A payload of whitespace-separated (name, value, time) triples parses to exactly those SET points in order; a payload with a malformed or incomplete triple is rejected.", "quantifier": "every payload", "why_tests_cant": "A grammar over unbounded strings.", "anchors": ["src/protocols/graphite.rs: parse_graphite"]}
{"id": "C43", "title": "A rejected graphite line contributes nothing", "statement": "No point from a rejected line is ever forwarded.", "quantifier": "every sequence of lines on a connection", "why_tests_cant": "Leaks show only for particular sequences.", "anchors": ["src/source/graphite.rs: GraphiteStreamHandler::handle_stream", "src/protocols/graphite.rs: parse_graphite"]}
{"id": "C44", "title": "Wavefront padding keeps every point", "statement": "With padding, every stored point is emitted exactly once and in order; with padding disabled for its kind nothing is added; every added point is a zero-valued copy of a neighbour's series.", "quantifier": "every stored sequence, every last-seen table, every padding configuration", "why_tests_cant": "Gap patterns are unbounded.", "anchors": ["src/sink/wavefront.rs: Padding::next"]}
{"id": "C45", "title": "Wavefront zero padding brackets gaps", "statement": "The padding emitted for a gap lies strictly inside the gap: right after the earlier point and right before the later point, and only for gaps of more than one span.", "quantifier": "every pair of consecutive points of one series and every span", "why_tests_cant": "Gap sizes are unbounded.", "anchors": ["src/sink/wavefront.rs: Padding::next"]}
{"id": "C46", "title": "Wavefront flush retries until delivered", "statement": "A flush returns only after one complete write of the formatted payload succeeded; until then the payload, which covers every stored point, is kept and every attempt sends the same payload, so a connection failure never discards data; once connecting and writing succeed the flush returns.", "quantifier": "every schedule of connection and write failures followed by a success", "why_tests_cant": "Failure schedules are unbounded.", "anchors": ["src/sink/wavefront.rs: Wavefront::flush, Wavefront::format_stats"]}
{"id": "C47", "title": "Age thresholds bound accepted points", "statement": "With an age threshold configured, a sink accepts exactly the points whose timestamp is within the threshold of the current time; without one it accepts all points.", "quantifier": "every point, clock value and threshold", "why_tests_cant": "Boundary over an unbounded domain.", "anchors": ["src/sink/wavefront.rs: Wavefront::deliver", "src/sink/prometheus.rs: Prometheus::deliver"]}
{"id": "C48", "title": "Prometheus keeps one kind per metric name", "statement": "Once a metric name has been accepted with some aggregation kind, points of another kind are refused and change nothing; every reported point of that name has the accepted kind.", "quantifier": "every sequence of insertions and purges", "why_tests_cant": "Histories are unbounded.", "anchors": ["src/sink/prometheus.rs: PrometheusAggr::insert, PrometheusAggr::purge, Iter::next"]}
{"id": "C49", "title": "Prometheus distinguishes tag sets", "statement": "Points with the same name but different tag maps are aggregated and reported separately.", "quantifier": "every sequence of insertions", "why_tests_cant": "Depends on all pairs of tag maps.", "anchors": ["src/sink/prometheus.rs: PrometheusAggr (doc comment), PrometheusAggr::insert"]}
{"id": "C50", "title": "Prometheus summary window", "statement": "A summary retains at most the configured number of per-second samples, in increasing timestamp order, dropping the oldest first; purging removes exactly the samples older than the window; the reported count is the number of insertions ever made and never decreases because of the window.", "quantifier": "every sequence of insertions and purges with window size at least 1", "why_tests_cant": "Window behaviour is a history property.", "anchors": ["src/sink/prometheus.rs: Accumulator::insert, Accumulator::purge, PrometheusAggr::reportable"]}
{"id": "C51", "title": "Prometheus exposition is well formed", "statement": "Histogram buckets in the exposition are cumulative: bucket counts never decrease with the bound, and the +Inf bucket equals the reported count; each name has exactly one TYPE line, before its samples.", "quantifier": "every aggregated state", "why_tests_cant": "Every histogram and every number of metrics.", "anchors": ["src/sink/prometheus.rs: write_text"]}
{"id": "C52", "title": "Prometheus names are sanitised", "statement": "A sanitised metric name contains only ASCII letters, digits, colon and underscore, has one character per input byte, leaves valid characters in place and is stable under re-sanitising.", "quantifier": "every UTF-8 name", "why_tests_cant": "All strings.", "anchors": ["src/sink/prometheus.rs: sanitize"]}
{"id": "C53", "title": "Elasticsearch keeps lines until acknowledged or exhausted", "statement": "A log line leaves the Elasticsearch buffer exactly when the server acknowledges it or when it has been refused more often than the attempt limit; failures of the whole request never drop or count against a line.", "quantifier": "every buffer and every sequence of bulk responses", "why_tests_cant": "Response histories are unbounded.", "anchors": ["src/sink/elasticsearch.rs: Elasticsearch::flush, deliver_line"]}
{"id": "C54", "title": "InfluxDB flush retries the same payload", "statement": "An InfluxDB flush sends one payload built from all delivered points, resends exactly it until the server accepts, and clears the points only then.", "quantifier": "every schedule of failures followed by an acceptance", "why_tests_cant": "Failure schedules are unbounded.", "anchors": ["src/sink/influxdb.rs: InfluxDB::flush, format_stats, deliver"]}
{"id": "C55", "title": "Native sink and source agree", "statement": "A point sent through the native sink and received by the native source has the same name, kind, persistence, whole-second timestamp and samples, with the sink's default tags filled in under the point's own tags.", "quantifier": "every telemetry point and default tag map", "why_tests_cant": "Every kind, sample list and tag overlap.", "anchors": ["src/sink/native.rs: Native::flush", "src/source/native.rs: NativeStreamHandler::handle_stream_payload"]}
{"id": "C56", "title": "Backoff schedule", "statement": "The retry delay never decreases with the number of attempts, never exceeds 512 ms, is zero on the first attempt and doubles between successive attempts until the cap.  A sink that retries waits accordingly, and starts over after a success.", "quantifier": "every attempt count", "why_tests_cant": "All 2^32 attempt counts.", "anchors": ["src/time.rs: delay", "src/sink/wavefront.rs: flush"]}
{"id": "C57", "title": "Topology wiring matches the configuration", "statement": "After start-up wiring, the upstream set of each filter and sink (used to count Shutdowns) is exactly the set of nodes that list it among their forwards, and the channels of each node are exactly those of its forwards.", "quantifier": "every configuration without mutual or self forwards, any iteration order of the tables", "why_tests_cant": "All graphs.", "anchors": ["src/bin/cernan.rs: main, populate_forwards", "src/matrix.rs: Adjacency"]}
{"id": "C58", "title": "Misconfigured forwards are refused at start-up", "statement": "If any node forwards to a name that has no channel, the process exits before running with that forward; otherwise start-up wiring succeeds.", "quantifier": "every configuration", "why_tests_cant": "All graphs.", "anchors": ["src/bin/cernan.rs: main (lines 406-420), populate_forwards"]}
{"id": "C59", "title": "Adjacency map operations", "statement": "The adjacency structure behaves as a finite relation with metadata: adding, counting, filtering and popping edges act on exactly the named node's edges and the last write to an edge wins.", "quantifier": "every sequence of operations", "why_tests_cant": "All operation histories.", "anchors": ["src/matrix.rs: add_asymmetric_edge, add_edges, num_edges, contains_node, filter_nodes, pop, pop_nodes, pop_metadata"]}
{"id": "C60", "title": "Thread pool tracks its children", "statement": "Every spawned handler gets a fresh id; joining ready threads removes exactly the finished ones; shutdown signals and joins every remaining one.", "quantifier": "every schedule of spawns, completions, joins and shutdown", "why_tests_cant": "All schedules.", "anchors": ["src/thread.rs: ThreadPool::spawn, join_ready, join, shutdown"]}
{"id": "C61", "title": "Crashed stream handlers do not compromise shutdown", "statement": "A stream handler that crashed does not prevent the pool from shutting down the remaining handlers.", "quantifier": "every schedule of crashes", "why_tests_cant": "All schedules of crashes.", "anchors": ["src/thread.rs: ThreadPool::shutdown, ThreadHandle::shutdown", "src/source/tcp.rs: spawn_stream_handlers (comment)"]}
{"id": "C62", "title": "Self-telemetry counters are reported exactly once", "statement": "The sum of all values the internal source reports for a counter equals the sum of all increments made to it up to the last report, for any interleaving of increments with reports.", "quantifier": "every interleaving of counter increments and reporting passes", "why_tests_cant": "All schedules.", "anchors": ["src/source/internal.rs: atom_telem!, Internal::run, report_full_telemetry"]}
{"id": "C63", "title": "End-to-end graceful shutdown of a pipeline", "statement": "In a chain source, filters, sink connected by queues, every event the source sent before its Shutdown reaches the sink's delivery exactly once (after filtering) before the sink shuts down, whatever the scheduling.", "quantifier": "every chain length, every input history, every interleaving of the stages", "why_tests_cant": "All schedules of several threads.", "anchors": ["src/filter/mod.rs: Filter::run", "src/sink/mod.rs: RunnableSink::consume", "src/util.rs: send", "src/bin/cernan.rs: main (lines 795-806)"]}
{"id": "C64", "title": "Flush timer pulses", "statement": "The flush timer emits each index 1, 2, 3, ... exactly once and in order to every top-level destination.", "quantifier": "every prefix of the execution", "why_tests_cant": "Infinite execution.", "anchors": ["src/source/flush.rs: FlushTimer::run"]}
{"id": "C65", "title": "Flush intervals are inherited", "statement": "A sink's flush interval is its own configured number of seconds times 100 if given (integer), else the global interval, else the default of 60 seconds.", "quantifier": "every configuration", "why_tests_cant": "All tables.", "anchors": ["src/config.rs: parse_flush_interval, parse_config_file"]}
{"id": "C66", "title": "Kafka sink survives any message", "statement": "Delivering any raw event to the Kafka sink, whatever its payload, metadata and ordering key, returns normally; flushing returns normally whatever the broker answers.", "quantifier": "every raw event with every metadata map, every broker response sequence", "why_tests_cant": "Metadata bytes come from network clients; a unit test uses well-formed keys only.", "anchors": ["src/sink/kafka.rs: Kafka::try_payload, Kafka::deliver_raw, Kafka::flush"]}
{"id": "C67", "title": "Avro source survives malformed frames", "statement": "Whatever bytes a client sends as an Avro frame, the connection handler either publishes the frame or rejects it and closes the connection; it never panics.", "quantifier": "every payload within the size limit", "why_tests_cant": "The input is an arbitrary byte string from the network.", "anchors": ["src/source/avro.rs: Header::from, Payload::from, AvroStreamHandler::handle_stream"]}
{"id": "C68", "title": "File server backs off when idle and not when busy", "statement": "A pass over the watched files that delivers lines is followed by the next pass without waiting; the k-th pass in a row that delivers nothing is followed by a wait of 2^k ms, never more than 2048 ms.", "quantifier": "every history of passes, file system states and glob results", "why_tests_cant": "Unbounded histories of idle and busy passes.", "anchors": ["src/source/file/file_server.rs: FileServer::run"]}
{"id": "C69", "title": "No datagram brings the statsd source down", "statement": "Whatever datagrams arrive, the statsd source rejects or forwards them and goes on listening; it never panics.", "quantifier": "every sequence of datagrams and every configuration the loader accepts", "why_tests_cant": "Arbitrary text from the network.", "anchors": ["src/protocols/statsd.rs: parse_statsd", "src/source/statsd.rs: Statsd::handle_datagrams"]}
{"id": "C70", "title": "Graphite lines do not depend on packet boundaries", "statement": "The lines of a graphite connection are recognised independently of how the network cuts the byte stream into pieces and of when reads block.", "quantifier": "every byte stream and every way to cut it into reads", "why_tests_cant": "All cuts of all streams.", "anchors": ["src/source/graphite.rs: GraphiteStreamHandler::handle_stream"]}
{"id": "C71", "title": "Wavefront text is exact", "statement": "The text sent by a flush is, in order and for everything emitted: one line per gauge or counter, one line per bin of a histogram, one line per configured percentile plus count and mean of a summary, each with the sink's tags overridden by the point's own; reuse of formatted numbers never changes it, and no stored value makes the flush panic.", "quantifier": "every stored sequence, every percentile list, every tag map and every finite value", "why_tests_cant": "The cache of formatted numbers is state over an unbounded history of values.", "anchors": ["src/sink/wavefront.rs: Wavefront::format_stats, fmt_val, get_from_cache"]}
{"id": "C72", "title": "Wavefront back pressure ends with a flush", "statement": "The Wavefront sink refuses points exactly while it stores more than 10,000, and after a successful flush it takes points again.", "quantifier": "every history of points and flushes", "why_tests_cant": "Needs histories with more than 10,000 points and their persistence.", "anchors": ["src/sink/wavefront.rs: Wavefront::valve_state", "src/buckets.rs: Buckets::reset"]}
{"id": "C73", "title": "Programmable filter emits what the script leaves", "statement": "An event given to the user's script is replaced by exactly the log lines and points the script leaves in its payload, logs first, each in order, the script seeing only that event; a failing call emits only a failure counter; a new flush follows the output of its tick.", "quantifier": "every script (any function of its state and payload), every event", "why_tests_cant": "Scripts are arbitrary programs.", "anchors": ["src/filter/programmable_filter.rs: ProgrammableFilter::process, run_lua_func"]}
{"id": "C74", "title": "Prometheus never panics", "statement": "No sequence of points and flushes, and no scrape at any time, makes the Prometheus sink panic, for any configured window.", "quantifier": "every history of insertions and purges of non-empty points, every scrape in every map iteration order", "why_tests_cant": "Unbounded histories and every iteration order.", "anchors": ["src/sink/prometheus.rs: Accumulator::insert, reportable, write_text, SenderHandler::handle"]}
{"id": "C75", "title": "Prometheus keeps counters, gauges and histograms forever", "statement": "For a name first seen as counter, gauge or histogram, every scrape reports exactly one point: all accepted points of that name combined in order of arrival (total of a counter, last value of a gauge), however many flushes happened in between.", "quantifier": "every history of insertions and purges", "why_tests_cant": "Unbounded histories.", "anchors": ["src/sink/prometheus.rs: PrometheusAggr::insert, Accumulator::purge, PrometheusAggr::reportable"]}
{"id": "C76", "title": "Elasticsearch documents carry the line", "statement": "A bulk request has one document per waiting line, in order, under the line's id and the index of its day; the document has the line's text, path and time, its fields, its own tags and, where those leave holes, the sink's tags.", "quantifier": "every buffer, every line, every tag and field map", "why_tests_cant": "All overlaps between field names, tag names and the fixed keys.", "anchors": ["src/sink/elasticsearch.rs: Elasticsearch::bulk_body, idx, format_time"]}
{"id": "C77", "title": "Elasticsearch survives every line and answer", "statement": "No log line and no answer of the server makes the Elasticsearch sink panic.", "quantifier": "every history of lines and server responses", "why_tests_cant": "Response histories are unbounded and the server is not trusted.", "anchors": ["src/sink/elasticsearch.rs: Elasticsearch::flush, format_time"]}
{"id": "C78", "title": "InfluxDB text is exact", "statement": "The text of an InfluxDB flush is, in order, the text of every delivered point: one line per gauge or counter, per histogram bin, per answered percentile, with the sink's tags overridden by the point's own and the point's time in nanoseconds; no value makes the flush panic.", "quantifier": "every list of points, every tag map, every timestamp and value", "why_tests_cant": "The cache of formatted numbers is state over an unbounded list; all timestamps.", "anchors": ["src/sink/influxdb.rs: InfluxDB::format_stats, get_from_cache, fmt_tags"]}
{"id": "C79", "title": "Native messages survive encoding", "statement": "A payload written in the native protocol's encoding is read back as the same payload, and the size announced for it is the number of bytes written.  Fields added by later versions of the protocol are passed over.", "quantifier": "every payload: any number of points and lines, samples, tags, texts and times", "why_tests_cant": "Messages are unbounded and nested; sizes cross every boundary of the variable-length integers.", "anchors": ["src/protocols/native.rs: Payload, Telemetry, LogLine: compute_size, write_to_with_cached_sizes, merge_from"]}
{"id": "C80", "title": "Native sink delivers each batch", "statement": "A flush of the native sink writes exactly the bytes of its batch, again after every failed write, pausing and reconnecting in between; it ends exactly when a write has succeeded, which happens once the peer accepts a connection and a write; the batch then leaves the buffer.", "quantifier": "every batch, every history of failing and succeeding connections and writes", "why_tests_cant": "Failure histories are unbounded.", "anchors": ["src/sink/native.rs: Native::flush"]}
{"id": "C81", "title": "Native times are whole seconds", "statement": "A time in milliseconds is received as that time in whole seconds, truncated towards zero; a time in seconds sent by the native sink is received unchanged.", "quantifier": "every 64-bit time", "why_tests_cant": "2^64 times through floating-point rounding.", "anchors": ["src/source/native.rs: NativeStreamHandler::handle_stream_payload", "src/sink/native.rs: Native::flush"]}
{"id": "C82", "title": "Native source survives every input", "statement": "No bytes a peer sends make the native source panic: each payload is delivered, or the connection is dropped.", "quantifier": "every byte stream, however cut into reads", "why_tests_cant": "Arbitrary untrusted input.", "anchors": ["src/source/native.rs: NativeStreamHandler::handle_stream, handle_stream_payload"]}
{"id": "C83", "title": "Sums reported about the sinks lose nothing", "statement": "Every value the internal source reports as a sum adds up, over time, to the total of what was recorded for it.", "quantifier": "every interleaving of recordings by sinks and reports by the internal source", "why_tests_cant": "All schedules of two threads.", "anchors": ["src/source/internal.rs: Internal::run, atom_telem!", "src/sink/prometheus.rs: Prometheus::flush (line 658)", "src/sink/elasticsearch.rs: Elasticsearch::deliver_line (line 194)"]}
{"id": "C84", "title": "Several sources shut down gracefully", "statement": "When several sources feed a chain of filters and a sink, every event each source sent before its own Shutdown reaches the sink's delivery before the sink shuts down.", "quantifier": "every number of sources, every input history, every interleaving of the threads", "why_tests_cant": "All schedules of several threads.", "anchors": ["src/filter/mod.rs: Filter::run", "src/sink/mod.rs: RunnableSink::consume", "src/bin/cernan.rs: main (lines 795-806)"]}
{"id": "C85", "title": "Sinks bound what they hold", "statement": "However fast events arrive and however slowly the destination takes them, a sink never holds more than its limit plus one event: Elasticsearch 10001 lines, InfluxDB 100001 points, Wavefront 10001 aggregated points, Kafka max_message_bytes plus one message in flight; and it accepts events up to that limit.", "quantifier": "every sequence of received events, pulses and network outcomes, at every step of the run-loop", "why_tests_cant": "All histories of the run-loop.", "anchors": ["src/sink/elasticsearch.rs: valve_state", "src/sink/influxdb.rs: valve_state", "src/sink/wavefront.rs: valve_state", "src/sink/kafka.rs: valve_state", "src/sink/native.rs: Native", "src/sink/console.rs: valve_state", "src/sink/mod.rs: RunnableSink::consume"]}
{"id": "C86", "title": "What a sink received is written out by the time it has shut down", "statement": "When a sink has returned from its run-loop, every event it handles that arrived before the first Shutdown has been written to its destination: InfluxDB, native and console write exactly the events received, in order; Kafka brings every message to a final outcome and acknowledges every connection once per message; Elasticsearch has every line accepted or given up after its retries.", "quantifier": "every sequence of received events and pulses and every script of network outcomes for which the sink returns", "why_tests_cant": "All histories of the run-loop and of the network.", "anchors": ["src/sink/mod.rs: RunnableSink::consume", "src/sink/influxdb.rs: flush, shutdown", "src/sink/native.rs: flush, shutdown", "src/sink/kafka.rs: flush, shutdown", "src/sink/console.rs: flush, shutdown", "src/sink/elasticsearch.rs: flush, shutdown"]}
{"id": "C87", "title": "The console prints every line and point", "statement": "A console flush prints each line received since the last flush, in order and with its tags, and each aggregated point under the heading of its kind with its name, time and value (the quantiles of a summary, the bins of a histogram); afterwards no line is waiting.", "quantifier": "every console state: any lines, any aggregated points", "why_tests_cant": "All states and texts.", "anchors": ["src/sink/console.rs: Console::flush"]}
{"id": "C88", "title": "The nodes started are those the configuration asks for", "statement": "A configuration that loads yields exactly one sink, filter or source for each complete and enabled entry, under the name others use to forward to it, with the forwards of that entry; entries that are incomplete or disabled yield none. No two nodes have the same name unless two file sources tail the same path.", "quantifier": "every configuration (any TOML document) that loads", "why_tests_cant": "All documents.", "anchors": ["src/config.rs: parse_config_file", "src/bin/cernan.rs: main (lines 88-740)"]}
{"id": "C89", "title": "Global tags reach every component that adds tags", "statement": "In a configuration that loads, every console, Wavefront, InfluxDB, Prometheus, Elasticsearch and native sink and every JSON-encoding and programmable filter adds exactly the configured global tags: those written as strings with that value, those of the form {environment = true, value = \"VAR\"} with the value of the variable.", "quantifier": "every configuration and environment", "why_tests_cant": "All documents and environments.", "anchors": ["src/config.rs: parse_tags, parse_config_file"]}
{"id": "C90", "title": "Settings are used as written", "statement": "Each setting of a configuration that loads has the value written in the table of its component, or the documented default if it is not written there; a setting of the wrong type or out of range is refused.", "quantifier": "every configuration that loads, every component and setting", "why_tests_cant": "All documents.", "anchors": ["src/config.rs: parse_config_file"]}
{"id": "C91", "title": "The process is wired as the configuration says", "statement": "If a configuration loads and starts, then each source and filter holds exactly one channel to each component its forwards name, each sink and filter counts as upstream exactly the components that forward to it, and the flush timer pulses exactly what the sources forward to. Start-up stops if a forward names a component that is missing, incomplete or disabled.", "quantifier": "every configuration, every order in which components are started", "why_tests_cant": "All documents and hash-map orders.", "anchors": ["src/config.rs: parse_config_file", "src/bin/cernan.rs: main", "src/matrix.rs: Adjacency"]}
{"id": "C92", "title": "A signal ends the process", "statement": "Once SIGTERM or SIGINT has arrived, the process tells every source to shut down, every filter and sink returns, and the process exits, whatever configuration it was started with, whatever events and pulses are under way and in whatever order its threads run.", "quantifier": "every configuration that starts, every implementation of its filters and sinks, every fair infinite schedule of sources, filters, sinks, flush timer and main thread", "why_tests_cant": "All topologies and all interleavings; a hang is only visible in infinite runs.", "anchors": ["src/bin/cernan.rs: main (lines 108-117, 422-807)", "src/thread.rs: ThreadHandle::shutdown", "src/filter/mod.rs: Filter::run", "src/sink/mod.rs: RunnableSink::consume"]}
{"id": "C93", "title": "Every event reaches every sink downstream", "statement": "In the running process, whatever its configuration, every queue accepts from every source and filter that forwards to it exactly what that has sent, in order and once, except what is dropped because the queue is full at that moment, and nothing else but pulses of the flush timer. Every filter sends what its code makes of what it has read; every sink is given the payloads it has read, in order and once each. When the process has exited, every sink has been given everything its sources sent, as changed by the filters in between, except what full queues have dropped.", "quantifier": "every configuration that starts, every implementation of its filters and sinks, every schedule, every time", "why_tests_cant": "All topologies, histories and interleavings.", "anchors": ["src/bin/cernan.rs: main (lines 422-807)", "src/util.rs: send", "src/filter/mod.rs: Filter::run", "src/sink/mod.rs: RunnableSink::consume"]}
{"id": "C94", "title": "Scripts read and change what they name", "statement": "A script of the programmable filter that names a metric or log line by its position, counted from 1 or from the end if negative, reads the name, value, path, field or tag (its own, else the filter's) of that one, or changes that one thing of it and learns what was there before; pushing appends one metric or line with the filter's tags; clearing removes all. Nothing else changes. A call that lacks arguments or names something that does not exist does not bring the filter down, and a query is answered with the percentile asked for of the metric asked for.", "quantifier": "every payload, every call, every argument", "why_tests_cant": "All payloads and arguments, including those no test script passes.", "anchors": ["src/filter/programmable_filter.rs: Payload, idx, PAYLOAD_LIB (lines 9-428)"]}
{"id": "C95", "title": "No script can forge what it was given", "statement": "Whatever a script does, the metrics and lines it leaves are those it was given, in order, with values, kinds, times and paths unchanged, or none of those, followed by ones it made itself; so the filter sends on, for each metric, that metric, possibly renamed and tagged, or not, and what the script made.", "quantifier": "every script, every payload, every time", "why_tests_cant": "All programs over the library, of any length.", "anchors": ["src/filter/programmable_filter.rs: Payload, run_lua_func"]}
{"id": "C96", "title": "Failing scripts leave nothing behind", "statement": "However often a script's function fails or is missing, the interpreter's stack is as deep after the call as before, so the filter can go on for ever.", "quantifier": "every script, every sequence of events", "why_tests_cant": "The effect accumulates over unbounded histories.", "anchors": ["src/filter/programmable_filter.rs: ProgrammableFilter::process, run_lua_func"]}
{"id": "C97", "title": "Every client is accepted and served", "statement": "Every client that connects to a TCP source is accepted, at every address the source is bound to, and is served by a thread of its own; threads that have ended are joined; events of the poller find the listener they are about; a shutdown is seen whatever clients do.", "quantifier": "every number of addresses, every schedule of clients, polls, errors of accept and handler threads", "why_tests_cant": "Edge-triggered polling loses wake-ups only under particular interleavings, and errors of accept cannot be provoked.", "anchors": ["src/source/tcp.rs: TCP::init, run, accept_loop, spawn_stream_handlers", "src/util.rs: TokenSlab", "src/thread.rs: ThreadPool"]}
{"id": "C98", "title": "Every datagram is read once, in order", "statement": "Each datagram that arrives at an address of the statsd source is read, once, in the order of arrival at that address; none waits for ever while the source runs; a source whose host cannot be resolved does not start.", "quantifier": "every number of addresses, every schedule of arrivals, polls and read errors", "why_tests_cant": "Edge-triggered polling loses wake-ups only under particular interleavings, and read errors cannot be provoked.", "anchors": ["src/source/statsd.rs: Statsd::init, run, handle_datagrams"]}
{"id": "C99", "title": "Scrapes of the Prometheus sink are consistent, fresh, ordered and harmless", "statement": "However scrapes, deliveries, flushes and the shutdown interleave, each scrape of the Prometheus sink is answered once, in the order of the requests, with the metrics there are; the answer is the text of the aggregation after a whole number of the insertions and purges, never of one half done, and includes everything finished before the scrape was taken up; a scrape delays the sink only while its text is written; neither side panics or poisons the other; after shutdown the server answers at most one request more.", "quantifier": "every interleaving of the sink thread, the HTTP server thread and any number of clients; every sequence of points, flushes and scrapes; every iteration order of the map", "why_tests_cant": "unit tests exercise the aggregation and the text separately and with one thread; mutual exclusion, freshness and the absence of deadlock or poisoning range over all schedules", "anchors": ["src/sink/prometheus.rs: Prometheus::init, deliver, flush, shutdown, PrometheusSrv handler", "src/http.rs: Server::new, http_server"]}
{"id": "C100", "title": "What cernan reports about its components is what happened", "statement": "Everything cernan reports about its own components under a cernan.* name adds up to what happened: points and lines the delay filter let through and dropped; lines the JSON-encoding filter processed and parsed; statsd datagrams, Graphite lines and native payloads that parsed and that did not, and points received; POSTs attempted, accepted and refused by InfluxDB; requests and items delivered and refused by Elasticsearch, by reason; points of each kind, connections, deliveries and failed deliveries of Wavefront; scrapes answered and the microseconds they took. Nothing is counted twice or under another name, and what happened and has a name is counted.", "quantifier": "every sequence of calls of the components, every outcome of the outside world, every interleaving with the reports", "why_tests_cant": "Unit tests count nothing; a counter that is never incremented, incremented under the wrong condition or incremented by the wrong amount shows only when whole histories are added up.", "anchors": ["src/source/internal.rs: report_telemetry, atom_non_zero_telem, run", "src/sink/wavefront.rs: format_stats, flush, valve_state", "src/sink/influxdb.rs: flush", "src/sink/elasticsearch.rs: flush", "src/sink/prometheus.rs: PrometheusHandler::handle", "src/source/statsd.rs: handle_datagrams", "src/source/graphite.rs: handle_stream", "src/source/native.rs: handle_stream", "src/filter/delay_filter.rs: process", "src/filter/json_encode_filter.rs: process"]}
{"id": "C101", "title": "Every raw event becomes one Kafka message, keyed by its ordering value", "statement": "Each raw event given to the Kafka sink is submitted to the sink's topic with the event's bytes as payload, its metadata as headers and the upper-case hexadecimal numeral of its ordering value as key, so that two events have the same key exactly when they have the same ordering value; messages are submitted in the order of the events, nothing else is submitted, and events of the same ordering value are published in their order.", "quantifier": "every sequence of raw events and flushes, every 64-bit ordering value, every broker behaviour", "why_tests_cant": "Unit tests look at one key; the claim is about every ordering value and every history of retries.", "anchors": ["src/sink/kafka.rs: Kafka::deliver_raw, Kafka::flush, try_payload"]}
{"id": "C102", "title": "A connection is read to the end and then released", "statement": "For a graphite, native or Avro connection: a handler goes back to waiting only when it has taken everything that arrived so far; nothing a client sent lies unread until the client happens to send more. Once the client has closed or reset the connection, or shutdown was signalled, the handler reads what is left and ends after finitely many steps, releasing its thread and socket. (False of the graphite handler: after a line that is not UTF-8 it waits with later lines in its buffer, and it never ends when the client closes.)", "quantifier": "every sequence of bytes, every way they are cut into arrivals, every interleaving of arrivals, close, reset, shutdown and spurious readiness with the handler's own steps, every behaviour of the payload parser", "why_tests_cant": "the sockets are polled edge-triggered, so a missed byte shows only under particular interleavings of arrivals with the handler's reads; tests send one payload on an otherwise idle connection", "anchors": ["src/source/graphite.rs: handle_stream", "src/source/native.rs: handle_stream", "src/source/avro.rs: handle_stream", "src/source/tcp.rs: spawn_stream_handlers", "src/source/nonblocking.rs: BufferedPayload::read"]}
{"id": "C103", "title": "Tailing a file works on bytes", "statement": "A watched file may contain any bytes and is read through a buffer while writers go on: every line written since the watcher started is handed over once and in order, whatever its length and wherever the buffer ends; a file cut to fewer bytes is read again from its start; no content brings the file source down, and the source does not fall behind because of a content. (False of the code for lines that are not UTF-8, which are dropped and each cost a pass with growing waits, for writes that end inside a character or line, and for files rewritten in place to at least their old size.)", "quantifier": "every content, every sequence of appends and reads with appends between any two system calls of a read, every truncation", "why_tests_cant": "which bytes are staged when, and what the writer does meanwhile, depends on timing; tests use short ASCII lines written before the read", "anchors": ["src/source/file/file_watcher.rs: FileWatcher::read_line, FileWatcher::open_at_start", "src/source/file/file_server.rs: FileServer::run"]}
{"id": "C104", "title": "The bucket store is a plain collection of points", "statement": "Whatever points arrive (persistent or not, in any order of time, in any number of series) and whenever the store is reset in between, what it holds afterwards is what a plain unordered collection would hold: a point is combined with the stored point of its series and bin if there is one; else, if it is persistent, with what the series' latest earlier point was; else it is stored as it is; a reset leaves of each series only the last point, if that is persistent. In particular arrivals neither lose nor invent series or bins, and resetting twice is resetting once.", "quantifier": "every history of arrivals and resets, every bin width but 0, every hash function that distinguishes the series of the history", "why_tests_cant": "the store keeps sorted rows under sorted hashes and finds places by binary search; which branches are taken depends on the whole history, and the repository's random tests compare against a copy of the same search", "anchors": ["src/buckets.rs: Buckets::add, Buckets::reset, Buckets::iter"]}
{"id": "C105", "title": "The file watcher agrees with the project's own model of a file on every history", "statement": "Drive a file watcher and the model of a file that the project's randomised tests use, side by side, by any sequence of writes of lines, rotations and reads: every read of the watcher gives exactly the line the model gives, and nothing when the model has nothing. With truncations allowed too (and ASCII lines), the watcher never fails, and the number of lines it has given is at most the number written and at least the number the model has given. The bound is lost only if a file is truncated while a call of the watcher is under way.", "quantifier": "every finite sequence of actions, every line (valid UTF-8 without a line feed, not blank; ASCII where there are truncations), every file size", "why_tests_cant": "the randomised tests draw histories of a few dozen actions with lines of at most 31 bytes, which never reach the 8192 bytes the reader stages at a time; what a truncation does depends on what is staged and on the size seen by the call before", "anchors": ["src/source/file/mod.rs: experiment, experiment_no_truncations, FWFile", "src/source/file/file_watcher.rs: FileWatcher::read_line, FileWatcher::open_at_start"]}
{"id": "C106", "title": "The properties the project's randomised tests sample hold of every input", "statement": "Padding a batch never yields three zero points in a row, neither adds nor drops a value that is not zero, is the identity when padding is off, and with padding on for every kind leaves no two neighbouring points of one series two bin widths apart unless both are padding. A Prometheus summary window never holds more samples than its size and no insertion of a summary point fails; a point of a stored name is taken exactly if its kind agrees and leaves the number of names alone, a point of a new name is taken and adds one; every stored name is reported until a purge empties a window. Points of one name and one tag map compare as their time bins do.", "quantifier": "every batch of points, every span and bin width, every window size, every earlier state of the aggregation and every point", "why_tests_cant": "the randomised tests draw a few hundred inputs from generators that make no tags, never purge and never carry an earlier flush; the claims are about all inputs", "anchors": ["src/sink/wavefront.rs: Padding::next, test_no_zero_runs, test_no_unpadded_gaps, test_never_fewer_non_zero, test_pad_is_identity_with_no_pads", "src/sink/prometheus.rs: Accumulator::insert, PrometheusAggr::insert, PrometheusAggr::reportable, PrometheusAggr::count", "src/metric/telemetry.rs: Telemetry::within, test_metric_within"]}
{"id": "C107", "title": "cernan's clock follows the system's", "statement": "Every time a component reads is one the system's clock gave at or before that moment, and of two readings the later one is never from an earlier moment: so if the system's clock does not go back, neither does cernan's, and it is never ahead. After its first refresh cernan's time is at most 500 ms old plus what the refreshing thread oversleeps; on an even clock it is the current second or the one before. Until the first refresh the time stands still.", "quantifier": "every system clock (also before 1970), every interleaving of readers, the refreshing thread and the passing of time", "why_tests_cant": "the order of readers and refreshes and the length of start-up are up to the scheduler; a unit test sees one schedule within a few milliseconds", "anchors": ["src/time.rs: now, update_time, NOW", "src/bin/cernan.rs: main"]}
{"id": "C108", "title": "The example scripts do what they show", "statement": "With keep_count.lua a programmable filter passes metrics, lines and raw events on unchanged, and at every flush with a new index it sends a line and a metric count_per_tick with the number of metrics and lines since the last such flush, followed by the flush. collectd_scrub.lua does the same (as cernan_bridge.count_per_tick) and removes the host from the names of collectd metrics, leaving other names alone. frau_im_mond.lua renames every metric and passes all else. None of them makes the filter fail or panic.", "quantifier": "every history of events, with flushes repeated and out of order, every metric name", "why_tests_cant": "the count depends on the whole history since the last new flush, and which names match on all strings; the integration tests run two flushes and two names", "anchors": ["examples/scripts/keep_count.lua", "examples/scripts/collectd_scrub.lua", "examples/scripts/frau_im_mond.lua", "src/filter/programmable_filter.rs: process, run_lua_func, lua_push_metric, lua_push_log, lua_metric_name, lua_set_metric_name", "src/filter/mod.rs: Filter::run"]}
{"id": "C109", "title": "Settings cernan does not know change nothing", "statement": "Only the listed global settings, the listed kinds of filters, sinks and sources and the listed settings of each have any effect: a configuration with other keys, at any level, loads exactly if it does without them, and as the same nodes with the same settings.", "quantifier": "every configuration (TOML value), with any number of unknown keys at any level", "why_tests_cant": "there are infinitely many misspellings and nestings; the unit tests of the loader only contain settings that are known", "anchors": ["src/config.rs: parse_config_file, parse_flush_interval"]}
{"id": "C110", "title": "Every accepted bin width can be used", "statement": "Whatever integer a configuration gives as `bin_width`, the aggregating sinks (console, wavefront) take every sequence of points and flushes without panicking. (False of 0: such a configuration is accepted, and the sink dies at the first point of a series of which it still holds one.)", "quantifier": "every bin width, every sequence of points and resets, every hash function (for the width 0: every one that tells the series of the history apart)", "why_tests_cant": "the tests use a few positive widths; whether a panic occurs depends on the whole history since the last reset", "anchors": ["src/buckets.rs: Buckets::add, Buckets::reset", "src/metric/telemetry.rs: Telemetry::within", "src/config.rs: bin_width", "src/sink/console.rs: Console::deliver"]}
{"id": "C111", "title": "Native payloads mean what the protocol says, whoever wrote them", "statement": "The native source accepts a payload exactly if its bytes are a well-formed protocol-buffer message of the published schema, whatever client wrote it: fields in any order, repeated, packed or not, numbers in more bytes than needed, unknown fields. Every accepted point that has samples and every line becomes one event, in order, saying what the message says (last name, method, flag and time; all samples; the last of the tags with the same key); everything else is refused.", "quantifier": "every byte string as a payload, every clock, every float implementation that accepts the default bounds", "why_tests_cant": "tests send messages the same library wrote; other encoders and damaged bytes are unboundedly many", "anchors": ["src/source/native.rs: handle_stream_payload", "src/protocols/native.rs: Payload::merge_from, Telemetry::merge_from, LogLine::merge_from", "resources/protobufs/native.proto"]}
{"id": "C112", "title": "A counter is conserved from the clients to the console, Wavefront and InfluxDB", "statement": "If clients report a name only as a counter, in statsd packets all of whose lines can be read, and the points of that name that reach the console sink are those the source sent, then the values the console prints under the name, over all its flushes up to and including the one at shutdown, add up to exactly what the clients reported (value times the inverse of the sample rate): nothing is lost or printed twice, whatever else is reported and whenever flushes happen. The same holds of what the Wavefront sink writes, padding included, when no point of the counter is further off its clock than it allows, and of what the InfluxDB sink posts.", "quantifier": "every list of packets, every interleaving with other points, lines and flush pulses, every clock, bin width and hash that tells the series apart; exact addition", "why_tests_cant": "Depends on the whole history of packets and flushes and on how bins and flushes cut it.", "anchors": ["src/source/statsd.rs: Statsd::handle_datagrams", "src/protocols/statsd.rs: parse_statsd", "src/buckets.rs: Buckets::add, reset, iter", "src/sink/mod.rs: RunnableSink::consume", "src/sink/console.rs: Console::deliver, flush", "src/sink/wavefront.rs: Wavefront::deliver, flush, format_stats, padding", "src/sink/influxdb.rs: InfluxDB::deliver, flush"]}
{"id": "C113", "title": "A counter is conserved from the clients to a scrape", "statement": "If clients report a name only as a counter, in statsd packets all of whose lines can be read, and the points of that name that reach the Prometheus sink are those the source sent, then every scrape answered with a text shows, under the cleaned-up name, the sum of the first k numbers the clients reported (value times the inverse of the sample rate), where k is at least the number of those the sink had finished with; it declares the name a counter and shows nothing else under it, unless another name is cleaned up to it.", "quantifier": "every list of packets, every interleaving of deliveries, flushes and scrapes, every age limit and order of the map; any addition", "why_tests_cant": "Depends on the whole history of packets and on the interleaving of two threads.", "anchors": ["src/source/statsd.rs: Statsd::handle_datagrams", "src/protocols/statsd.rs: parse_statsd", "src/sink/prometheus.rs: PrometheusAggr::insert, PrometheusHandler::handle, write_text", "src/http.rs: http_server"]}
{"id": "C114", "title": "A gauge stands where its clients have put it", "statement": "A statsd gauge is set by unsigned values and changed by signed ones. After any reports, what a sink shows of the gauge last is what the reports, applied in order, have made of it: in the store of the aggregating sinks, in all bins and over all flushes, and in every scrape of the Prometheus sink.", "quantifier": "every list of packets and reports, every interleaving with other points, flushes and scrapes, every clock and bin width", "why_tests_cant": "Depends on the whole history of reports and on how bins and flushes cut it.", "anchors": ["src/protocols/statsd.rs: parse_statsd (lines 60-135)", "src/metric/telemetry.rs: Value::add", "src/buckets.rs: Buckets::add, reset", "src/sink/prometheus.rs: PrometheusAggr::insert"]}
{"id": "C115", "title": "Tests on times are right for every time", "statement": "Times are 64-bit seconds and may come from clients. Whether a point passes an age threshold, the delay filter, the window of a Prometheus summary, which bin it falls in and which zeros pad a series depends on the exact distances of the times, in debug and in release builds; nothing overflows.", "quantifier": "every time a 64-bit integer can hold, every clock after 1970, every threshold, bin width and list of stored points, both builds", "why_tests_cant": "Overflow occurs at times no test uses; 2^64 of them cannot be tried.", "anchors": ["src/filter/delay_filter.rs: DelayFilter::process", "src/sink/wavefront.rs: Padding::next, Wavefront::deliver", "src/sink/prometheus.rs: Accumulator::purge, Prometheus::deliver", "src/metric/telemetry.rs: Telemetry::within"]}
{"id": "C116", "title": "The order of a point's tags does not matter", "statement": "Two points with the same name and the same tags are the same series, in whatever order the tags were put on them or are iterated: stores combine them when they fall into one time bin, and no flush shows two points of one series and bin.", "quantifier": "every history of arrivals and resets, every order in which each point's tag map is iterated, every bin width", "why_tests_cant": "The iteration order of a hash map depends on its history; tests build their maps in one way.", "anchors": ["src/metric/mod.rs: cmp_tagmap", "src/metric/telemetry.rs: Telemetry::within, Telemetry::name_tag_hash, Telemetry::hash", "src/buckets.rs: Buckets::add"]}
{"id": "C117", "title": "A panic in one thread leaves the others and the shutdown alone", "statement": "If a source, filter or sink panics, the rest of the process goes on as before; and when a signal arrives the process still comes to an end, by which time every sink that has not panicked has dealt with what its queue accepted and has returned.", "quantifier": "every configuration, every schedule of the threads, every set of threads that panic and every time at which they do", "why_tests_cant": "Which thread panics and when is not under a test's control, and a hang or an early end of the process shows only under some schedules.", "anchors": ["src/thread.rs: ThreadHandle::join, ThreadHandle::shutdown", "src/bin/cernan.rs: main, join_all", "src/sink/mod.rs: RunnableSink::consume", "src/filter/mod.rs: Filter::run"]}
{"id": "C118", "title": "An acknowledged message was published", "statement": "When the Kafka sink acknowledges a message to its connection, that message has been published: a client whose synchronous publish is answered knows that Kafka has its data.", "quantifier": "every set of messages in flight, every sequence of answers of librdkafka", "why_tests_cant": "It depends on which errors librdkafka reports and when, and those that matter (a full local queue, an unrecoverable broker error) do not occur on a test's broker.", "anchors": ["src/sink/kafka.rs: Kafka::flush, Kafka::await_inflight_messages, Kafka::acknowledge, KafkaMessageSender::try_payload"]}
{"id": "C119", "title": "A flush of the Kafka sink ends", "statement": "Every flush of the Kafka sink ends, whatever the broker answers and however long it is away, so that the sink goes on reading its queue and sees an order to shut down.", "quantifier": "every set of messages in flight, every infinite sequence of answers of librdkafka", "why_tests_cant": "It is about infinite sequences of answers: a test can only watch a flush for a while.", "anchors": ["src/sink/kafka.rs: Kafka::flush, Kafka::await_inflight_messages"]}
{"id": "C120", "title": "An Avro client's frames reach Kafka as it sent them", "statement": "When Avro clients send valid frames and a Kafka sink is fed by the Avro source, each frame becomes one Kafka message with the frame's body as payload, the numeral of its ordering value as key and its metadata as headers; each client's messages are first handed to Kafka in the order the client sent them, nothing else is handed over but repetitions of these, and each connection is acknowledged once per frame. If Kafka publishes every message or reports a recoverable error, every frame is published exactly once by the time the sink has shut down.", "quantifier": "any number of clients, all frames within the format whose metadata keys are UTF-8, every way the network cuts the streams up (short of blocking inside a length prefix), every interleaving of the clients' events in the sink's queue, every sequence of answers of the broker that hands back what it was given", "why_tests_cant": "It joins the socket, the frame format, the queue and the broker: every cutting of the byte stream, every interleaving and every pattern of retries.", "anchors": ["src/source/avro.rs: AvroStreamHandler::handle_stream, AvroStreamHandler::handle_avro_payload", "src/source/nonblocking.rs: BufferedPayload", "src/sink/kafka.rs: Kafka::deliver_raw, Kafka::flush"]}
{"id": "C121", "title": "A configuration that cannot work is refused at start-up", "statement": "If anything a component needs at its start is not there (room for its queue, the target of a forward, a known host, a free address to listen on, settings librdkafka takes, a script that loads, a valid file pattern), cernan ends at start-up; if cernan comes up, every component has come up with it and listens where it was told to.", "quantifier": "every configuration, every behaviour of the operating system, of name lookup, of librdkafka and of the script loader at start-up, every order of the components", "why_tests_cant": "It ranges over every combination of configurations and failures of the surroundings, and asks what the process does that has only partly started.", "anchors": ["src/bin/cernan.rs: main, populate_forwards", "src/source/tcp.rs: TCP::init", "src/source/statsd.rs: Statsd::init", "src/source/file/file_server.rs: FileServer::run", "src/filter/programmable_filter.rs: ProgrammableFilter::new", "src/http.rs: Server::new", "src/sink/kafka.rs: Kafka::init", "src/sink/influxdb.rs: InfluxDB::init", "src/sink/wavefront.rs: Wavefront::init"]}
{"id": "C122", "title": "Lines appended to any number of watched files reach the console once each", "statement": "Once a file has been matched by the pattern of a file source, every non-blank line appended to it is sent once, in the order of the file (lines being appended whole), whatever else the source watches and whatever happens to those files; and the console sink prints it once, in the same order.", "quantifier": "every number of watched files, every history of the other files, every division of the lines over passes, every limit of bytes per pass, every interleaving with other events", "why_tests_cant": "It ranges over every history of every other file and over every schedule of passes; a test has one or two files.", "anchors": ["src/source/file/file_server.rs: FileServer::run", "src/source/file/file_watcher.rs: FileWatcher::read_line", "src/sink/console.rs: Console::deliver_line, flush", "src/sink/mod.rs: Sink::run"]}
{"id": "C123", "title": "What the sources have sent has been written by the time the process ends", "statement": "After a signal the process exits, and by then a sink fed by one source, directly or through filters, has written what the filters make of everything that source ever sent, provided no queue on the way was full and the sink has not panicked: the console has printed every line, the native, InfluxDB and Wavefront sinks have written every point, and Kafka has a final outcome for every message; in order and once each.", "quantifier": "every configuration, every schedule of the threads, every history of events, every script of failures of the destinations", "why_tests_cant": "It ranges over every interleaving of all threads of the process up to its exit; a test sees one interleaving, and usually of one thread.", "anchors": ["src/bin/cernan.rs: main", "src/sink/mod.rs: Sink::run", "src/filter/mod.rs: Filter::run", "src/sink/console.rs: Console", "src/sink/native.rs: Native", "src/sink/influxdb.rs: InfluxDB", "src/sink/wavefront.rs: Wavefront", "src/sink/kafka.rs: Kafka", "src/sink/elasticsearch.rs: Elasticsearch"]}
{"id": "C124", "title": "Prometheus protocol messages survive encoding", "statement": "A metric family of the Prometheus client model written by the library's message types is laid out as resources/protobufs/prometheus.proto says, its announced size is its size, reading it gives the same family, different families are written differently, and fields of later versions of the protocol change nothing.", "quantifier": "every metric family below 4 GiB, with any number of metrics, labels, quantiles and buckets", "why_tests_cant": "It ranges over every message of any size and nesting, including every length at which a size takes one byte more.", "anchors": ["src/protocols/prometheus.rs: MetricFamily", "src/protocols/prometheus.rs: Metric", "src/protocols/prometheus.rs: Summary", "src/protocols/prometheus.rs: Histogram", "src/protocols/prometheus.rs: LabelPair"]}
{"id": "C125", "title": "Counters add up from the clients to what the process has written when it ends", "statement": "In a running process in which a statsd source, and possibly other sources, forward straight to a console, Wavefront or InfluxDB sink whose queue never fills up: if clients report a name only as a counter, in packets all of whose lines can be read and that arrive before the signal, and no other source sends points of that name, then once the process has exited the values the sink has printed, written or posted under the name add up to exactly what the clients reported. For Wavefront, no point of the counter may be further off its clock than the sink allows.", "quantifier": "every configuration with distinct names, every wiring, every schedule of the threads, the timer and the signal, every list of packets; exact addition and a hash that tells the series apart", "why_tests_cant": "It ranges over every interleaving of packets, other sources, flush pulses and the shutdown of the process.", "anchors": ["src/bin/cernan.rs: main", "src/source/statsd.rs: Statsd::handle_datagrams", "src/sink/mod.rs: RunnableSink::consume", "src/sink/console.rs: Console", "src/sink/wavefront.rs: Wavefront", "src/sink/influxdb.rs: InfluxDB", "src/buckets.rs: Buckets"]}
{"id": "C126", "title": "What went through a flush-boundary filter has been delivered when the process ends", "statement": "In a running process in which sources forward to a flush-boundary filter, the filter to a sink, and no queue fills up: when the process has exited, the sink has been given every event with a timestamp that the sources sent before the signal, each once, those of one second in the order they came.", "quantifier": "every configuration with distinct names, every wiring, every tolerance, every schedule of the threads, the timer and the signal", "why_tests_cant": "It depends on how many flush pulses come between an event and the shutdown, over every interleaving of the threads.", "anchors": ["src/filter/flush_boundary_filter.rs: FlushBoundaryFilter::process", "src/filter/mod.rs: Filter::run", "src/bin/cernan.rs: main", "src/sink/mod.rs: RunnableSink::consume"]}
{"id": "C127", "title": "Counters add up through two processes in a row", "statement": "Clients report a counter to a statsd source of one cernan, which forwards to a native sink; the network carries what that sink writes to the native source of a second cernan, which forwards to a console or Wavefront sink. If the sources stopped before their processes were signalled, no queue filled up, the connection carried what was written, and the native sink had something to send in every flush but perhaps the last ones, then once both have exited, the values the second has written under the counter's name add up to exactly what the clients reported to the first. Without the condition on idle flushes, what arrives is what was flushed before the first idle flush.", "quantifier": "every pair of configurations with distinct names, every schedule of both processes, every packet, every way the network cuts the stream up", "why_tests_cant": "It composes two processes, a wire format and a network; unit tests check neither of the links between them, nor what an idle flush does to the second process.", "anchors": ["src/source/statsd.rs: Statsd::run", "src/sink/native.rs: Native::flush", "src/source/native.rs: NativeStreamHandler::handle_stream", "src/source/nonblocking.rs: BufferedPayload::read", "src/sink/console.rs: Console::flush", "src/sink/wavefront.rs: Wavefront::flush", "src/bin/cernan.rs: main"]}
{"id": "C128", "title": "A bulk request is read as it was meant, whatever characters the lines contain", "statement": "The body of the bulk request that the Elasticsearch sink makes has exactly two lines for each waiting log line, in order: an index action with the line's index, type and id and nothing else, and an object that maps each key to the line's field of that name, else its own or the sink's tag, else its id, path, text or time. That is what anyone who reads the body by the JSON grammar gets, and only that, even if paths, texts, tags and fields contain quotation marks, backslashes, control characters or line ends.", "quantifier": "every configuration, every waiting line with any characters in it, every reader that follows the grammar", "why_tests_cant": "Tests use a handful of harmless strings; an escape that is missing for one character would let a log line end its document early or add another action to the request.", "anchors": ["src/sink/elasticsearch.rs: Elasticsearch::flush", "src/sink/elasticsearch.rs: Elasticsearch::bulk_body"]}
{"id": "C129", "title": "The JSON-encoding filter's payloads are JSON texts on one line", "statement": "Each log line becomes one raw event whose bytes are the UTF-8 of a JSON text without control characters, of an object that maps each key to the first of: the line itself, its fields, and its time, path and tags. A line counts as an object, if lines are to be parsed, exactly if it is by the JSON grammar the text of an object nested at most 127 deep with numbers in range; of several members with one name the last counts. Every other line is the value of the key message.", "quantifier": "every line, every field and tag, with any characters in them", "why_tests_cant": "Tests parse two lines; which texts are taken for objects is decided by a grammar, escapes and a limit on the depth, all of which range over infinitely many texts.", "anchors": ["src/filter/json_encode_filter.rs: JSONEncodeFilter::process", "src/filter/json_encode_filter.rs: merge_objects"]}
{"id": "C130", "title": "A line goes to the index of its day", "statement": "The Elasticsearch sink writes a line to the index named after the date, in UTC and the Gregorian calendar, of the day its time is in. Two lines go to one index exactly if their times are in one day, and from year 0 to 9999 the names of indices are in the order of the days. The times in documents and on the console are date, hour, minute and second of the line's time, so that different times have different texts. A time outside the calendar, before year -262144 or after 262143, takes the sink down in its next flush; a native client can send one.", "quantifier": "every time, every prefix, every set of waiting lines", "why_tests_cant": "Tests look at a few times; leap years, centuries, days before 1970 and years of more than four digits are where such computations go wrong.", "anchors": ["src/sink/elasticsearch.rs: format_time", "src/sink/elasticsearch.rs: idx", "src/sink/console.rs: format_time", "src/source/native.rs: NativeStreamHandler::handle_stream_payload"]}
{"id": "C131", "title": "What ends the JSON-encoding filter", "statement": "The JSON-encoding filter sends exactly one event for each event it deals with, in order: a log line as a JSON object whose time is the line's time in UTC, everything else unchanged. Its thread panics exactly if a line with a time outside the calendar, before year -262144 or after 262143, reaches it before every source has told it to shut down; nothing is sent for that line and nothing after it is read. A native client can send such a line.", "quantifier": "every sequence of events, any number of sources, any default tags, with lines parsed or not", "why_tests_cant": "Tests run the filter on one line with a present-day time; which events of an arbitrary sequence get through depends on all of them.", "anchors": ["src/filter/json_encode_filter.rs: JSONEncodeFilter::process", "src/filter/mod.rs: Filter::run", "src/source/native.rs: NativeStreamHandler::handle_stream_payload"]}
{"id": "C132", "title": "Which messages of the broker client are logged", "statement": "A message of the broker client (librdkafka) is written to cernan's log exactly if it does not contain the text 'Receive failed: Disconnected' and its severity is asked for on the command line: errors and worse always, warnings from one -v on, notices and information from two, debugging from three. Global errors are written always, unless they contain that text. More -v never hide a message.", "quantifier": "every message, every severity, every number of -v", "why_tests_cant": "Tests do not run with a broker; the text may be anywhere in a message or overlap with parts of itself, which needs an argument about all strings.", "anchors": ["src/sink/kafka.rs: STFUContext", "src/bin/cernan.rs: main", "src/config.rs: parse_args"]}
{"id": "C133", "title": "A file source survives whatever its pattern matches", "statement": "Whatever paths the pattern of a file source matches, whatever they name (regular files, directories, pipes, files that may not be read, files that are gone, files whose names are not text) and whatever happens to them meanwhile, the source goes on reading until it is told to end; and the lines it sends from a file are those it would send if its pattern matched that file only.", "quantifier": "every history of turns of the source's loop: every list of matches, every file system during every call, every order of reading, every outcome of the poll", "why_tests_cant": "Tests tail a few regular files with ordinary names; which other entries of a directory end the source, and which do not, is a matter of every kind of path at every moment, and the files share a buffer and a turn.", "anchors": ["src/source/file/file_server.rs: FileServer::run", "src/source/file/file_watcher.rs: FileWatcher::new", "src/source/file/file_watcher.rs: FileWatcher::read_line"]}
{"id": "C134", "title": "Every timer reading is counted once", "statement": "If clients report a name only as a timer (or statsd histogram), in packets all of whose lines can be read, and the points of that name that reach the Wavefront sink are those the source sent, none too far off the sink's clock, then the counts the sink writes under the name, over all its flushes up to and including the one at shutdown, add up to exactly the number of readings the clients sent; and the store keeps both the number and the sum of the samples across every merge and flush.", "quantifier": "every list of packets, every mixture with other names, every order of arrival, every placement of flush pulses, every padding setting and every script of network outcomes", "why_tests_cant": "Which samples share a bin, which flush they fall in and where padding is inserted depend on the whole history of arrivals and flushes; a test looks at one store of a few points.", "anchors": ["src/protocols/statsd.rs: parse_statsd", "src/metric/telemetry.rs: Telemetry::add_assign, Telemetry::count, Telemetry::samples_sum", "src/buckets.rs: Buckets::add, Buckets::reset", "src/sink/wavefront.rs: format_stats, fmt_val, Padding"]}
{"id": "C135", "title": "What a Prometheus server sees of a counter or a count never goes down", "statement": "However deliveries, flushes and scrapes interleave, the texts answered one after the other tell of longer and longer prefixes of what the sink was asked to do. So a name that has only been given as an untagged counter with numbers none of which is negative, once shown by a scrape, is shown by every later scrape, with a number at least as large; and the _count line of a histogram or a summary never shows a smaller number than an earlier scrape, even when the window of the summary has moved on or was empty in between.", "quantifier": "every schedule of the sink's thread, the server's thread and the clients, every history of points and purges, every order of the map at each scrape, every pair of scrapes", "why_tests_cant": "A rate computed by the Prometheus server is wrong as soon as one scrape, under one interleaving, shows less than an earlier one; a test scrapes one state.", "anchors": ["src/sink/prometheus.rs: PrometheusAggr::insert, PrometheusAggr::purge, PrometheusSrv::handle, write_text, Accumulator", "src/http.rs: http_server", "src/metric/telemetry.rs: Telemetry::add_assign, Telemetry::count"]}
{"id": "C136", "title": "What a graphite client writes is what a scrape shows", "statement": "A client connects to the graphite source and writes lines of ASCII text, each with one or more readings of a name, a number and a time. However its bytes are cut into pieces, whenever they arrive and whatever else wakes the handler, the source sends exactly one point per reading, in the order in which they were written, of the lines it has read in full; when the handler sleeps these are all lines sent in full. A scrape of the Prometheus sink that receives these points, among others and with flushes and scrapes at any time, shows for a name the number the client wrote last among the first k of that name, k being no less than what the sink had received when the scrape was asked for.", "quantifier": "All texts made of such lines, all cuts, arrivals, wake-ups and closes, all moments, all other points, flushes and scrapes of the sink.", "why_tests_cant": "Depends on where the bytes are cut, on the schedule of the handler, and on the interleaving of the sink with scrapes; tests write a text in one piece and look at the points.", "anchors": ["src/source/graphite.rs handle_stream", "src/protocols/graphite.rs parse_graphite", "src/source/tcp.rs", "src/sink/prometheus.rs PrometheusAggr, SenderHandler"]}
{"id": "C137", "title": "Lines of a watched file become Kafka messages that tell them", "statement": "A file source watches a file to which lines are appended, whatever happens to other files. What it sends goes, among other events, through a JSON-encoding filter to a Kafka sink. If the filter has read all of it and has met no line with a time outside the calendar, and the broker hands back what was submitted when it asks for it again, then the messages first submitted are one per line and raw event, in order; the payload for a line is the UTF-8 of a JSON object with its text as message and its file as path (or, if lines are parsed and the line is a JSON object, all members of that object); and the lines of the file among them are those appended but the blank ones, in order and once each. Nothing is submitted but these and repetitions of them.", "quantifier": "All contents and growths of the file, all other files and events, all orders of arrival, all settings of the filter, all answers of such a broker, flushes at any time.", "why_tests_cant": "The text must survive reading, encoding and retrying for every character and every interleaving; tests check single steps on single lines.", "anchors": ["src/source/file/file_server.rs FileServer::run", "src/source/file/file_watcher.rs FileWatcher::read_line", "src/filter/json_encode_filter.rs JSONEncodeFilter::process", "src/filter/mod.rs Filter::run", "src/sink/kafka.rs Kafka::deliver_raw, Kafka::flush"]}
{"id": "C138", "title": "A line is indexed once, however often it is sent", "statement": "The Elasticsearch server indexes any part of each bulk request, also of requests that seem to fail, and answers anything that does not stop the sink. Then it holds at most one document per line delivered to the sink, and none that is not the document of a delivered line. If it says that a line was written only when it was, then every line ever delivered still waits, or was refused more often than the limit since it was delivered, or is held by the server as exactly one document, the one of that line.", "quantifier": "All histories of lines and flushes, all limits and settings, all answers, all choices of what the server carries out of each request; ids of lines all different.", "why_tests_cant": "Which requests were carried out although they seemed to fail depends on the network; tests with a mock server never see a request twice.", "anchors": ["src/sink/elasticsearch.rs Elasticsearch::bulk_body", "src/sink/elasticsearch.rs Elasticsearch::flush", "src/sink/elasticsearch.rs Elasticsearch::deliver_line"]}
{"id": "C139", "title": "An InfluxDB server shows what the points said, however often requests are repeated", "statement": "The server writes any part of requests that seem to fail. When each flush has ended, the database is as if the text of each flush had been written once, in order; so it shows for every series (name and tags) and time the value last said for it among the points flushed, and nothing else has changed. In particular every increment of a counter is part of what is shown for it.", "quantifier": "All histories of points and flushes, all failures of requests, all choices of what is carried out of a failed request, all earlier contents of the database; names, tags and printed numbers without spaces and line ends.", "why_tests_cant": "Partly carried out requests and their repetition depend on the network; which points meet in one series and second depends on timing.", "anchors": ["src/sink/influxdb.rs InfluxDB::flush", "src/sink/influxdb.rs InfluxDB::format_stats", "src/sink/influxdb.rs InfluxDB::deliver"]}
{"id": "C140", "title": "A component depends on what is upstream of it and on nothing else", "statement": "Take two processes that are alike in a part of the configuration to which nothing else but sources and the timer sends, and runs of them that take the same steps of the components of that part, of the sources that send to it, of the timer and of the main thread. Then every component of the part has received, holds, has sent and has written the same in both, its queue has accepted and dropped the same, and the same sources have ended. What the other components are, what they do, whether they ever get their turn and whether their queues are full makes no difference; in particular a stuck sink does not change what another sink gets.", "quantifier": "All wirings, all codes of filters and sinks, all finite schedules, all states of the queues elsewhere; for a configuration, every sink with all that is upstream of it.", "why_tests_cant": "Interference between components would show only for particular schedules and particular other components; a test fixes both.", "anchors": ["src/bin/cernan.rs main", "src/util.rs send", "src/filter/mod.rs Filter::run", "src/sink/mod.rs Sink::run"]}
{"id": "C141", "title": "The index holds the lines of a watched file, each once", "statement": "Lines are appended to a file that a file source watches and what the source sends reaches, among lines from anywhere, an Elasticsearch sink. The server says it has written a line only if it has; otherwise it may carry out any part of a request, also of one that the sink takes for failed. When nothing waits in the sink any more and no line was refused more often than the limit, the documents whose path is that of the file hold the lines appended but the blank ones, each once; and the index as a whole holds one document per delivered line and nothing else. Lines with a tag or field called path or payload are excepted for the statement about the file.", "quantifier": "All files, contents, passes of the source and appended lines; all histories of deliveries, requests and answers; all sets of documents carried out per request; all limits up to 255.", "why_tests_cant": "Loss and duplication depend on which request fails, on which part of it was carried out and on how lines of several files interleave; no test enumerates these.", "anchors": ["src/source/file/file_server.rs", "src/source/file/file_watcher.rs FileWatcher::read_line", "src/sink/elasticsearch.rs Elasticsearch::flush", "src/sink/elasticsearch.rs Elasticsearch::bulk_body"]}
{"id": "C142", "title": "A Wavefront proxy knows what the points said, whatever fails on the way", "statement": "Points arrive at a Wavefront sink and it is flushed, again and again; connection attempts and writes fail in any pattern, and of a failed write any part from its beginning may arrive. A proxy that takes only ended lines and keeps the last value per key (for any notion of key and value of a line) knows afterwards what it would know had nothing failed, and the sink holds what it would hold had nothing failed.", "quantifier": "All histories of points and flushes, all scripts of failures under which the flushes return, all cuts, all ways to read a line, all contents of the proxy before.", "why_tests_cant": "Cuts inside a line and repeated texts interact over several connections; a test tries a few.", "anchors": ["src/sink/wavefront.rs Wavefront::flush", "src/sink/wavefront.rs Wavefront::format_stats", "src/sink/wavefront.rs Wavefront::fmt_val"]}
{"id": "C143", "title": "A Kafka consumer reads the message of every raw event exactly once if the broker is honest", "statement": "Raw events arrive at a Kafka sink and it is flushed, in any order, the last operation being a flush; the broker answers each submission as it likes, handing back what was submitted when it asks for a message again. Then the messages it has published together with those it has refused for good are, as a multiset, one per raw event, with the event's bytes, metadata, key and connection. If it refuses nothing for good and writes just what it says it has published, a consumer reads each event's message exactly once; if it also writes some it answered with an error for, at least as often as the events have it, and nothing else. Hence a consumer behind a JSON filter and a file source reads one message per non-blank line appended to the file.", "quantifier": "All histories of raw events and flushes, all scripts of answers that hand back what was submitted, all broker logs between what was acknowledged and what was submitted, all file histories of C137.", "why_tests_cant": "Retries interleave over rounds of a flush and over flushes; a test tries a few scripts.", "anchors": ["src/sink/kafka.rs Kafka::flush", "src/sink/kafka.rs Kafka::await_inflight_messages", "src/sink/kafka.rs Kafka::try_payload", "src/sink/kafka.rs Kafka::deliver_raw"]}
{"id": "C144", "title": "What a script or file pattern at fault does to the shutdown", "statement": "A process has come up; threads whose script does not load or whose file pattern is malformed panic before they have done anything, others do not. When a signal comes and no Shutdown is lost, and every sink and filter is fed by some source, the process exits if and only if every script loads and every pattern is well formed. With a malformed pattern the main thread panics before it waits for any sink; otherwise a sink returns if and only if some way leads to it from a source through no filter at fault, and if there is a sink that does not, the process hangs for ever, whatever the schedule.", "quantifier": "All configurations with distinct names, all surroundings at start-up, all fair schedules (for the hang: all schedules).", "why_tests_cant": "The threads die at start-up and the effect shows at shutdown, under any interleaving in between.", "anchors": ["src/bin/cernan.rs main", "src/thread.rs ThreadHandle::join", "src/filter/programmable_filter.rs ProgrammableFilter::new", "src/source/file/file_server.rs FileServer::run"]}
{"id": "C145", "title": "What a native source gets over connections that break", "statement": "A native sink whose writes fail and whose connections are refused writes each batch again until a write succeeds.  If a write that the sink takes for a success arrives, then however many writes fail, and however much of each failed write arrives, the native source at the other end sends on the batches in order, each at least once, and nothing else: what arrives of a cut frame is dropped with its connection.  It sends on as many batches too many as failed writes arrived whole, so exactly once if none did.", "quantifier": "all batches, all outcomes of writes and connection attempts, all ways in which failed writes are cut and connections end, all groupings of bytes into reads; flushes with nothing to send come last", "why_tests_cant": "the cuts of a frame, the outcomes of writes and the histories of connections are unbounded in number", "anchors": ["src/sink/native.rs: flush", "src/source/native.rs: handle_stream", "src/protocols/native.rs", "src/source/nonblocking.rs: BufferedPayload"]}
{"id": "C146", "title": "What is sent is delivered and written without the process having to stop", "statement": "While the process runs and is not told to stop, whatever sources send gets through: if every thread on the way gets its turn again and again and no queue on the way is full, then for any moment there is a later one by which the sink at the end of a chain of filters has been given what the filters make of everything the sources had sent by the first moment; and since the timer's pulses get through as well, by which the sink has been flushed since, so that console, native, InfluxDB and Wavefront sinks have written it and a Kafka sink has published it and acknowledged its synchronous publishes.  Nothing waits for more input or for the end of the process.", "quantifier": "all configurations in which the sources feed one node from which a single chain of filters leads to the sink, all schedules in which the threads involved keep getting turns, all moments, all inputs, all flush intervals", "why_tests_cant": "that something happens in the end is a statement about infinite executions, which a test cannot observe; schedules and inputs are unbounded in number", "anchors": ["src/sink/mod.rs: consume", "src/filter/mod.rs: run", "src/source/flush.rs: run", "src/bin/cernan.rs", "src/filter/programmable_filter.rs: process", "src/sink/console.rs: flush", "src/sink/native.rs: flush", "src/sink/influxdb.rs: flush", "src/sink/wavefront.rs: flush, valve_state", "src/sink/kafka.rs: flush, valve_state"]}
{"id": "C147", "title": "A synchronous publish is answered exactly if something of its connection is acknowledged", "statement": "A client that publishes synchronously to an Avro source is answered, as long as the source's thread for the connection keeps running, if and only if a sink acknowledges some message of that connection after the publish was registered.  So if the source forwards to some channel and every message taken is acknowledged in the end, every synchronous publish is answered.  There is no timeout: if nothing of the connection is acknowledged any more - the source forwards to nothing, the queue refused the event, or no sink that acknowledges is reached - the client waits for ever and the connection handles no further frame.", "quantifier": "all executions that go on for ever, of any number of connections and acknowledging sinks, in which the connection's thread keeps getting turns; all publishes, all moments", "why_tests_cant": "that an answer comes in the end, or never, is a statement about infinite executions and all schedules; a test sees a finite piece of one", "anchors": ["src/metric/ackbag.rs: wait_for, with_props, prepare_wait, remove", "src/source/avro.rs: handle_avro_payload", "src/sink/kafka.rs: acknowledge"]}
{"id": "C148", "title": "A line a filter cannot deal with keeps exactly the sinks behind that filter from returning", "statement": "Suppose filters panic when, and only when, they read an event they cannot deal with; for a JSON-encoding filter that is a log line whose time is outside the years the date library knows.  Then at shutdown a sink returns if and only if some way leads to it from a source through no filter whose queue accepted such an event before any Shutdown.  The process exits in the end if and only if no filter's queue accepted such an event before the Shutdowns of all its upstreams.  A client of a native source that forwards to a JSON-encoding filter can, with one message, keep the process from ever stopping.", "quantifier": "all configurations, all executions of the process machine with panicking threads, all events that come in by any source, at any moment, in any order", "why_tests_cant": "that a sink never returns is a statement about infinite executions; which sinks are concerned depends on the whole graph of routes, on when the line arrives and on every interleaving with the shutdown", "anchors": ["src/filter/json_encode_filter.rs: process", "src/filter/mod.rs: run", "src/bin/cernan.rs: main", "src/source/native.rs: handle_stream", "src/metric/logline.rs"]}
{"id": "C149", "title": "A sink that panics makes the process panic at shutdown, and only that; a line without a date does it", "statement": "Suppose sinks may panic and nothing else does, every thread that has not panicked gets its turn, a signal comes, no Shutdown is lost and valves reopen.  Then the process ends: it exits cleanly if and only if no sink panicked, and otherwise main panics, having waited only for the sinks before the panicked one in its order of joining.  A console or Elasticsearch whose queue accepts a log line with a time outside the years the date library knows, before any Shutdown, never returns.  A client of a native source that forwards to such a sink can, with one message, keep the process from ever exiting cleanly.", "quantifier": "all configurations, all executions of the process machine with panicking threads, all sets of sinks that panic at any moments, all lines that come in by any source at any moment", "why_tests_cant": "that the process ends is a statement about infinite executions; whether it ends with a panic depends on every interleaving of the sinks, the filters and the shutdown, and on the flush at which the line is written", "anchors": ["src/bin/cernan.rs: main", "src/sink/mod.rs: run", "src/sink/console.rs: flush, format_time", "src/sink/elasticsearch.rs: bulk_body, format_time, idx", "src/source/native.rs: handle_stream"]}
{"id": "C150", "title": "The first thread main waits for that never returns decides how the process ends", "statement": "On a signal main waits for the sources, then the sinks and then the filters, each in some order.  Whatever threads panic and whatever queues lose, if every thread that has not panicked gets its turn: the process exits cleanly if and only if every thread returns; it ends with a panic of main if and only if the first thread in that order that does not return is one that panicked; and it never ends if and only if that thread has not panicked, which then is a sink or a filter and not a source.  As long as main does not panic, no Shutdown is lost and valves reopen, a sink returns if and only if it does not panic and can be reached from a source without passing a filter that panicked before sending Shutdown.", "quantifier": "all configurations, all executions of the process machine, with any set of threads panicking at any moments", "why_tests_cant": "clean exit, panic and hanging for ever are statements about infinite executions; a test sees one interleaving for a finite time and cannot tell a slow shutdown from one that never ends", "anchors": ["src/bin/cernan.rs: main", "src/thread.rs: join, shutdown", "src/sink/mod.rs: run", "src/filter/mod.rs: run", "src/source/mod.rs: SourceRunner"]}
{"id": "C151", "title": "One stream handler that panics ends the next shutdown without waiting for any sink", "statement": "Each TCP source (graphite, native, avro) serves each connection in a handler thread of its own.  A handler that panics disturbs nothing while the process serves.  But its source then never returns: told to shut down, it panics when it joins that handler, before it has sent Shutdown; and so on the next signal main panics too, without waiting for any sink.  If sources do not panic for other reasons, main gets as far as waiting for sinks if and only if no handler has ever panicked.  When a source has returned, all the handlers it ever spawned have returned.  A client of an avro source needs only one payload that is no frame to bring this about.  What clients of graphite and native sources send never does: with handlers that panic only as their code has it, main gets as far as waiting for sinks if and only if every payload read on an open avro connection was a frame.", "quantifier": "all configurations, all executions of the process and of the pools of handlers of its sources, all orders in which a pool is drained, all panics of handlers at any moments, all connections", "why_tests_cant": "the panic and its effect are arbitrarily far apart in time, and the claim is about infinite executions of the whole process under every interleaving with the handler threads", "anchors": ["src/source/tcp.rs: accept_loop", "src/thread.rs: ThreadPool::shutdown, ThreadHandle::join", "src/bin/cernan.rs: main", "src/source/avro.rs: handle_stream"]}
{"id": "C152", "title": "The counters of the Elasticsearch sink account for every line", "statement": "Whatever the server answers, at any time the number of log lines that the sink has been given is the number that wait, plus the counter records.total_delivered, plus the number dropped; and the counter records.total_failed is at least the delivery attempt limit plus one for each line dropped, beside the refusals of lines that still wait.  So the lines lost can be bounded from the counters alone: at most total_failed divided by the limit plus one.  The failures not so explained are at most the limit for each line delivered.  At limit 0 failures are exactly the lines dropped; at the largest limit, 255, no line is ever dropped.", "quantifier": "all histories of arriving lines and flushes, all answers of the server (also wrong ones), all delivery attempt limits (the bounds for those below 255, the exact laws for 0 and 255)", "why_tests_cant": "a conservation law over histories of any length in which the server may answer anything, in any order and for any line", "anchors": ["src/sink/elasticsearch.rs: flush, deliver_line", "src/source/internal.rs: run"]}
{"id": "C153", "title": "However often cernan is stopped or killed, no line of a watched file is sent twice", "statement": "A file source is started, stopped or killed at any moment, and started again, any number of times, while whole lines are appended to a file it watches.  Over all its lives no line of the file is sent more often than it was appended, none is altered, and they keep their order.  Sent are, for each life, a first part of the lines appended between the pass that first matched the file and the end of that life, but for blank lines.  So the lines appended while no source watched the file are all lost, and every line but the blank ones is sent exactly once if and only if nothing but blank lines was appended while no source watched the file, and each life had sent what was appended in it before it ended.  If what is sent goes to an Elasticsearch sink that is stopped, killed and started with it, the index never holds a text under the path of the file more often than it was appended, whatever the server carries out and answers, as long as the ids drawn are distinct.", "quantifier": "all numbers of lives, all moments at which a life ends (also between two lines of one pass), all files, lines and interleavings of appends and passes, all other files and patterns", "why_tests_cant": "the claim is about every crash point and every number of restarts", "anchors": ["src/source/file/file_server.rs: run", "src/source/file/file_watcher.rs: FileWatcher::new, read_line", "src/sink/elasticsearch.rs: flush"]}
{"id": "C154", "title": "A client that repeats what was not answered loses nothing, however often cernan is killed", "statement": "A client numbers its messages, publishes them synchronously to an Avro source that forwards to one channel, and whenever cernan has been stopped or killed and is up again it connects anew and goes on with the first message it has no answer for.  Then every message it has an answer for was acknowledged by the sink; messages are first acknowledged in the order of their numbers; none goes to the channel twice within one life of cernan, and over all lives at most one message per life goes there beyond those whose answer was written.  Each message goes there exactly once if and only if in each life the client got the answer to all that went there before the life ended.  If the channel leads to a Kafka sink whose broker publishes messages or reports recoverable errors, then at every moment, also in the middle of a flush, at least as many messages of a connection have been published as answers to it have reached the client.  With a source that forwards to two acknowledging sinks this fails: a message nobody acknowledged can be answered, and is lost if cernan is killed then.", "quantifier": "all numbers of lives, all moments at which a life ends, all schedules of the connections' and the sinks' threads in each life, all other connections and what they publish, all numbers of answers that were written and did not reach the client", "why_tests_cant": "the claim is about every crash point, every schedule of the threads and every number of restarts", "anchors": ["src/source/avro.rs: handle_avro_payload, handle_stream", "src/metric/ackbag.rs: prepare_wait, wait_for, remove, with_props", "src/sink/kafka.rs: acknowledge"]}
{"id": "C155", "title": "A kill costs what waits in the queue and the buffer, nothing else", "statement": "At any moment between two turns of its loop, and whatever the schedule of the process has been, what a console, a native or an InfluxDB sink has written (the lines; the points and lines; the points) is, in order and once each, the first part of what its queue has accepted.  What follows this is exactly what is in the sink's buffer, and after that what the sink has not yet taken from its queue; so if the process is killed then, exactly these are lost and nothing has been written twice.  If one source alone feeds such a sink directly, each event the source has sent is thus in exactly one of four places: dropped because the queue was full, written, in the buffer, or waiting.  An InfluxDB sink's buffer never has more than 100,001 points.  The same holds of the lines of an Elasticsearch sink whose requests so far each failed altogether or were accepted in full.  Of a Wavefront sink it holds of the points: those of its completed flushes, those since then, of which its store has what is young enough, and those that wait.  Of a Kafka sink it holds by count, per connection, and a connection has been told of exactly the messages that reached a final outcome, so what a kill costs was not acknowledged.  A sink whose flush never ends, or ended the thread, has no such moment any more.", "quantifier": "all configurations, all schedules of all threads, all moments, all outcomes of the writes and requests of the flushes, all sequences of events", "why_tests_cant": "the claim is about every crash point of every schedule", "anchors": ["src/sink/mod.rs: run", "src/sink/console.rs: deliver_line, flush", "src/sink/native.rs: deliver, deliver_line, flush", "src/sink/influxdb.rs: deliver, flush, valve_state", "src/sink/elasticsearch.rs: deliver_line, flush", "src/sink/kafka.rs: deliver_raw, flush", "src/sink/wavefront.rs: deliver, flush"]}
{"id": "C156", "title": "A scrape of a running process tells the points the Prometheus sink has dealt with", "statement": "At any moment, and whatever the schedule of the process has been, what a Prometheus sink aggregates is what the points its queue has accepted, but for those that still wait, make of an empty aggregation in their order, with a purge after exactly every tenth flush pulse; points beyond the age threshold are left out.  Any scrape answered then tells that history.  In particular, a name that has only had counters without tags is declared a counter and its sample, with the sink's tags, is the sum of the counters so far, each once; one that has only had absolute gauges without tags shows the last of them.  So if statsd clients report a counter to a source that alone feeds the sink, a scrape shows what they have reported but for what waits in the sink's queue; and likewise the last number a graphite client has written.  If the process is not told to stop and the sink gets its turn again and again, every accepted point is in such a sum, or is the gauge shown or one before it, in the end.  (A sink whose thread panicked has no such moment; it does not panic without summaries, nor if its window is at least a second and no summary is empty.)", "quantifier": "all configurations, all schedules of all threads, all moments, all points, all clocks", "why_tests_cant": "the claim is about every schedule of the sources, filters and sinks and every moment of a scrape", "anchors": ["src/sink/mod.rs: run", "src/sink/prometheus.rs: deliver, flush, handle, PrometheusAggr"]}
