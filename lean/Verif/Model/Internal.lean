import Verif.Model.Event
/-!
# The internal source

Models src/source/internal.rs as a machine: steps of the source and of the threads that count are
labels, so that a list of labels is an interleaving.
-/
namespace Verif.Internal

/-- What one use of `atom_telem!` or `atom_set_telem!` reports: the name, the static and the kind — src/source/internal.rs:65-102. -/
structure Counter where
  name : String
  atom : String
  kind : Kind
deriving DecidableEq

/-- The counters of a reporting pass, in order — src/source/internal.rs:127-432. -/
def counters : List Counter :=
  [⟨"cernan.util.hopper.error.full", "UTIL_SEND_HOPPER_ERROR_FULL", .sum⟩,
   ⟨"cernan.graphite.new_peer", "GRAPHITE_NEW_PEER", .sum⟩,
   ⟨"cernan.graphite.packet", "GRAPHITE_GOOD_PACKET", .sum⟩,
   ⟨"cernan.graphite.telemetry.received", "GRAPHITE_TELEM", .sum⟩,
   ⟨"cernan.graphite.bad_packet", "GRAPHITE_BAD_PACKET", .sum⟩,
   ⟨"cernan.statsd.packet", "STATSD_GOOD_PACKET", .sum⟩,
   ⟨"cernan.statsd.bad_packet", "STATSD_BAD_PACKET", .sum⟩,
   ⟨"cernan.native.payload.success", "NATIVE_PAYLOAD_SUCCESS_SUM", .sum⟩,
   ⟨"cernan.native.payload.parse.failure", "NATIVE_PAYLOAD_PARSE_FAILURE_SUM", .sum⟩,
   ⟨"cernan.avro.payload.success", "AVRO_PAYLOAD_SUCCESS_SUM", .sum⟩,
   ⟨"cernan.avro.payload.parse.failure", "AVRO_PAYLOAD_PARSE_FAILURE_SUM", .sum⟩,
   ⟨"cernan.avro.payload.io.failure", "AVRO_PAYLOAD_IO_FAILURE_SUM", .sum⟩,
   ⟨"cernan.sinks.elasticsearch.records.delivery", "ELASTIC_RECORDS_DELIVERY", .sum⟩,
   ⟨"cernan.sinks.elasticsearch.internal.buffer_len", "ELASTIC_INTERNAL_BUFFER_LEN", .sum⟩,
   ⟨"cernan.sinks.elasticsearch.records.total_delivered", "ELASTIC_RECORDS_TOTAL_DELIVERED", .sum⟩,
   ⟨"cernan.sinks.elasticsearch.records.total_failed", "ELASTIC_RECORDS_TOTAL_FAILED", .sum⟩,
   ⟨"cernan.sinks.elasticsearch.error.unknown", "ELASTIC_ERROR_UNKNOWN", .sum⟩,
   ⟨"cernan.sinks.elasticsearch.error.bulk_action.index", "ELASTIC_BULK_ACTION_INDEX_ERR", .sum⟩,
   ⟨"cernan.sinks.elasticsearch.error.bulk_action.create", "ELASTIC_BULK_ACTION_CREATE_ERR", .sum⟩,
   ⟨"cernan.sinks.elasticsearch.error.bulk_action.update", "ELASTIC_BULK_ACTION_UPDATE_ERR", .sum⟩,
   ⟨"cernan.sinks.elasticsearch.error.bulk_action.delete", "ELASTIC_BULK_ACTION_DELETE_ERR", .sum⟩,
   ⟨"cernan.sinks.elasticsearch.error.api.index_not_found", "ELASTIC_ERROR_API_INDEX_NOT_FOUND", .sum⟩,
   ⟨"cernan.sinks.elasticsearch.error.api.parsing", "ELASTIC_ERROR_API_PARSING", .sum⟩,
   ⟨"cernan.sinks.elasticsearch.error.api.mapper_parsing", "ELASTIC_ERROR_API_MAPPER_PARSING", .sum⟩,
   ⟨"cernan.sinks.elasticsearch.error.api.action_request_validation", "ELASTIC_ERROR_API_ACTION_REQUEST_VALIDATION", .sum⟩,
   ⟨"cernan.sinks.elasticsearch.error.api.action_document_missing", "ELASTIC_ERROR_API_DOCUMENT_MISSING", .sum⟩,
   ⟨"cernan.sinks.elasticsearch.error.api.index_already_exists", "ELASTIC_ERROR_API_INDEX_ALREADY_EXISTS", .sum⟩,
   ⟨"cernan.sinks.elasticsearch.error.api.unknown", "ELASTIC_ERROR_API_UNKNOWN", .sum⟩,
   ⟨"cernan.sinks.elasticsearch.error.client", "ELASTIC_ERROR_CLIENT", .sum⟩,
   ⟨"cernan.sinks.wavefront.proxy.connection_attempts", "WAVEFRONT_CONNECT_ATTEMPTS", .sum⟩,
   ⟨"cernan.sinks.wavefront.aggregations.total_stored", "WAVEFRONT_AGGR_STORED_VALUES", .set⟩,
   ⟨"cernan.sinks.wavefront.aggregation.histogram", "WAVEFRONT_AGGR_HISTO", .sum⟩,
   ⟨"cernan.sinks.wavefront.aggregation.sum", "WAVEFRONT_AGGR_SUM", .sum⟩,
   ⟨"cernan.sinks.wavefront.aggregation.set", "WAVEFRONT_AGGR_SET", .sum⟩,
   ⟨"cernan.sinks.wavefront.aggregation.summarize", "WAVEFRONT_AGGR_SUMMARIZE", .sum⟩,
   ⟨"cernan.sinks.wavefront.aggregation.summarize.total_percentiles", "WAVEFRONT_AGGR_TOT_PERCENT", .sum⟩,
   ⟨"cernan.sinks.wavefront.delivery.success", "WAVEFRONT_DELIVERY_SUCCESS", .sum⟩,
   ⟨"cernan.sinks.wavefront.delivery.failure", "WAVEFRONT_DELIVERY_FAILURE", .sum⟩,
   ⟨"cernan.sinks.wavefront.valve.closed", "WAVEFRONT_VALVE_CLOSED", .sum⟩,
   ⟨"cernan.sinks.wavefront.valve.open", "WAVEFRONT_VALVE_OPEN", .sum⟩,
   ⟨"cernan.sinks.prometheus.aggregation.inside_baseball.windowed.purged", "PROMETHEUS_AGGR_WINDOWED_PURGED", .sum⟩,
   ⟨"cernan.sinks.prometheus.exposition.inside_baseball.delay.sum", "PROMETHEUS_RESPONSE_DELAY_SUM", .sum⟩,
   ⟨"cernan.sinks.prometheus.aggregation.reportable", "PROMETHEUS_AGGR_REPORTABLE", .set⟩,
   ⟨"cernan.sinks.prometheus.report.success", "PROMETHEUS_REPORT_SUCCESS", .sum⟩,
   ⟨"cernan.sinks.prometheus.report.error", "PROMETHEUS_REPORT_ERROR", .sum⟩,
   ⟨"cernan.sinks.influxdb.delivery_attempts", "INFLUX_DELIVERY_ATTEMPTS", .sum⟩,
   ⟨"cernan.sinks.influxdb.success", "INFLUX_SUCCESS", .sum⟩,
   ⟨"cernan.sinks.influxdb.failure.client_error", "INFLUX_FAILURE_CLIENT", .sum⟩,
   ⟨"cernan.sinks.influxdb.failure.server_error", "INFLUX_FAILURE_SERVER", .sum⟩,
   ⟨"cernan.sinks.kafka.publish.success", "KAFKA_PUBLISH_SUCCESS_SUM", .sum⟩,
   ⟨"cernan.sinks.kafka.publish.retry", "KAFKA_PUBLISH_RETRY_SUM", .sum⟩,
   ⟨"cernan.sinks.kafka.publish.failure", "KAFKA_PUBLISH_FAILURE_SUM", .sum⟩,
   ⟨"cernan.sinks.kafka.publish.retry.failure", "KAFKA_PUBLISH_RETRY_FAILURE_SUM", .sum⟩,
   ⟨"cernan.filters.delay.telemetry.accept", "DELAY_TELEM_ACCEPT", .sum⟩,
   ⟨"cernan.filters.delay.telemetry.reject", "DELAY_TELEM_REJECT", .sum⟩,
   ⟨"cernan.filters.delay.log.reject", "DELAY_LOG_REJECT", .sum⟩,
   ⟨"cernan.filters.delay.log.accept", "DELAY_LOG_ACCEPT", .sum⟩,
   ⟨"cernan.filters.json_encode.log.processed", "JSON_ENCODE_LOG_PROCESSED", .sum⟩,
   ⟨"cernan.filters.json_encode.log.parsed", "JSON_ENCODE_LOG_PARSED", .sum⟩]

section
variable {F : Type} [F64 F]

/-- The point reported for a counter — src/source/internal.rs:70-76 and 87-93; `none` is the panic of
`unwrap`. -/
def point (now : Int) (c : Counter) (v : Nat) : Option (Telemetry F) :=
  match SoftTelemetry.harden (F := F) now { name := some c.name.toList, initialValue := some (F64.ofNat v), timestamp := some now, kind := some c.kind } with
  | .ok t => some t
  | .error _ => none

/-- The point `report_full_telemetry` pushes — src/source/internal.rs:46-63; `now` is the time
`harden` reads. -/
def fullTelemetry (now : Int) (name : Str) (value : F) (metadata : List (Str × Str)) :
    Option (Telemetry F) :=
  match SoftTelemetry.harden now { name := some name, initialValue := some value, kind := some .sum } with
  | .ok t => some (metadata.foldl (fun acc kv => acc.overlayTag kv.1 kv.2) t)
  | .error _ => none

/-- Where `run` is — src/source/internal.rs:112-454; `Q` is src/source/internal.rs:14. -/
inductive Pass where
  /-- polling for system events -/
  | polling
  /-- reporting: the counters still to be swapped; none left means that `Q` is being drained -/
  | reporting (todo : List Counter)
  /-- draining `Q` without sending -/
  | discarding
  | returned
deriving DecidableEq

/-- The statics, the queue `Q` with its top first, where `run` is, and what it has passed to
`util::send`.  Simplification: `AtomicUsize` does not wrap around — src/source/internal.rs:112-454; `Q` is src/source/internal.rs:14. -/
structure State (F : Type) [F64 F] where
  atoms : String → Nat := fun _ => 0
  q : List (Telemetry F) := []
  pass : Pass := .polling
  sent : List (Event F) := []

/-- Steps.  Any thread can `add` to a static (`fetch_add`), `store` to it, or `push` a point; the
others are steps of the source: the poll timing out, one use of the macros (with the time it
reads), one turn of a `while let` loop over `Q`, and an event of the poll — src/source/internal.rs:112-454; `Q` is src/source/internal.rs:14. -/
inductive Label (F : Type) where
  | add (atom : String) (n : Nat)
  | store (atom : String) (n : Nat)
  | push (now : Int) (name : Str) (value : F) (metadata : List (Str × Str))
  | timeout
  | swap (now : Int)
  | pop
  | stop

/-- Assigning to a static — src/source/internal.rs:112-454; `Q` is src/source/internal.rs:14. -/
def assign (atoms : String → Nat) (a : String) (n : Nat) : String → Nat :=
  fun b => if b = a then n else atoms b

/-- One step; `none` if the label is not possible, or panics.

* `timeout` — src/source/internal.rs:125-126, 443; `stop` — lines 121-124
* `swap` — the macros, lines 65-97
* `pop` — lines 433-442 and 447-449 -/
def step (chans : Bool) (s : State F) : Label F → Option (State F)
  | .add a n => some { s with atoms := assign s.atoms a (s.atoms a + n) }
  | .store a n => some { s with atoms := assign s.atoms a n }
  | .push now name value md => match fullTelemetry now name value md with
    | some t => some { s with q := t :: s.q }
    | none => none
  | .timeout =>
    if s.pass = .polling then
      some { s with pass := if chans then .reporting counters else .discarding }
    else none
  | .swap now => match s.pass with
    | .reporting (c :: cs) =>
      let value := s.atoms c.atom
      let s := { s with atoms := assign s.atoms c.atom 0, pass := .reporting cs }
      if value ≠ 0 then match point now c value with
        | some t => some { s with sent := s.sent ++ [.telemetry t] }
        | none => none
      else some s
    | _ => none
  | .pop => match s.pass, s.q with
    | .reporting [], t :: q => some { s with q := q, sent := s.sent ++ [.telemetry t] }
    | .reporting [], [] => some { s with pass := .polling }
    | .discarding, _ :: q => some { s with q := q }
    | .discarding, [] => some { s with pass := .polling }
    | _, _ => none
  | .stop =>
    if s.pass = .polling then
      some { s with pass := .returned, sent := if chans then s.sent ++ [.shutdown] else s.sent }
    else none

/-- An interleaving — src/source/internal.rs:112-454; `Q` is src/source/internal.rs:14. -/
def run (chans : Bool) : State F → List (Label F) → Option (State F)
  | s, [] => some s
  | s, l :: ls => match step chans s l with
    | some s' => run chans s' ls
    | none => none

end
end Verif.Internal
