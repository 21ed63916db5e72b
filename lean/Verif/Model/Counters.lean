import Verif.Model.Internal
import Verif.Model.Filter
import Verif.Model.Influxdb
import Verif.Model.Wavefront
import Verif.Model.Elasticsearch
import Verif.Model.Statsd
import Verif.Model.Graphite
import Verif.Model.Native
import Verif.Model.Avro
import Verif.Model.Kafka
import Verif.Model.Send
/-!
# What the components count about themselves

For calls of the components, the `fetch_add`s they make on the statics that the internal source reports
(src/source/internal.rs:127-432), beside the models of what the calls do.
-/
namespace Verif.Counters

/-- Calls of `fetch_add`, in order: the static and the number added.  For the statics that src/source/internal.rs:112-454 reads. -/
abbrev Adds := List (String × Nat)

section
variable {F : Type} [F64 F]

/-- `DelayFilter::process` — src/filter/delay_filter.rs:59-74. -/
def delayAdds (now tolerance : Int) : Event F → Adds
  | .telemetry t =>
    if (t.timestamp - now).natAbs < tolerance then [("DELAY_TELEM_ACCEPT", 1)] else [("DELAY_TELEM_REJECT", 1)]
  | .log l => if (l.time - now).natAbs < tolerance then [("DELAY_LOG_ACCEPT", 1)] else [("DELAY_LOG_REJECT", 1)]
  | _ => []

/-- `JSONEncodeFilter::process` — src/filter/json_encode_filter.rs:94-97, 121. -/
def jsonAdds (x : JsonExt) (s : JsonEncode) : Event F → Adds
  | .log l =>
    (match (if s.parseLine then x.parse l.value else none) with
      | some (.obj _) => [("JSON_ENCODE_LOG_PARSED", 1)]
      | _ => []) ++ [("JSON_ENCODE_LOG_PROCESSED", 1)]
  | _ => []

/-- The loop of `InfluxDB::flush` — src/sink/influxdb.rs:244-245, 260, 268, 272. -/
def influxAdds : Nat → List Influx.Outcome → Adds
  | _, [] => []
  | attempts, o :: os =>
    ("INFLUX_DELIVERY_ATTEMPTS", attempts) :: match o with
      | .success => [("INFLUX_SUCCESS", 1)]
      | .clientError => ("INFLUX_FAILURE_CLIENT", 1) :: influxAdds (Influx.satSucc attempts) os
      | .serverError => ("INFLUX_FAILURE_SERVER", 1) :: influxAdds (Influx.satSucc attempts) os
      | .sendError | .other => influxAdds attempts os

/-- One pad of `Wavefront::format_stats` — src/sink/wavefront.rs:428-440; `n` percentiles are
configured. -/
def padAdds (n : Nat) : Wavefront.Pad F → Adds
  | .zero _ _ => []
  | .telem t => match t.kind with
    | .histogram => [("WAVEFRONT_AGGR_HISTO", 1)]
    | .sum | .set => [("WAVEFRONT_AGGR_SUM", 1)]
    | .summarize => [("WAVEFRONT_AGGR_SUMMARIZE", 1), ("WAVEFRONT_AGGR_TOT_PERCENT", n)]

/-- The loop of `Wavefront::flush` — src/sink/wavefront.rs:621, 624, 630. -/
def wavefrontLoopAdds : List Wavefront.Io → Bool → Adds
  | [], _ => []
  | io :: script, connected =>
    if connected then
      match io with
      | .ok => [("WAVEFRONT_DELIVERY_SUCCESS", 1)]
      | .fail _ => ("WAVEFRONT_DELIVERY_FAILURE", 1) :: wavefrontLoopAdds script false
    else ("WAVEFRONT_CONNECT_ATTEMPTS", 1) :: wavefrontLoopAdds script (io = .ok)

/-- `Wavefront::flush` — src/sink/wavefront.rs:389-457, 608-637, of a sink holding these points. -/
def wavefrontAdds (ext : Wavefront.Ext F) (s : Wavefront.State F) (pts : List (Telemetry F))
    (script : List Wavefront.Io) : Adds :=
  (Wavefront.padding ext pts s.binWidth s.lastSeen s.padControl).flatMap (padAdds s.percentiles.length) ++
    wavefrontLoopAdds script s.connected

/-- `Wavefront::valve_state` — src/sink/wavefront.rs:657, 660. -/
def wavefrontValveAdds (s : Wavefront.State F) : Adds :=
  if s.aggrs.count > 10000 then [("WAVEFRONT_VALVE_CLOSED", 1)] else [("WAVEFRONT_VALVE_OPEN", 1)]

/-- The action of a refused item of a bulk response, and the error of a refused request (the `elastic`
crate).  Matched at src/sink/elasticsearch.rs:180-335. -/
inductive Action where
  | index | create | update | delete
deriving DecidableEq

/-- The error of a refused request, matched at src/sink/elasticsearch.rs:180-335. -/
inductive ApiError where
  | indexNotFound | parsing | mapperParsing | actionRequestValidation | documentMissing | indexAlreadyExists
  | other
deriving DecidableEq

/-- The answer to a bulk request, in more detail than `Elastic.Response`.  Matched at src/sink/elasticsearch.rs:180-335. -/
inductive Answer where
  | sendError
  | api (e : ApiError)
  | client
  | bulk (items : List (Elastic.Item × Action))

/-- The answer as the model of the sink sees it.  For src/sink/elasticsearch.rs:180-335. -/
def Answer.response : Answer → Elastic.Response
  | .sendError => .sendError
  | .api _ | .client => .error
  | .bulk items => .bulk (items.map (·.1))

/-- One item — src/sink/elasticsearch.rs:213-214, 234-235, 249-265. -/
def itemAdds (i : Elastic.Item × Action) : Adds :=
  if i.1.ok then [("ELASTIC_RECORDS_TOTAL_DELIVERED", 1)]
  else [("ELASTIC_RECORDS_TOTAL_FAILED", 1), (match i.2 with
    | .index => "ELASTIC_BULK_ACTION_INDEX_ERR"
    | .create => "ELASTIC_BULK_ACTION_CREATE_ERR"
    | .update => "ELASTIC_BULK_ACTION_UPDATE_ERR"
    | .delete => "ELASTIC_BULK_ACTION_DELETE_ERR", 1)]

/-- `Elasticsearch::flush` that does not panic and has something to send —
src/sink/elasticsearch.rs:193-333; `ELASTIC_INTERNAL_BUFFER_LEN` is stored to, not added to. -/
def elasticAdds : Answer → Adds
  | .sendError => []
  | .bulk items => ("ELASTIC_RECORDS_DELIVERY", 1) :: items.flatMap itemAdds
  | .api e => [(match e with
    | .indexNotFound => "ELASTIC_ERROR_API_INDEX_NOT_FOUND"
    | .parsing => "ELASTIC_ERROR_API_PARSING"
    | .mapperParsing => "ELASTIC_ERROR_API_MAPPER_PARSING"
    | .actionRequestValidation => "ELASTIC_ERROR_API_ACTION_REQUEST_VALIDATION"
    | .documentMissing => "ELASTIC_ERROR_API_DOCUMENT_MISSING"
    | .indexAlreadyExists => "ELASTIC_ERROR_API_INDEX_ALREADY_EXISTS"
    | .other => "ELASTIC_ERROR_API_UNKNOWN", 1)]
  | .client => [("ELASTIC_ERROR_CLIENT", 1)]

/-- `Statsd::handle_datagrams` — src/source/statsd.rs:99-121. -/
def statsdAdds (cfg : Statsd.Config F) : List Statsd.Datagram → List (Telemetry F) → Adds
  | [], _ => []
  | d :: ds, metrics =>
    match d.text with
    | none => statsdAdds cfg ds metrics
    | some val =>
      match Statsd.parseStatsd cfg d.now val metrics with
      | (.accepted, _) => ("STATSD_GOOD_PACKET", 1) :: statsdAdds cfg ds []
      | (.rejected, ms) => ("STATSD_BAD_PACKET", 1) :: statsdAdds cfg ds ms
      | (.panicked, _) => []

/-- The handling of complete lines — src/source/graphite.rs:79-107. -/
def graphiteAdds (ext : Graphite.Ext F) (now : Int) : List Str → List (Telemetry F) → Adds
  | [], _ => []
  | l :: ls, res =>
    match Graphite.parseGraphite ext now l res with
    | (.accepted, _) => ("GRAPHITE_GOOD_PACKET", 1) :: ("GRAPHITE_TELEM", 1) :: graphiteAdds ext now ls []
    | (.rejected, ms) => ("GRAPHITE_BAD_PACKET", 1) :: graphiteAdds ext now ls ms
    | (.panicked, _) => []

/-- `handle_stream` of the native source — src/source/native.rs:84-100.  `fuel` bounds the number of
reads. -/
def nativeAdds (bits : Native.Bits F) (now : Int) : Nat → Wire.Reader → Adds
  | 0, _ => []
  | fuel + 1, r =>
    match r.read with
    | (.ok raw, r') => match Native.handlePayload bits now raw with
      | .panic => []
      | .reject => [("NATIVE_PAYLOAD_PARSE_FAILURE_SUM", 1)]
      | .events _ => ("NATIVE_PAYLOAD_SUCCESS_SUM", 1) :: nativeAdds bits now fuel r'
    | (.error .wouldBlock, r') => nativeAdds bits now fuel r'
    | (.error _, _) => []

/-- What a connection of the Avro source has counted — src/source/avro.rs:198-208, 244-245 (see
`Avro.Conn`). -/
def avroAdds (c : Avro.Conn) : Adds :=
  [("AVRO_PAYLOAD_SUCCESS_SUM", c.successSum), ("AVRO_PAYLOAD_PARSE_FAILURE_SUM", c.parseFailureSum),
   ("AVRO_PAYLOAD_IO_FAILURE_SUM", c.ioFailureSum)]

/-- What the Kafka sink has counted — src/sink/kafka.rs:200-213 (see `Kafka`). -/
def kafkaAdds (k : Kafka) : Adds :=
  [("KAFKA_PUBLISH_SUCCESS_SUM", k.publish), ("KAFKA_PUBLISH_RETRY_SUM", k.retry),
   ("KAFKA_PUBLISH_FAILURE_SUM", k.publishFailed), ("KAFKA_PUBLISH_RETRY_FAILURE_SUM", k.retryFailed)]

/-- What `util::send` counts for a sequence of events — src/util.rs:45, 59 (see `sendAll`). -/
def sendAdds {E : Type} (chans : List (Chan E)) (es : List E) : Adds :=
  [("UTIL_SEND_HOPPER_ERROR_FULL", (sendAll chans es).2)]

/-- `PrometheusHandler::handle` — src/sink/prometheus.rs:396-441: whether it got the lock, and then how long the
text took to write, whether there is one, and whether it could be sent (its `store` is C62's).  Simplification: the delay
is not rounded to a double. -/
def prometheusAdds (locked : Bool) (nanos : Nat) (text sent : Bool) : Adds :=
  if locked then
    ("PROMETHEUS_RESPONSE_DELAY_SUM", nanos / 1000000000 * 10000 + nanos % 1000000000 / 100000) ::
      if text then [(if sent then "PROMETHEUS_REPORT_SUCCESS" else "PROMETHEUS_REPORT_ERROR", 1)] else []
  else []

/-- All the calls that count: every `fetch_add` in /repo/src is in one of these.  They are listed with their lines in `Call.adds`; the statics are read at src/source/internal.rs:112-454. -/
inductive Call (F : Type) [F64 F] where
  | delay (now tolerance : Int) (e : Event F)
  | json (x : JsonExt) (s : JsonEncode) (e : Event F)
  | influx (attempts : Nat) (os : List Influx.Outcome)
  | wavefront (ext : Wavefront.Ext F) (s : Wavefront.State F) (pts : List (Telemetry F)) (script : List Wavefront.Io)
  | valve (s : Wavefront.State F)
  | elastic (a : Answer)
  | statsd (cfg : Statsd.Config F) (ds : List Statsd.Datagram)
  | graphite (ext : Graphite.Ext F) (now : Int) (lines : List Str)
  | native (bits : Native.Bits F) (now : Int) (fuel : Nat) (r : Wire.Reader)
  | avro (c : Avro.Conn)
  | kafka (k : Kafka)
  | send (chans : List (Chan (Event F))) (es : List (Event F))
  | prometheus (locked : Bool) (nanos : Nat) (text sent : Bool)

/-- What a call counts.  The statics are read at src/source/internal.rs:112-454. -/
def Call.adds : Call F → Adds
  | .delay now tolerance e => delayAdds now tolerance e
  | .json x s e => jsonAdds x s e
  | .influx attempts os => influxAdds attempts os
  | .wavefront ext s pts script => wavefrontAdds ext s pts script
  | .valve s => wavefrontValveAdds s
  | .elastic a => elasticAdds a
  | .statsd cfg ds => statsdAdds cfg ds []
  | .graphite ext now lines => graphiteAdds ext now lines []
  | .native bits now fuel r => nativeAdds bits now fuel r
  | .avro c => avroAdds c
  | .kafka k => kafkaAdds k
  | .send chans es => sendAdds chans es
  | .prometheus locked nanos text sent => prometheusAdds locked nanos text sent

end
end Verif.Counters
