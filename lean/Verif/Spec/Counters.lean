import Verif.Model.Counters
import Verif.Spec.Internal
import Verif.Spec.Wavefront
/-!
# Specification vocabulary for what is counted (C100)
-/
namespace Verif.Counters
open Internal

/-- What is added to a static. -/
def addedTo (atom : String) (xs : Adds) : Nat := ((xs.filter fun x => x.1 = atom).map (·.2)).sum

/-- What some additions come to under the name of a report: those to the statics reported by that name. -/
def under (name : String) (xs : Adds) : Nat :=
  ((counters.filter fun c => c.name = name).map fun c => addedTo c.atom xs).sum

/-- Reporting names. -/
def isName (name : String) : Prop := name ∈ counters.map (·.name)

section
variable {F : Type} [F64 F]

/-- The additions among the steps of a run of the internal source. -/
def additions : List (Label F) → Adds
  | [] => []
  | .add a n :: ls => (a, n) :: additions ls
  | _ :: ls => additions ls

/-- The points and the lines among events. -/
def points (es : List (Event F)) : Nat := es.countP fun e => match e with | .telemetry _ => true | _ => false
def logs (es : List (Event F)) : Nat := es.countP fun e => match e with | .log _ => true | _ => false

/-- The answers to the POSTs of an InfluxDB flush: up to and including the first success. -/
def answered : List Influx.Outcome → List Influx.Outcome
  | [] => []
  | o :: os => if o = .success then [o] else o :: answered os

/-- Points of a kind. -/
def ofKind (k : Kind) (pts : List (Telemetry F)) : Nat := pts.countP fun t => t.kind = k

/-- Failed writes, complete writes and connection attempts on the wire of the Wavefront sink (each
connection attempt is preceded by a pause). -/
def failedWrites (w : List Wavefront.Wire) : Nat := w.countP fun e => match e with | .part _ => true | _ => false
def completeWrites (w : List Wavefront.Wire) : Nat := w.countP fun e => match e with | .complete _ => true | _ => false
def connections (w : List Wavefront.Wire) : Nat := w.countP fun e => match e with | .delay _ => true | _ => false

/-- The name a refused request of the Elasticsearch sink should be reported under. -/
def apiName : ApiError → String
  | .indexNotFound => "cernan.sinks.elasticsearch.error.api.index_not_found"
  | .parsing => "cernan.sinks.elasticsearch.error.api.parsing"
  | .mapperParsing => "cernan.sinks.elasticsearch.error.api.mapper_parsing"
  | .actionRequestValidation => "cernan.sinks.elasticsearch.error.api.action_request_validation"
  | .documentMissing => "cernan.sinks.elasticsearch.error.api.action_document_missing"
  | .indexAlreadyExists => "cernan.sinks.elasticsearch.error.api.index_already_exists"
  | .other => "cernan.sinks.elasticsearch.error.api.unknown"

/-- The verdict on a datagram, on its own. -/
def packetIs (cfg : Statsd.Config F) (v : Statsd.Verdict) (d : Statsd.Datagram) : Bool :=
  match d.text with
  | some val => (Statsd.parseStatsd cfg d.now val []).1 = v
  | none => false

/-- The verdict on a line of the Graphite source, on its own. -/
def lineIs (ext : Graphite.Ext F) (now : Int) (v : Statsd.Verdict) (l : Str) : Bool :=
  (Graphite.parseGraphite ext now l []).1 = v

/-- Payloads that are native payloads. -/
def isPayload (p : Bytes) : Bool := (Proto.Payload.parse p).isSome

end
end Verif.Counters
