import Verif.Model.PromProto
import Verif.Spec.Proto
/-! # Specification vocabulary for the Prometheus messages

The layout is that of resources/protobufs/prometheus.proto: each message as the list of its numbered fields, each a number, eight
bytes, or text; a nested message is the text made of its own fields (`writeExtras`).
-/
namespace Verif.PromProto
open Proto

/-- A metric as a program can hold it: its time is an `i64`. -/
def Metric.Valid (m : Metric) : Prop := ∀ t, m.timestampMs = some t → InI64 t

/-- A family as a program can hold it, below 4 GiB on the wire. -/
def MetricFamily.Valid (m : MetricFamily) : Prop := (∀ x ∈ m.metric, x.Valid) ∧ m.write.length < 4294967296

/-- An optional field. -/
def field {α : Type} (n : Nat) (f : α → Extra) (o : Option α) : List (Nat × Extra) := o.toList.map fun x => (n, f x)

/-- A repeated field. -/
def repeated {α : Type} (n : Nat) (f : α → Extra) (l : List α) : List (Nat × Extra) := l.map fun x => (n, f x)

/-- A double: eight bytes, the least significant first. -/
def double (v : UInt64) : Extra := .eight (leBytes 8 v.toNat)

/-- A string: its UTF-8. -/
def string (s : Str) : Extra := .text (utf8 s)

/-- A nested message: its fields. -/
def message (fs : List (Nat × Extra)) : Extra := .text (writeExtras fs)

/-- `message LabelPair { optional string name = 1; optional string value = 2; }` -/
def LabelPair.fields (l : LabelPair) : List (Nat × Extra) := field 1 string l.name ++ field 2 string l.value

/-- `message Gauge { optional double value = 1; }`, and likewise `Counter` and `Untyped`. -/
def Number.fields (n : Number) : List (Nat × Extra) := field 1 double n.value

/-- `message Quantile { optional double quantile = 1; optional double value = 2; }` -/
def Quantile.fields (q : Quantile) : List (Nat × Extra) := field 1 double q.quantile ++ field 2 double q.value

/-- `message Summary { optional uint64 sample_count = 1; optional double sample_sum = 2; repeated Quantile quantile = 3; }` -/
def Summary.fields (s : Summary) : List (Nat × Extra) :=
  field 1 (fun v => .number v.toNat) s.sampleCount ++ field 2 double s.sampleSum ++ repeated 3 (fun q => message q.fields) s.quantile

/-- `message Bucket { optional uint64 cumulative_count = 1; optional double upper_bound = 2; }` -/
def Bucket.fields (b : Bucket) : List (Nat × Extra) := field 1 (fun v => .number v.toNat) b.cumulativeCount ++ field 2 double b.upperBound

/-- `message Histogram { optional uint64 sample_count = 1; optional double sample_sum = 2; repeated Bucket bucket = 3; }` -/
def Histogram.fields (h : Histogram) : List (Nat × Extra) :=
  field 1 (fun v => .number v.toNat) h.sampleCount ++ field 2 double h.sampleSum ++ repeated 3 (fun b => message b.fields) h.bucket

/-- `message Metric { repeated LabelPair label = 1; optional Gauge gauge = 2; optional Counter counter = 3; optional Summary summary = 4;
optional Untyped untyped = 5; optional Histogram histogram = 7; optional int64 timestamp_ms = 6; }`; a negative `int64` is the number
of its two's complement. -/
def Metric.fields (m : Metric) : List (Nat × Extra) :=
  repeated 1 (fun l => message l.fields) m.label ++ field 2 (fun n => message n.fields) m.gauge ++ field 3 (fun n => message n.fields) m.counter
  ++ field 4 (fun s => message s.fields) m.summary ++ field 5 (fun n => message n.fields) m.untyped
  ++ field 7 (fun h => message h.fields) m.histogram
  ++ field 6 (fun t => .number (if 0 ≤ t then t.toNat else (t + 18446744073709551616).toNat)) m.timestampMs

/-- `enum MetricType { COUNTER = 0; GAUGE = 1; SUMMARY = 2; UNTYPED = 3; HISTOGRAM = 4; }` -/
def MetricType.number : MetricType → Nat
  | .counter => 0 | .gauge => 1 | .summary => 2 | .untyped => 3 | .histogram => 4

/-- `message MetricFamily { optional string name = 1; optional string help = 2; optional MetricType type = 3; repeated Metric metric = 4; }` -/
def MetricFamily.fields (m : MetricFamily) : List (Nat × Extra) :=
  field 1 string m.name ++ field 2 string m.help ++ field 3 (fun t => .number t.number) m.type ++ repeated 4 (fun x => message x.fields) m.metric

end Verif.PromProto
