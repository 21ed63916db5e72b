import Verif.Model.Proto
/-!
# The messages of the Prometheus client model

Models src/protocols/prometheus.rs (generated from resources/protobufs/prometheus.proto): how messages are sized, written and
read.  The module is public but nothing else in cernan uses it.  As in `Verif.Model.Proto` the `protobuf` crate underneath is external and
modelled after the encoding's definition; the bits of a double are a `UInt64`.

Simplifications: those of `Verif.Model.Proto`; accessors, reflection and descriptors are not modelled.  The code keeps fields the
schema does not know and writes them again at the end of the message; the model skips them.
-/
namespace Verif.PromProto
open Proto

/-- `MetricType` — src/protocols/prometheus.rs:2643-2650. -/
inductive MetricType where
  | counter | gauge | summary | untyped | histogram
deriving DecidableEq, Repr

/-- `MetricType::value` — src/protocols/prometheus.rs:2653-2655. -/
def MetricType.value : MetricType → Nat
  | .counter => 0 | .gauge => 1 | .summary => 2 | .untyped => 3 | .histogram => 4

/-- `MetricType::from_i32` — src/protocols/prometheus.rs:2657-2666. -/
def MetricType.ofI32 : Nat → Option MetricType
  | 0 => some .counter | 1 => some .gauge | 2 => some .summary | 3 => some .untyped | 4 => some .histogram | _ => none

/-- `LabelPair` — src/protocols/prometheus.rs:24-32. -/
structure LabelPair where
  name : Option Str := none
  value : Option Str := none
deriving DecidableEq

/-- `Gauge`, `Counter` and `Untyped` — src/protocols/prometheus.rs:270-277, 443-450, 1108-1115.  The code of the three is the same but for the names. -/
structure Number where
  value : Option UInt64 := none
deriving DecidableEq

/-- `Quantile` — src/protocols/prometheus.rs:616-624. -/
structure Quantile where
  quantile : Option UInt64 := none
  value : Option UInt64 := none
deriving DecidableEq

/-- `Summary` — src/protocols/prometheus.rs:836-845. -/
structure Summary where
  sampleCount : Option UInt64 := none
  sampleSum : Option UInt64 := none
  quantile : List Quantile := []
deriving DecidableEq

/-- `Bucket` — src/protocols/prometheus.rs:1553-1561. -/
structure Bucket where
  cumulativeCount : Option UInt64 := none
  upperBound : Option UInt64 := none
deriving DecidableEq

/-- `Histogram` — src/protocols/prometheus.rs:1281-1290. -/
structure Histogram where
  sampleCount : Option UInt64 := none
  sampleSum : Option UInt64 := none
  bucket : List Bucket := []
deriving DecidableEq

/-- `Metric` — src/protocols/prometheus.rs:1773-1786. -/
structure Metric where
  label : List LabelPair := []
  gauge : Option Number := none
  counter : Option Number := none
  summary : Option Summary := none
  untyped : Option Number := none
  histogram : Option Histogram := none
  timestampMs : Option Int := none
deriving DecidableEq

/-- `MetricFamily` — src/protocols/prometheus.rs:2298-2308. -/
structure MetricFamily where
  name : Option Str := none
  help : Option Str := none
  type : Option MetricType := none
  metric : List Metric := []
deriving DecidableEq

/-! ## Writing -/

/-- `CodedOutputStream::write_double` (external).  For the generated code in src/protocols/prometheus.rs. -/
def putDouble (field : Nat) (v : UInt64) : Bytes := putTag field 1 ++ leBytes 8 v.toNat

/-- `CodedOutputStream::write_uint64` (external).  For the generated code in src/protocols/prometheus.rs. -/
def putU64 (field : Nat) (v : UInt64) : Bytes := putTag field 0 ++ varint v.toNat

/-- `rt::value_size` of a `u64` in a field below 16 (external).  For the generated code in src/protocols/prometheus.rs. -/
def u64Size (v : UInt64) : Nat := 1 + varint64Size v.toNat

/-- A nested message: its tag, its computed size and its fields — e.g. src/protocols/prometheus.rs:1013-1017. -/
def putMsg {α : Type} (size : α → Nat) (write : α → Bytes) (field : Nat) (x : α) : Bytes :=
  putTag field 2 ++ varint (size x) ++ write x

/-- The size of a nested message with its header — e.g. src/protocols/prometheus.rs:997-1000. -/
def msgSize {α : Type} (size : α → Nat) (x : α) : Nat := 1 + varintSize (size x) + size x

/-- `LabelPair::compute_size` — src/protocols/prometheus.rs:166-177. -/
def LabelPair.computeSize (l : LabelPair) : Nat := optSize strSize l.name + optSize strSize l.value

/-- `LabelPair::write_to_with_cached_sizes` — src/protocols/prometheus.rs:179-188. -/
def LabelPair.write (l : LabelPair) : Bytes := putOpt (putStr 1) l.name ++ putOpt (putStr 2) l.value

/-- `compute_size` of `Gauge`, `Counter` and `Untyped` — src/protocols/prometheus.rs:351-359, 524-532, 1189-1197. -/
def Number.computeSize (n : Number) : Nat := optSize (fun _ => 9) n.value

/-- `write_to_with_cached_sizes` of `Gauge`, `Counter` and `Untyped` — src/protocols/prometheus.rs:361-367, 534-540, 1199-1205. -/
def Number.write (n : Number) : Bytes := putOpt (putDouble 1) n.value

/-- `Quantile::compute_size` — src/protocols/prometheus.rs:732-743. -/
def Quantile.computeSize (q : Quantile) : Nat := optSize (fun _ => 9) q.quantile + optSize (fun _ => 9) q.value

/-- `Quantile::write_to_with_cached_sizes` — src/protocols/prometheus.rs:745-754. -/
def Quantile.write (q : Quantile) : Bytes := putOpt (putDouble 1) q.quantile ++ putOpt (putDouble 2) q.value

/-- `Summary::compute_size` — src/protocols/prometheus.rs:989-1004. -/
def Summary.computeSize (s : Summary) : Nat :=
  optSize u64Size s.sampleCount + optSize (fun _ => 9) s.sampleSum + (s.quantile.map (msgSize Quantile.computeSize)).sum

/-- `Summary::write_to_with_cached_sizes` — src/protocols/prometheus.rs:1006-1020. -/
def Summary.write (s : Summary) : Bytes :=
  putOpt (putU64 1) s.sampleCount ++ putOpt (putDouble 2) s.sampleSum
  ++ s.quantile.flatMap (putMsg Quantile.computeSize Quantile.write 3)

/-- `Bucket::compute_size` — src/protocols/prometheus.rs:1669-1680. -/
def Bucket.computeSize (b : Bucket) : Nat := optSize u64Size b.cumulativeCount + optSize (fun _ => 9) b.upperBound

/-- `Bucket::write_to_with_cached_sizes` — src/protocols/prometheus.rs:1682-1691. -/
def Bucket.write (b : Bucket) : Bytes := putOpt (putU64 1) b.cumulativeCount ++ putOpt (putDouble 2) b.upperBound

/-- `Histogram::compute_size` — src/protocols/prometheus.rs:1434-1449. -/
def Histogram.computeSize (h : Histogram) : Nat :=
  optSize u64Size h.sampleCount + optSize (fun _ => 9) h.sampleSum + (h.bucket.map (msgSize Bucket.computeSize)).sum

/-- `Histogram::write_to_with_cached_sizes` — src/protocols/prometheus.rs:1451-1465. -/
def Histogram.write (h : Histogram) : Bytes :=
  putOpt (putU64 1) h.sampleCount ++ putOpt (putDouble 2) h.sampleSum
  ++ h.bucket.flatMap (putMsg Bucket.computeSize Bucket.write 3)

/-- `Metric::compute_size` — src/protocols/prometheus.rs:2116-2148. -/
def Metric.computeSize (m : Metric) : Nat :=
  (m.label.map (msgSize LabelPair.computeSize)).sum
  + optSize (msgSize Number.computeSize) m.gauge
  + optSize (msgSize Number.computeSize) m.counter
  + optSize (msgSize Summary.computeSize) m.summary
  + optSize (msgSize Number.computeSize) m.untyped
  + optSize (msgSize Histogram.computeSize) m.histogram
  + optSize (fun v => 1 + varint64Size (ofI64 v)) m.timestampMs

/-- `Metric::write_to_with_cached_sizes` — src/protocols/prometheus.rs:2150-2186; the histogram (field 7) comes before the time (field 6). -/
def Metric.write (m : Metric) : Bytes :=
  m.label.flatMap (putMsg LabelPair.computeSize LabelPair.write 1)
  ++ putOpt (putMsg Number.computeSize Number.write 2) m.gauge
  ++ putOpt (putMsg Number.computeSize Number.write 3) m.counter
  ++ putOpt (putMsg Summary.computeSize Summary.write 4) m.summary
  ++ putOpt (putMsg Number.computeSize Number.write 5) m.untyped
  ++ putOpt (putMsg Histogram.computeSize Histogram.write 7) m.histogram
  ++ putOpt (putI64 6) m.timestampMs

/-- `MetricFamily::compute_size` — src/protocols/prometheus.rs:2512-2530. -/
def MetricFamily.computeSize (m : MetricFamily) : Nat :=
  optSize strSize m.name + optSize strSize m.help + optSize (fun t => 1 + varintSize t.value) m.type
  + (m.metric.map (msgSize Metric.computeSize)).sum

/-- `MetricFamily::write_to_with_cached_sizes` — src/protocols/prometheus.rs:2532-2549. -/
def MetricFamily.write (m : MetricFamily) : Bytes :=
  putOpt (putStr 1) m.name ++ putOpt (putStr 2) m.help ++ putOpt (fun t => putTag 3 0 ++ varint t.value) m.type
  ++ m.metric.flatMap (putMsg Metric.computeSize Metric.write 4)

/-! ## Reading -/

/-- A nested message, read within its declared length (`rt::read_repeated_message_into`, `rt::read_singular_message_into`,
external; the latter starts from an empty message if the field was there before).  For the generated code in src/protocols/prometheus.rs. -/
def readMsg {α : Type} (step : Nat → Nat → α → Bytes → Option (α × Bytes)) (empty : α) (bs : Bytes) : Option (α × Bytes) :=
  (readDelimited bs).bind fun (m, r) => (mergeLoop step (m.length + 1) empty m).map fun x => (x, r)

/-- `CodedInputStream::read_uint64` (external).  For the generated code in src/protocols/prometheus.rs. -/
def readU64 (bs : Bytes) : Option (UInt64 × Bytes) := (readVarint bs).map fun (v, r) => (UInt64.ofNat v, r)

/-- One field in `LabelPair::merge_from` — src/protocols/prometheus.rs:146-163. -/
def LabelPair.step (f w : Nat) (l : LabelPair) (bs : Bytes) : Option (LabelPair × Bytes) :=
  match f with
  | 1 => expect w 2 ((readString bs).map fun (s, r) => ({ l with name := some s }, r))
  | 2 => expect w 2 ((readString bs).map fun (s, r) => ({ l with value := some s }, r))
  | _ => unknown w l bs

/-- One field in `merge_from` of `Gauge`, `Counter` and `Untyped` — src/protocols/prometheus.rs:330-348, 503-521, 1168-1186. -/
def Number.step (f w : Nat) (n : Number) (bs : Bytes) : Option (Number × Bytes) :=
  match f with
  | 1 => expect w 1 ((readDouble bs).map fun (v, r) => (⟨some v⟩, r))
  | _ => unknown w n bs

/-- One field in `Quantile::merge_from` — src/protocols/prometheus.rs:704-729. -/
def Quantile.step (f w : Nat) (q : Quantile) (bs : Bytes) : Option (Quantile × Bytes) :=
  match f with
  | 1 => expect w 1 ((readDouble bs).map fun (v, r) => ({ q with quantile := some v }, r))
  | 2 => expect w 1 ((readDouble bs).map fun (v, r) => ({ q with value := some v }, r))
  | _ => unknown w q bs

/-- One field in `Summary::merge_from` — src/protocols/prometheus.rs:958-987. -/
def Summary.step (f w : Nat) (s : Summary) (bs : Bytes) : Option (Summary × Bytes) :=
  match f with
  | 1 => expect w 0 ((readU64 bs).map fun (v, r) => ({ s with sampleCount := some v }, r))
  | 2 => expect w 1 ((readDouble bs).map fun (v, r) => ({ s with sampleSum := some v }, r))
  | 3 => expect w 2 ((readMsg Quantile.step {} bs).map fun (x, r) => ({ s with quantile := s.quantile ++ [x] }, r))
  | _ => unknown w s bs

/-- One field in `Bucket::merge_from` — src/protocols/prometheus.rs:1641-1666. -/
def Bucket.step (f w : Nat) (b : Bucket) (bs : Bytes) : Option (Bucket × Bytes) :=
  match f with
  | 1 => expect w 0 ((readU64 bs).map fun (v, r) => ({ b with cumulativeCount := some v }, r))
  | 2 => expect w 1 ((readDouble bs).map fun (v, r) => ({ b with upperBound := some v }, r))
  | _ => unknown w b bs

/-- One field in `Histogram::merge_from` — src/protocols/prometheus.rs:1403-1432. -/
def Histogram.step (f w : Nat) (h : Histogram) (bs : Bytes) : Option (Histogram × Bytes) :=
  match f with
  | 1 => expect w 0 ((readU64 bs).map fun (v, r) => ({ h with sampleCount := some v }, r))
  | 2 => expect w 1 ((readDouble bs).map fun (v, r) => ({ h with sampleSum := some v }, r))
  | 3 => expect w 2 ((readMsg Bucket.step {} bs).map fun (x, r) => ({ h with bucket := h.bucket ++ [x] }, r))
  | _ => unknown w h bs

/-- One field in `Metric::merge_from` — src/protocols/prometheus.rs:2077-2114. -/
def Metric.step (f w : Nat) (m : Metric) (bs : Bytes) : Option (Metric × Bytes) :=
  match f with
  | 1 => expect w 2 ((readMsg LabelPair.step {} bs).map fun (x, r) => ({ m with label := m.label ++ [x] }, r))
  | 2 => expect w 2 ((readMsg Number.step {} bs).map fun (x, r) => ({ m with gauge := some x }, r))
  | 3 => expect w 2 ((readMsg Number.step {} bs).map fun (x, r) => ({ m with counter := some x }, r))
  | 4 => expect w 2 ((readMsg Summary.step {} bs).map fun (x, r) => ({ m with summary := some x }, r))
  | 5 => expect w 2 ((readMsg Number.step {} bs).map fun (x, r) => ({ m with untyped := some x }, r))
  | 7 => expect w 2 ((readMsg Histogram.step {} bs).map fun (x, r) => ({ m with histogram := some x }, r))
  | 6 => expect w 0 ((readVarint bs).map fun (v, r) => ({ m with timestampMs := some (toI64 v) }, r))
  | _ => unknown w m bs

/-- One field in `MetricFamily::merge_from` — src/protocols/prometheus.rs:2482-2507. -/
def MetricFamily.step (f w : Nat) (m : MetricFamily) (bs : Bytes) : Option (MetricFamily × Bytes) :=
  match f with
  | 1 => expect w 2 ((readString bs).map fun (s, r) => ({ m with name := some s }, r))
  | 2 => expect w 2 ((readString bs).map fun (s, r) => ({ m with help := some s }, r))
  | 3 => expect w 0 ((readVarint32 bs).bind fun (v, r) => (MetricType.ofI32 v).map fun t => ({ m with type := some t }, r))
  | 4 => expect w 2 ((readMsg Metric.step {} bs).map fun (x, r) => ({ m with metric := m.metric ++ [x] }, r))
  | _ => unknown w m bs

/-- `protobuf::parse_from_bytes::<MetricFamily>` (external) over `MetricFamily::merge_from`.  For the generated code in src/protocols/prometheus.rs. -/
def MetricFamily.parse (bs : Bytes) : Option MetricFamily := mergeLoop MetricFamily.step (bs.length + 1) {} bs

/-- `protobuf::parse_from_bytes::<Metric>` (external) over `Metric::merge_from`.  For the generated code in src/protocols/prometheus.rs. -/
def Metric.parse (bs : Bytes) : Option Metric := mergeLoop Metric.step (bs.length + 1) {} bs

end Verif.PromProto
