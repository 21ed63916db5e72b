import Verif.Model.Telemetry
import Verif.Model.Search
import Verif.Model.Wavefront
/-!
# The Prometheus sink

Models src/sink/prometheus.rs.  The `HashMap` of accumulators is an association list with
distinct names; everything that iterates over it takes the order as an argument.  The self
telemetry counters, gzip and the HTTP server are not modelled.
-/
namespace Verif
namespace Prometheus

/-- Operations of `f64` used only here: `f64::MAX`, subtraction, `to_string`; and `to_string`
of `usize`.  Used at src/sink/prometheus.rs:499-605. -/
structure Ext (F : Type) where
  max : F
  sub : F → F → F
  showF : F → Str
  showN : Nat → Str

section
variable {F : Type} [F64 F]

/-- `Accumulator` — src/sink/prometheus.rs:94-103. -/
inductive Acc (F : Type) [F64 F] where
  | perpetual (t : Telemetry F)
  | windowed (cap : Nat) (sum : F) (count : Nat) (samples : List (Telemetry F))

/-- `Accumulator::kind` — src/sink/prometheus.rs:106-111. -/
def Acc.kind : Acc F → Kind
  | .perpetual t => t.kind
  | .windowed .. => .summarize

/-- `Accumulator::purge` — src/sink/prometheus.rs:126-147: the accumulator and the number of
samples removed.  Simplification: one clock reading for the whole loop. -/
def Acc.purge (now : Int) : Acc F → Acc F × Nat
  | .perpetual t => (.perpetual t, 0)
  | .windowed cap sum count samples =>
    let keep := samples.filter fun s =>
      !decide (((s.timestamp - now).natAbs : Int) > Wavefront.asI64 cap)
    (.windowed cap sum count keep, samples.length - keep.length)

/-- The running sum with its own wrap — src/sink/prometheus.rs:171-175. -/
def wrapSum (ext : Ext F) (sum val : F) : F :=
  if F64.ge sum (ext.sub ext.max val) then ext.sub val (ext.sub ext.max sum)
  else F64.add sum val

/-- `Accumulator::insert` — src/sink/prometheus.rs:149-193; `none` is a panic
(the assertions and the `unwrap`). -/
def Acc.insert (ext : Ext F) (acc : Acc F) (telem : Telemetry F) : Option (Acc F) :=
  match acc with
  | .perpetual t => some (.perpetual (t.addAssign telem))
  | .windowed cap sum count samples =>
    if telem.kind ≠ .summarize then none
    else
      let count' := if u64Max - count ≤ 1 then 1 else count + 1
      match telem.query (F64.ofNat 1) with
      | none => none
      | some val =>
        let sum' := wrapSum ext sum val
        let samples' : Option (List (Telemetry F)) :=
          match bsearch (fun probe => compare probe.timestamp telem.timestamp) samples with
          | .ok idx => match samples[idx]? with
            | some cur => some (samples.set idx (cur.addAssign telem))
            | none => none
          | .err idx =>
            let s := samples.insertIdx idx telem
            some (if s.length > cap then s.drop (s.length - cap) else s)
        match samples' with
        | none => none
        | some s => if s.length ≤ cap then some (.windowed cap sum' count' s) else none

/-- `PrometheusAggr` — src/sink/prometheus.rs:208-233. -/
structure Aggr (F : Type) [F64 F] where
  data : List (Str × Acc F)
  capacity : Nat

/-- `HashMap::get`.  Used at src/sink/prometheus.rs:279-310. -/
def find (data : List (Str × Acc F)) (name : Str) : Option (Acc F) :=
  match data with
  | [] => none
  | (k, a) :: rest => if k = name then some a else find rest name

/-- `*get_mut() = …`.  Used at src/sink/prometheus.rs:279-310. -/
def put (data : List (Str × Acc F)) (name : Str) (a : Acc F) : List (Str × Acc F) :=
  match data with
  | [] => [(name, a)]
  | (k, b) :: rest => if k = name then (k, a) :: rest else (k, b) :: put rest name a

/-- The accumulator made for a first point — src/sink/prometheus.rs:290-307; `none` is a
panic. -/
def first (capacity : Nat) (telem : Telemetry F) : Option (Acc F) :=
  match telem.kind with
  | .set | .sum | .histogram => some (.perpetual telem)
  | .summarize => match telem.query (F64.ofNat 1) with
    | none => none
    | some sum => some (.windowed capacity sum 1 [telem])

/-- `PrometheusAggr::insert` — src/sink/prometheus.rs:279-310: `none` is a panic. -/
def Aggr.insert (ext : Ext F) (a : Aggr F) (telem : Telemetry F) : Option (Aggr F × Bool) :=
  match find a.data telem.name with
  | some prev =>
    if prev.kind = telem.kind then
      match prev.insert ext telem with
      | none => none
      | some acc => some ({ a with data := put a.data telem.name acc }, true)
    else some (a, false)
  | none => match first a.capacity telem with
    | none => none
    | some acc => some ({ a with data := put a.data telem.name acc }, true)

/-- `PrometheusAggr::purge` — src/sink/prometheus.rs:312-318. -/
def Aggr.purge (now : Int) (a : Aggr F) : Aggr F × Nat :=
  ({ a with data := a.data.map fun ka => (ka.1, (ka.2.purge now).1) },
    (a.data.map fun ka => (ka.2.purge now).2).sum)

/-- `PrometheusAggr::new` — src/sink/prometheus.rs:326-331. -/
def Aggr.new (capacity : Nat) : Aggr F := { data := [], capacity := capacity }

/-- The point reported for an accumulator — src/sink/prometheus.rs:342-384: the outer `none` is
the panic of `harden().unwrap()`, the inner one an empty window. -/
def Acc.report (now : Int) : Acc F → Option (Option (Telemetry F))
  | .perpetual t => some (some t)
  | .windowed _ sum count samples =>
    match samples with
    | [] => some none
    | s :: rest =>
      let start := rest.foldl (fun start t => start.addAssign t) s
      match ({ start.thaw with overrideSampleSum := some sum, overrideCount := some count } :
          SoftTelemetry F).harden now with
      | .ok t => some (some t)
      | .error _ => none

/-- `reportable()` driven to the end — src/sink/prometheus.rs:262-266, 342-384; `order` is the
map's contents in its iteration order. -/
def report (now : Int) : List (Str × Acc F) → Option (List (Telemetry F))
  | [] => some []
  | (_, acc) :: rest => match acc.report now, report now rest with
    | some (some t), some ts => some (t :: ts)
    | some none, some ts => some ts
    | _, _ => none

/-- The number at the end of a sample line — src/sink/prometheus.rs:499-605. -/
inductive Num (F : Type) where
  | nat (n : Nat)
  | real (x : F)
deriving DecidableEq

/-- One line written by `write_text` — src/sink/prometheus.rs:499-605. -/
inductive Line (F : Type) where
  | type (name tname : Str)
  | sample (name : Str) (labels : List (Str × Str)) (value : Num F)
deriving DecidableEq

/-- `write_kv` — src/sink/prometheus.rs:446-455. -/
def kvText (kv : Str × Str) : Str := kv.1 ++ ['=', '"'] ++ kv.2 ++ ['"']

/-- `write_tags` — src/sink/prometheus.rs:457-472. -/
def labelsText : List (Str × Str) → Str
  | [] => []
  | kv :: rest => '{' :: kvText kv ++ (rest.flatMap fun kv => [',', ' '] ++ kvText kv) ++ ['}']

/-- `write_metric`, `write_type` and the lines written in `write_text`
— src/sink/prometheus.rs:474-497, 532-548, 574-585. -/
def Line.text (ext : Ext F) : Line F → Str
  | .type name tname => ['#', ' ', 'T', 'Y', 'P', 'E', ' '] ++ name ++ ' ' :: tname ++ ['\n']
  | .sample name labels v =>
    name ++ labelsText labels ++ ' ' ::
      (match v with | .nat n => ext.showN n | .real x => ext.showF x) ++ ['\n']

/-- Is the byte kept by `sanitize`? — src/sink/prometheus.rs:618-628. -/
def keepByte (b : UInt8) : Bool :=
  (97 ≤ b && b ≤ 122) || (65 ≤ b && b ≤ 90) || (48 ≤ b && b ≤ 57) || b == 58 || b == 95

/-- `sanitize` — src/sink/prometheus.rs:618-628. -/
def sanitize (name : Str) : Str :=
  (name.flatMap String.utf8EncodeChar).map fun b =>
    if keepByte b then Char.ofNat b.toNat else '_'

/-- The quantiles reported — src/sink/prometheus.rs:573. -/
def quantiles : List F :=
  [F64.ofNat 0, F64.ofNat 1, F64.div (F64.ofNat 25) (F64.ofNat 100),
   F64.div (F64.ofNat 50) (F64.ofNat 100), F64.div (F64.ofNat 75) (F64.ofNat 100),
   F64.div (F64.ofNat 90) (F64.ofNat 100), F64.div (F64.ofNat 95) (F64.ofNat 100),
   F64.div (F64.ofNat 99) (F64.ofNat 100), F64.div (F64.ofNat 999) (F64.ofNat 1000)]

/-- The bucket lines with their running sum — src/sink/prometheus.rs:526-549. -/
def bucketLines (ext : Ext F) (name : Str) (tags : List (Str × Str)) :
    Nat → List (Option F × Nat) → List (Line F)
  | _, [] => []
  | running, (bound, val) :: rest =>
    let le := match bound with
      | some b => ext.showF b
      | none => ['+', 'I', 'n', 'f']
    .sample name ((['l', 'e'], le) :: tags) (.nat (val + running)) ::
      bucketLines ext name tags (running + val) rest

/-- The quantile lines — src/sink/prometheus.rs:573-588; `none` is the panic of `unwrap`. -/
def quantileLines (ext : Ext F) (name : Str) (tags : List (Str × Str)) (t : Telemetry F) :
    List F → Option (List (Line F))
  | [] => some []
  | q :: qs => match t.query q, quantileLines ext name tags t qs with
    | some v, some rest =>
      some (.sample name ((['q', 'u', 'a', 'n', 't', 'i', 'l', 'e'], ext.showF q) :: tags) (.real v)
        :: rest)
    | _, _ => none

/-- The `_sum` and `_count` lines — src/sink/prometheus.rs:550-563, 589-602. -/
def tailLines (name : Str) (tags : List (Str × Str)) (t : Telemetry F) : List (Line F) :=
  [.sample (name ++ ['_', 's', 'u', 'm']) tags (.real (t.samplesSum.getD F64.zero)),
   .sample (name ++ ['_', 'c', 'o', 'u', 'n', 't']) tags (.real (F64.ofNat t.count))]

/-- The loop of `write_text` — src/sink/prometheus.rs:499-605; `seen` are the names that have
their TYPE line.  `none` is a panic.  Writing to the buffer never fails. -/
def writeText (ext : Ext F) (default : TagMap) :
    List Str → List (Telemetry F) → Option (List (Line F))
  | _, [] => some []
  | seen, t :: ts =>
    let name := sanitize t.name
    let tags := t.iterTags default
    let head (tname : Str) : List (Line F) := if t.name ∈ seen then [] else [.type name tname]
    match t.kind with
    | .sum => match t.sum with
      | some v => (writeText ext default (t.name :: seen) ts).map fun rest =>
          head ['c', 'o', 'u', 'n', 't', 'e', 'r'] ++ .sample name tags (.real v) :: rest
      | none => writeText ext default seen ts
    | .set => match t.set with
      | some v => (writeText ext default (t.name :: seen) ts).map fun rest =>
          head ['g', 'a', 'u', 'g', 'e'] ++ .sample name tags (.real v) :: rest
      | none => writeText ext default seen ts
    | .histogram => match t.bins with
      | some bins => (writeText ext default (t.name :: seen) ts).map fun rest =>
          head ['h', 'i', 's', 't', 'o', 'g', 'r', 'a', 'm'] ++
            (bucketLines ext name tags 0 bins ++ (tailLines name tags t ++ rest))
      | none => writeText ext default seen ts
    | .summarize => match quantileLines ext name tags t quantiles with
      | some qs => (writeText ext default (t.name :: seen) ts).map fun rest =>
          head ['s', 'u', 'm', 'm', 'a', 'r', 'y'] ++ (qs ++ (tailLines name tags t ++ rest))
      | none => none

/-- What a scrape answers — src/sink/prometheus.rs:393-444: `order` is the contents of the map,
`locked` says whether `try_lock` failed; the outer `none` is a panic, the inner one is no
response.  Compressed, even no text at all is a response.  Simplification: what is compressed is
shown uncompressed. -/
def scrape (ext : Ext F) (tags : TagMap) (gzip : Bool) (now : Int) (locked : Bool) (order : List (Str × Acc F)) :
    Option (Option (List (Line F))) :=
  if locked then some none
  else match report now order with
    | none => none
    | some pts => match writeText ext tags [] pts with
      | none => none
      | some [] => some (if gzip then some [] else none)
      | some lines => some (some lines)

/-- `deliver` — src/sink/prometheus.rs:661-669; `now` is `time::now()`. -/
def deliver (ext : Ext F) (ageThreshold : Option Nat) (now : Int) (a : Aggr F) (t : Telemetry F) :
    Option (Aggr F) :=
  let accept := match ageThreshold with
    | some age => decide (((t.timestamp - now).natAbs : Int) ≤ Wavefront.asI64 age)
    | none => true
  if accept then (a.insert ext t).map (·.1) else some a

end
end Prometheus
end Verif
