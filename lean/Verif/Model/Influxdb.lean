import Verif.Model.Wavefront
/-!
# The InfluxDB sink

Models src/sink/influxdb.rs.  `get_from_cache` (src/sink/influxdb.rs:88-101) is the same code as in
the Wavefront sink, so its model is shared, and with it the formatting of numbers.  The HTTP
client is a script of outcomes; counters are not modelled.
-/
namespace Verif
namespace Influx
open Wavefront (Ext Tok Caches pushToks)

section
variable {F : Type} [F64 F]

/-- `fmt_tags` — src/sink/influxdb.rs:78-85. -/
def fmtTags (tags : List (Str × Str)) : Str :=
  tags.flatMap fun kv => ',' :: kv.1 ++ '=' :: kv.2

/-- `timestamp.saturating_mul(1_000_000_000) as u64` — src/sink/influxdb.rs:122. -/
def nanos (ts : Int) : Nat :=
  let p := ts * 1000000000
  let sat := if p > 9223372036854775807 then 9223372036854775807
    else if p < -9223372036854775808 then -9223372036854775808 else p
  (sat % 18446744073709551616).toNat

/-- The `push_str` calls of one line — src/sink/influxdb.rs:115-125, 132-142, 152-169, 178-189.
The `u64` time is a `count` token: both caches are over unsigned integers. -/
def lineToks (name : Str) (tagBuf : Str) (v : F) (ts : Int) : List (Tok F) :=
  [.lit name, .lit tagBuf, .lit [' '], .lit ['v', 'a', 'l', 'u', 'e', '='], .value v, .lit [' '],
   .count (nanos ts), .lit ['\n']]

/-- The percentiles of a summary — src/sink/influxdb.rs:176. -/
def percentiles : List F :=
  [F64.div (F64.ofNat 25) (F64.ofNat 100), F64.div (F64.ofNat 50) (F64.ofNat 100),
   F64.div (F64.ofNat 75) (F64.ofNat 100), F64.div (F64.ofNat 90) (F64.ofNat 100),
   F64.div (F64.ofNat 99) (F64.ofNat 100), F64.ofNat 1]

/-- The body of the loop of `format_stats` — src/sink/influxdb.rs:110-194. -/
def pointToks (ext : Ext F) (tags : TagMap) (t : Telemetry F) : List (Tok F) :=
  let tagBuf := fmtTags (t.iterTags tags)
  match t.kind with
  | .sum => match t.sum with
    | some v => lineToks t.name tagBuf v t.timestamp
    | none => []
  | .set => match t.set with
    | some v => lineToks t.name tagBuf v t.timestamp
    | none => []
  | .histogram => match t.bins with
    | some bins => bins.flatMap fun b =>
        lineToks (t.name ++ '.' :: match b.1 with
          | some x => ['l', 'e', '_'] ++ ext.showF x
          | none => ['l', 'e', '_', 'i', 'n', 'f']) tagBuf (F64.ofNat b.2) t.timestamp
    | none => []
  | .summarize => percentiles.flatMap fun p => match t.query p with
    | some v => lineToks (t.name ++ '.' :: ext.showF p) tagBuf v t.timestamp
    | none => []

/-- `format_stats` — src/sink/influxdb.rs:104-195: the text; `none` is the panic on a number that
cannot be compared. -/
def formatStats (ext : Ext F) (tags : TagMap) (pts : List (Telemetry F)) : Option Str :=
  (pushToks ext {} [] (pts.flatMap (pointToks ext tags))).map (·.2)

/-- `InfluxDB` — src/sink/influxdb.rs:36-46, without client and address. -/
structure State (F : Type) [F64 F] where
  aggrs : List (Telemetry F)
  attempts : Nat
  tags : TagMap

/-- What becomes of one POST.  Matched at src/sink/influxdb.rs:231-279. -/
inductive Outcome where
  | sendError
  | success
  | clientError
  | serverError
  | other
deriving DecidableEq

/-- One visible action of `flush` — src/sink/influxdb.rs:231-279. -/
inductive Wire where
  | delay (ms : Nat)
  | post (payload : Str)
deriving DecidableEq

/-- `u32::saturating_add(1)`.  Used at src/sink/influxdb.rs:267, 271. -/
def satSucc (n : Nat) : Nat := if n < 2 ^ 32 - 1 then n + 1 else n

/-- The infinite loop of `flush` — src/sink/influxdb.rs:236-276: the attempts afterwards, what was
done, and whether the loop has ended (if not, it is waiting for a further outcome). -/
def flushLoop (payload : Str) : Nat → List Outcome → Nat × List Wire × Bool
  | attempts, [] => (attempts, [], false)
  | attempts, o :: os =>
    let acts := [.delay (delayMs attempts), .post payload]
    match o with
    | .success => (attempts - 1, acts, true)
    | .clientError | .serverError =>
      let (a, w, d) := flushLoop payload (satSucc attempts) os
      (a, acts ++ w, d)
    | .sendError | .other =>
      let (a, w, d) := flushLoop payload attempts os
      (a, acts ++ w, d)

/-- `flush` — src/sink/influxdb.rs:231-279: `none` is a panic; if the flag is false the flush is
still running and the points are untouched. -/
def flush (ext : Ext F) (s : State F) (os : List Outcome) :
    Option (State F × List Wire × Bool) :=
  match formatStats ext s.tags s.aggrs with
  | none => none
  | some payload =>
    let (a, w, d) := flushLoop payload s.attempts os
    some ({ s with attempts := a, aggrs := if d then [] else s.aggrs }, w, d)

/-- `deliver` — src/sink/influxdb.rs:285-287. -/
def deliver (s : State F) (t : Telemetry F) : State F := { s with aggrs := s.aggrs ++ [t] }

/-- `valve_state` — src/sink/influxdb.rs:289-295: is the valve open? -/
def valveOpen (s : State F) : Bool := !decide (s.aggrs.length > 100000)

/-- `init` — src/sink/influxdb.rs:204-225. -/
def init (tags : TagMap) : State F := { aggrs := [], attempts := 0, tags := tags }

end
end Influx
end Verif
