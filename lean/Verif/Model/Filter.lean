import Verif.Model.Event
import Verif.Model.Search
import Verif.Model.Json
/-!
# Filters

Models src/filter/*.rs.  `now` is the reading of `time::now()` while the event is
processed.
-/
namespace Verif

/-- A `Filter` implementation with state `σ`: `process(&mut self, event, &mut res)`
— src/filter/mod.rs:58-62.  The buffer `res` is passed in and returned; the result is
`Ok(())` or the event carried by the `FilterError` (`event_in_fe`, lines 42-46). -/
abbrev Process (F : Type) [F64 F] (σ : Type) :=
  Int → σ → Event F → List (Event F) → σ × List (Event F) × Except (Event F) Unit

/-- The state of `Filter::run` — src/filter/mod.rs:75-78 — together with everything
given to `util::send` so far and whether `run` has returned. -/
structure FilterRun (F : Type) [F64 F] (σ : Type) where
  state : σ
  /-- the reused `events` buffer -/
  events : List (Event F) := []
  totalShutdowns : Nat := 0
  sent : List (Event F) := []
  finished : Bool := false

section
variable {F : Type} [F64 F] {σ : Type}

/-- One iteration of the loop in `Filter::run` on what `recv.next()` returned —
src/filter/mod.rs:79-113.  `time::delay` is not modelled. -/
def FilterRun.step (p : Process F σ) (sources : Nat) (r : FilterRun F σ) :
    Option (Int × Event F) → FilterRun F σ
  | none => r
  | some (_, .shutdown) =>
    { r with sent := r.sent ++ [.shutdown], totalShutdowns := r.totalShutdowns + 1,
             finished := decide (r.totalShutdowns + 1 ≥ sources) }
  | some (now, event) =>
    match p now r.state event r.events with
    | (st, evs, .ok ()) => { r with state := st, events := [], sent := r.sent ++ evs }
    | (st, evs, .error fe) => { r with state := st, events := evs, sent := r.sent ++ [fe] }

/-- `Filter::run` — src/filter/mod.rs:69-114 on a sequence of receive results; stops
reading once it has returned.  The second component is what was left unread. -/
def FilterRun.run (p : Process F σ) (sources : Nat) (r : FilterRun F σ) :
    List (Option (Int × Event F)) → FilterRun F σ × List (Option (Int × Event F))
  | [] => (r, [])
  | i :: is => if r.finished then (r, i :: is) else run p sources (r.step p sources i) is

/-! ## Delay filter -/

/-- `DelayFilter::process` — src/filter/delay_filter.rs:53-80; the state is the
tolerance.  Simplification: `i64` subtraction does not overflow; the four counters
are not modelled. -/
def delayProcess : Process F Int := fun now tolerance event res =>
  match event with
  | .telemetry t =>
    if (t.timestamp - now).natAbs < tolerance then (tolerance, res ++ [.telemetry t], .ok ())
    else (tolerance, res, .ok ())
  | .log l =>
    if (l.time - now).natAbs < tolerance then (tolerance, res ++ [.log l], .ok ())
    else (tolerance, res, .ok ())
  | ev => (tolerance, res ++ [ev], .ok ())

/-! ## Flush boundary filter -/

/-- `Hold` — src/filter/flush_boundary_filter.rs:27-31. -/
structure Hold (F : Type) [F64 F] where
  timestamp : Int
  age : Nat
  events : List (Event F)

/-- `FlushBoundaryFilter` — src/filter/flush_boundary_filter.rs:10-13. -/
structure FlushBoundary (F : Type) [F64 F] where
  tolerance : Nat
  holds : List (Hold F) := []

/-- The loop over the aged holds — src/filter/flush_boundary_filter.rs:67-74:
(events appended to `res`, `too_new`). -/
def FlushBoundary.split (tolerance : Nat) : List (Hold F) → List (Event F) × List (Hold F)
  | [] => ([], [])
  | h :: hs =>
    let (out, tooNew) := split tolerance hs
    if h.age > tolerance then (h.events ++ out, tooNew) else (out, h :: tooNew)

/-- `FlushBoundaryFilter::process` — src/filter/flush_boundary_filter.rs:57-90. -/
def flushBoundaryProcess : Process F (FlushBoundary F) := fun _ s event res =>
  if event.isTimerFlush then
    let aged := s.holds.map fun h => { h with age := h.age + 1 }
    let (out, tooNew) := FlushBoundary.split s.tolerance aged
    ({ s with holds := tooNew }, res ++ out ++ [event], .ok ())
  else match event.timestamp with
  | none => (s, res, .ok ())
  | some ts =>
    match bsearch (fun h => compare h.timestamp ts) s.holds with
    | .ok idx =>
      ({ s with holds := s.holds.modify idx fun h => { h with events := h.events ++ [event] } },
        res, .ok ())
    | .err idx =>
      ({ s with holds := s.holds.insertIdx idx { timestamp := ts, age := 0, events := [event] } },
        res, .ok ())

/-! ## JSON encode filter -/

/-- The external functions the filter uses: `serde_json::from_str`,
`serde_json::to_string` on the final object, and `to_rfc3339` of a time.
Simplification: `NaiveDateTime::from_timestamp` panics far outside the calendar;
`rfc3339` is total here (`Verif.Model.JsonFilter` has the panic).  Used at src/filter/json_encode_filter.rs:68-129. -/
structure JsonExt where
  parse : Str → Option Json
  encode : JsonMap → Bytes
  rfc3339 : Int → Str

/-- The external functions as `serde_json` has them (`Verif.Model.Json`), for a conversion of numbers and a way to write times.  Used at src/filter/json_encode_filter.rs:68-129. -/
def JsonExt.serde (num : Str → Option Str) (rfc3339 : Int → Str) : JsonExt :=
  { parse := Json.fromStr num, encode := fun m => (Json.write (.obj m)).flatMap String.utf8EncodeChar, rfc3339 := rfc3339 }

/-- `JSONEncodeFilter` — src/filter/json_encode_filter.rs:36-39: parse flag and
default tags; `rand` is the stream of values `random()` will return and `drawn` how
many were used. -/
structure JsonEncode where
  parseLine : Bool
  tags : TagMap
  rand : Nat → Nat
  drawn : Nat := 0

/-- `merge_objects` — src/filter/json_encode_filter.rs:145-155. -/
def mergeObjects (objs : List JsonMap) : JsonMap :=
  objs.foldl (fun result obj => obj.foldl (fun result kv =>
    if result.any (fun r => r.1 = kv.1) then result else result ++ [kv]) result) []

/-- The object a line's text stands for — src/filter/json_encode_filter.rs:85-100. -/
def lineObject (x : JsonExt) (parseLine : Bool) (value : Str) : JsonMap :=
  match (if parseLine then x.parse value else none) with
  | some (.obj o) => o
  | _ => [(['m', 'e', 's', 's', 'a', 'g', 'e'], .str value)]

/-- The metadata object — src/filter/json_encode_filter.rs:75-81. -/
def metadataObject (x : JsonExt) (tags : TagMap) (l : LogLine) : JsonMap :=
  [(['t', 'i', 'm', 'e'], .str (x.rfc3339 l.time)),
   (['p', 'a', 't', 'h'], .str l.path),
   (['t', 'a', 'g', 's'], .obj ((tagIter l.tags tags).collect.map fun kv => (kv.1, .str kv.2)))]

/-- `JSONEncodeFilter::process` — src/filter/json_encode_filter.rs:68-129.  The
counters are not modelled. -/
def jsonProcess (x : JsonExt) : Process F JsonEncode := fun _ s event res =>
  match event with
  | .log l =>
    let value := mergeObjects [lineObject x s.parseLine l.value,
      l.fields.map fun kv => (kv.1, .str kv.2), metadataObject x s.tags l]
    ({ s with drawn := s.drawn + 1 },
      res ++ [.raw { orderBy := s.rand s.drawn, encoding := .json, bytes := x.encode value,
                     metadata := none, connectionId := none }], .ok ())
  | ev => (s, res ++ [ev], .ok ())

/-! ## Programmable filter -/

/-- `Payload` — src/filter/programmable_filter.rs:9-14 (the tags and path it borrows
are those of the filter). -/
structure Payload (F : Type) [F64 F] where
  metrics : List (Telemetry F)
  logs : List LogLine

/-- The outcome of calling a Lua global with a payload:
no such function, a Lua error, or the payload as the script left it — src/filter/programmable_filter.rs:576-618. -/
inductive LuaResult (F : Type) [F64 F] where
  | noSuchFunction
  | error
  | ok (p : Payload F)

/-- Which function of the script is called — src/filter/programmable_filter.rs:535-573. -/
inductive LuaFn where
  | processMetric | processLog | tick
deriving DecidableEq

/-- `ProgrammableFilter` — src/filter/programmable_filter.rs:434-439.  The Lua state is
an arbitrary type `L`; `ticks` is a ghost log of the flush indices for which the
script's `tick` was actually called. -/
structure Programmable (F : Type) [F64 F] (L : Type) where
  lua : L
  lastFlushIdx : Nat := 0
  ticks : List Nat := []

/-- The script: how a call transforms the Lua state and payload.  External (Lua).  Run by src/filter/programmable_filter.rs:576-618. -/
abbrev Script (F : Type) [F64 F] (L : Type) := L → LuaFn → Payload F → L × LuaResult F

/-- `run_lua_func` — src/filter/programmable_filter.rs:576-618.  `fail fn` is the
failure counter event built at 582-588. -/
def runLua {L : Type} (script : Script F L) (fail : LuaFn → Event F) (l : L) (fn : LuaFn)
    (res : List (Event F)) (pyld : Payload F) :
    L × List (Event F) × Except (Event F) Unit :=
  match script l fn pyld with
  | (l', .noSuchFunction) => (l', res, .error (fail fn))
  | (l', .error) => (l', res, .error (fail fn))
  | (l', .ok p) => (l', res ++ p.logs.map .log ++ p.metrics.map .telemetry, .ok ())

/-- Was the function called at all? — src/filter/programmable_filter.rs:576-618. -/
def LuaResult.called : LuaResult F → Bool
  | .noSuchFunction => false
  | _ => true

/-- `ProgrammableFilter::process` — src/filter/programmable_filter.rs:535-573. -/
def programmableProcess {L : Type} (script : Script F L) (fail : LuaFn → Event F) :
    Process F (Programmable F L) := fun _ s event res =>
  match event with
  | .telemetry m =>
    let (l, res', r) := runLua script fail s.lua .processMetric res ⟨[m], []⟩
    ({ s with lua := l }, res', r)
  | .timerFlush idx =>
    if s.lastFlushIdx ≥ idx then (s, res, .ok ())
    else
      let (l, res', r) := runLua script fail s.lua .tick res ⟨[], []⟩
      let last := match r with
        | .ok () => idx
        | .error _ => s.lastFlushIdx
      let ticks := if (script s.lua .tick ⟨[], []⟩).2.called then s.ticks ++ [idx] else s.ticks
      ({ s with lua := l, lastFlushIdx := last, ticks := ticks }, res' ++ [event], r)
  | .log l =>
    let (l', res', r) := runLua script fail s.lua .processLog res ⟨[], [l]⟩
    ({ s with lua := l' }, res', r)
  | .raw r => (s, res ++ [.raw r], .ok ())
  | .shutdown => (s, res ++ [.shutdown], .ok ())

end
end Verif
