import Verif.Model.Sink
import Verif.Model.Elasticsearch
import Verif.Model.Influxdb
import Verif.Model.Native
import Verif.Model.Kafka
import Verif.Model.Console
/-!
# The sinks as implementations of the `Sink` trait

Puts the models of the sinks under the run-loop of `Verif.Model.Sink`.  A state is `none` once a call
has panicked or will never return; nothing happens after that.  What the outside world does is given
in advance, as a function of how many calls were made before.
-/
namespace Verif

section
variable {F : Type} [F64 F]

/-- A sink under the run-loop: its state, the number of calls so far, and what its flushes have done,
oldest first — src/sink/mod.rs:80-196. -/
structure Hosted (σ ω : Type) where
  state : σ
  calls : Nat := 0
  log : List ω := []

/-- `Null` — src/sink/null.rs:25-44; every `deliver` is the default one (src/sink/mod.rs:232-252). -/
def nullImpl : SinkImpl F Unit :=
  { valveOpen := fun _ => true, flushInterval := fun _ => some 1, deliver := fun s _ => s,
    deliverLine := fun s _ => s, deliverRaw := fun s _ => s, flush := id, shutdown := id }

/-- `Sink for Elasticsearch` — src/sink/elasticsearch.rs:160-357; points and raw events are ignored
(src/sink/mod.rs:232-252).  The log has the lines buffered before each flush, and the answer. -/
def elasticImpl (ext : Elastic.Ext) (interval : Nat) (resps : Nat → Elastic.Response)
    (uuids : Nat → Nat) :
    SinkImpl F (Option (Hosted Elastic.State (List Elastic.Line × Elastic.Response))) :=
  let flush := fun s => s.bind fun h => (Elastic.flush ext h.state (resps h.calls)).map fun (s, _) =>
    { state := s, calls := h.calls + 1, log := h.log ++ [(h.state.buffer, resps h.calls)] }
  { valveOpen := fun s => (s.map fun h => Elastic.valveOpen h.state).getD false
    flushInterval := fun _ => some interval
    deliver := fun s _ => s
    deliverLine := fun s l => s.map fun h =>
      { h with state := Elastic.deliverLine h.state (uuids h.calls) l, calls := h.calls + 1 }
    deliverRaw := fun s _ => s
    flush := flush
    shutdown := flush }

/-- `Sink for InfluxDB` — src/sink/influxdb.rs:203-296; lines and raw events are ignored.  The log has the
points of each completed flush and what was done on the wire. -/
def influxImpl (ext : Wavefront.Ext F) (interval : Nat) (os : Nat → List Influx.Outcome) :
    SinkImpl F (Option (Hosted (Influx.State F) (List (Telemetry F) × List Influx.Wire))) :=
  let flush := fun s => s.bind fun h => match Influx.flush ext h.state (os h.calls) with
    | some (s, wire, true) =>
      some { state := s, calls := h.calls + 1, log := h.log ++ [(h.state.aggrs, wire)] }
    | _ => none
  { valveOpen := fun s => (s.map fun h => Influx.valveOpen h.state).getD false
    flushInterval := fun _ => some interval
    deliver := fun s t => s.map fun h => { h with state := Influx.deliver h.state t, calls := h.calls + 1 }
    deliverLine := fun s _ => s
    deliverRaw := fun s _ => s
    flush := flush
    shutdown := flush }

/-- `Sink for Native` — src/sink/native.rs:91-208; raw events are ignored, the valve is the default one
(src/sink/mod.rs:227-230).  The log has the events of each completed flush and what was done. -/
def nativeImpl (bits : Native.Bits F) (interval : Nat) (os : Nat → List Bool) :
    SinkImpl F (Option (Hosted (Native.Sink F) (List (Event F) × List Native.Act))) :=
  let flush := fun s => s.bind fun h => match h.state.flush bits (os h.calls) with
    | (s, acts, true) => some { state := s, calls := h.calls + 1, log := h.log ++ [(h.state.buffer, acts)] }
    | _ => none
  { valveOpen := fun s => s.isSome
    flushInterval := fun _ => some interval
    deliver := fun s t => s.map fun h =>
      { h with state := h.state.deliver (.telemetry t), calls := h.calls + 1 }
    deliverLine := fun s l => s.map fun h =>
      { h with state := h.state.deliver (.log l), calls := h.calls + 1 }
    deliverRaw := fun s _ => s
    flush := flush
    shutdown := flush }

/-- `Sink for Wavefront` — src/sink/wavefront.rs:581-664; lines and raw events are ignored.  `clock` gives
the time of each call. -/
def wavefrontImpl (ext : Wavefront.Ext F) (interval : Nat) (clock : Nat → Int)
    (os : Nat → List Wavefront.Io) : SinkImpl F (Option (Hosted (Wavefront.State F) (List Wavefront.Wire))) :=
  let flush := fun s => s.bind fun h => match h.state.flush ext (clock h.calls) (os h.calls) with
    | some (s, wire, true) => some { state := s, calls := h.calls + 1, log := h.log ++ [wire] }
    | _ => none
  { valveOpen := fun s => (s.map fun h => h.state.valveOpen).getD false
    flushInterval := fun _ => some interval
    deliver := fun s t => s.bind fun h => (h.state.deliver ext (clock h.calls) t).map fun s =>
      { h with state := s, calls := h.calls + 1 }
    deliverLine := fun s _ => s
    deliverRaw := fun s _ => s
    flush := flush
    shutdown := flush }

/-- `Sink for Kafka` — src/sink/kafka.rs:271-375; points and lines are ignored.  The state carries its own
script of outcomes. -/
def kafkaImpl (utf8 : Bytes → Bool) (interval : Nat) : SinkImpl F (Option Kafka) :=
  { valveOpen := fun s => (s.map Kafka.valveOpen).getD false
    flushInterval := fun _ => some interval
    deliver := fun s _ => s
    deliverLine := fun s _ => s
    deliverRaw := fun s r => s.bind fun k => k.deliverRaw utf8 r
    flush := fun s => s.bind fun k => k.flush utf8
    shutdown := fun s => s.bind fun k => k.flush utf8 }

/-- `Sink for Console` — src/sink/console.rs:68-201; raw events are ignored.  The log has the lines of
each flush and the text printed. -/
def consoleImpl (ext : Console.Ext F) (interval : Nat) (clock : Nat → Int) (stamps : Nat → Str × Str) :
    SinkImpl F (Option (Hosted (Console.State F) (List LogLine × Str))) :=
  let flush := fun s => s.bind fun h =>
    (Console.flush ext (clock h.calls) (stamps h.calls) h.state).map fun (s, text) =>
      { state := s, calls := h.calls + 1, log := h.log ++ [(h.state.buffer, text)] }
  { valveOpen := fun s => s.isSome
    flushInterval := fun _ => some interval
    deliver := fun s t => s.bind fun h => (Console.deliver ext (clock h.calls) h.state t).map fun s =>
      { h with state := s, calls := h.calls + 1 }
    deliverLine := fun s l => s.map fun h => { h with state := Console.deliverLine h.state l }
    deliverRaw := fun s _ => s
    flush := flush
    shutdown := flush }

end
end Verif
