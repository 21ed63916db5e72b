import Verif.Model.Telemetry
/-!
# Events and log lines

Models src/metric/event.rs and src/metric/logline.rs.
-/
namespace Verif

/-- `Encoding` — src/metric/event.rs:7-14. -/
inductive Encoding where
  | raw | avro | json
deriving DecidableEq, Repr

/-- bytes.  `Vec<u8>` of src/metric/event.rs:26-54. -/
abbrev Bytes := List UInt8

/-- `Metadata` — src/metric/event.rs:17; the list is the iteration order. -/
abbrev Metadata := List (Bytes × Bytes)

/-- `LogLine` — src/metric/logline.rs:7-19. -/
structure LogLine where
  time : Int
  path : Str
  value : Str
  fields : TagMap
  tags : Option TagMap
deriving DecidableEq

/-- `LogLine::new` — src/metric/logline.rs:30-41; `now` is `time::now()`. -/
def LogLine.new (now : Int) (path value : Str) : LogLine :=
  { time := now, path := path, value := value, fields := [], tags := none }

/-- `LogLine::overlay_tags_from_map` — src/metric/logline.rs:121-130. -/
def LogLine.overlayTagsFromMap (l : LogLine) (m : TagMap) : LogLine :=
  { l with tags := overlayTags l.tags m }

/-- `Event::Raw` — src/metric/event.rs:42-53; a connection id (`Uuid`) is a number. -/
structure RawEvent where
  orderBy : Nat
  encoding : Encoding
  bytes : Bytes
  metadata : Option Metadata
  connectionId : Option Nat
deriving DecidableEq

/-- `Event` — src/metric/event.rs:26-54. -/
inductive Event (F : Type) [F64 F] where
  | telemetry (t : Telemetry F)
  | log (l : LogLine)
  | timerFlush (idx : Nat)
  | shutdown
  | raw (r : RawEvent)

section
variable {F : Type} [F64 F]

/-- Decidable equality, used only in examples (Rust: `derive(PartialEq)`) — src/metric/event.rs:26-54. -/
instance [DecidableEq F] [DecidableEq (F64.Hist F)] [DecidableEq (F64.Ckms F)] :
    DecidableEq (Event F)
  | .telemetry a, .telemetry b => decidable_of_iff (a = b) (by simp)
  | .log a, .log b => decidable_of_iff (a = b) (by simp)
  | .timerFlush a, .timerFlush b => decidable_of_iff (a = b) (by simp)
  | .shutdown, .shutdown => isTrue rfl
  | .raw a, .raw b => decidable_of_iff (a = b) (by simp)
  | .telemetry _, .log _ | .telemetry _, .timerFlush _ | .telemetry _, .shutdown
  | .telemetry _, .raw _ | .log _, .telemetry _ | .log _, .timerFlush _ | .log _, .shutdown
  | .log _, .raw _ | .timerFlush _, .telemetry _ | .timerFlush _, .log _
  | .timerFlush _, .shutdown | .timerFlush _, .raw _ | .shutdown, .telemetry _
  | .shutdown, .log _ | .shutdown, .timerFlush _ | .shutdown, .raw _ | .raw _, .telemetry _
  | .raw _, .log _ | .raw _, .timerFlush _ | .raw _, .shutdown => isFalse (by simp)

/-- `Event::is_timer_flush` — src/metric/event.rs:58-63. -/
def Event.isTimerFlush : Event F → Bool
  | .timerFlush _ => true
  | _ => false

/-- `Event::timestamp` — src/metric/event.rs:68-74. -/
def Event.timestamp : Event F → Option Int
  | .telemetry t => some t.timestamp
  | .log l => some l.time
  | .timerFlush _ | .shutdown | .raw _ => none

end
end Verif
