import Verif.Model.Num
/-!
# What is logged

The verbosity of the command line (src/config.rs `parse_args`, src/bin/cernan.rs:77-107) and the filter on the messages of librdkafka
(src/sink/kafka.rs:30-72).  Simplifications: `clap` and `fern` are external; a record passes if its level is at most the configured one.
-/
namespace Verif
namespace Logging

/-- `log::Level` and `log::LevelFilter`, from 1 (error) to 5 (trace).  Used at src/bin/cernan.rs:83-89. -/
inductive Level where
  | error | warn | info | debug | trace
deriving DecidableEq

/-- The order of levels in the `log` crate.  Used at src/bin/cernan.rs:103. -/
def Level.rank : Level → Nat
  | .error => 1
  | .warn => 2
  | .info => 3
  | .debug => 4
  | .trace => 5

/-- `RDKafkaLogLevel` — src/sink/kafka.rs:46-63. -/
inductive Severity where
  | emerg | alert | critical | error | warning | notice | info | debug

/-- The level for a number of `-v` — src/bin/cernan.rs:83-89. -/
def level : Nat → Level
  | 0 => .error
  | 1 => .warn
  | 2 => .info
  | 3 => .debug
  | _ => .trace

/-- `str::matches(pattern).collect()`: the places of matches that do not overlap, from left to right; the first argument is fuel.  Used at
src/sink/kafka.rs:34-35. -/
def places (pattern : Str) : Nat → Nat → Str → List Nat
  | 0, _, _ => []
  | n + 1, i, s =>
    if pattern.isPrefixOf s then i :: places pattern n (i + pattern.length) (s.drop pattern.length)
    else match s with
      | [] => []
      | _ :: s => places pattern n (i + 1) s

/-- `should_emit_message` — src/sink/kafka.rs:31-37. -/
def shouldEmit (message : Str) : Bool := (places "Receive failed: Disconnected".toList (message.length + 1) 0 message).isEmpty

/-- The level librdkafka's severities are logged at — src/sink/kafka.rs:45-63. -/
def recordLevel : Severity → Level
  | .emerg | .alert | .critical | .error => .error
  | .warning => .warn
  | .notice | .info => .info
  | .debug => .debug

/-- Does a record of this level pass `fern`'s `level` — src/bin/cernan.rs:103? -/
def passes (verbose : Nat) (l : Level) : Bool := l.rank ≤ (level verbose).rank

/-- `STFUContext::log` — src/sink/kafka.rs:40-63: is the message written? -/
def logged (verbose : Nat) (s : Severity) (message : Str) : Bool := shouldEmit message && passes verbose (recordLevel s)

/-- `STFUContext::error` — src/sink/kafka.rs:66-71: is the error written? -/
def errorLogged (verbose : Nat) (reason : Str) : Bool := shouldEmit reason && passes verbose .error

end Logging
end Verif
