import Verif.Model.Send
import Verif.Model.Event
/-!
# The flush timer

Models src/source/flush.rs.
-/
namespace Verif
namespace FlushTimer
variable {F : Type} [F64 F]

/-- The loop of `FlushTimer::run` — src/source/flush.rs:41-48: `n` further turns with the counter
at `idx`.  Simplification: sleeping is not modelled, and the `u64` does not overflow. -/
def loop (chans : List (Chan (Event F))) (idx : Nat) : Nat → List (Chan (Event F))
  | 0 => chans
  | n + 1 => loop (send chans (.timerFlush (idx + 1))).1 (idx + 1) n

/-- `FlushTimer::run` — src/source/flush.rs:31-48: the state of the channels after `n` turns. -/
def run (chans : List (Chan (Event F))) (n : Nat) : List (Chan (Event F)) := loop chans 0 n

end FlushTimer
end Verif
