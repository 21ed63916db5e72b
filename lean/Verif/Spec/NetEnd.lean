import Verif.Spec.NetFlow
/-!
# Specification vocabulary for a process that is told to stop (C92, C123)
-/
namespace Verif
namespace Net
open Topology
section
variable {F : Type} [F64 F]

/-- A process that has been set up, all of whose sinks and filters are fed by sources; no queue is ever full, flushing opens the sinks' valves, every
thread gets its turn again and again, and a signal comes. -/
structure Ending (c : Config) (p : Setup F) (ls : Nat → Label F) : Prop where
  distinct : Distinct c
  setUp : SetUp c p
  fed : ∀ n, HasChannel c n → Fed c n
  room : ∀ n k, p.full n k = false
  reopen : ∀ n ∈ c.sinks, ValveReopens p ls n
  fair : Fair p ls
  signal : ∃ t, ls t = .signal

end
end Net
end Verif
