import Verif.Spec.Crash
import Verif.Spec.Startup
/-!
# Specification vocabulary for processes that come up with dead threads (C144)
-/
namespace Verif.DeadStart
open Crash
open Topology (Wiring)
variable {F : Type} [F64 F]

/-- The thread panics before it has done anything. -/
def DiesFirst (ls : Nat → Label F) (x : Thread) : Prop :=
  ∃ t0, ls t0 = .crash x ∧ ∀ t < t0, ∀ l, ls t = .net l → actor l ≠ some x

/-- The thread of a filter or source of this name. -/
def IsThread (w : Wiring) (n : Str) : Thread → Prop
  | .node m => m = n ∧ n ∈ w.filters.map (·.1)
  | .source i => (w.sources.map (·.1))[i]? = some n

/-- A history of a process that came up like this: the threads that are dead from the start panic before they have done anything, and no others. -/
structure After (s : Startup.Started) (ls : Nat → Label F) : Prop where
  dead : ∀ n ∈ s.dead, ∀ x, IsThread s.wiring n x → DiesFirst ls x
  only : ∀ t x, ls t = .crash x → ∃ n ∈ s.dead, IsThread s.wiring n x

end Verif.DeadStart
