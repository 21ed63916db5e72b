import Verif.Spec.Crash
/-!
# Specification vocabulary for how a process ends (C150)
-/
namespace Verif.Crash
variable {F : Type} [F64 F]

/-- The order in which `main` waits for threads: sources as it shuts them down (src/bin/cernan.rs:800-803), then sinks and filters (src/bin/cernan.rs:805-806). -/
def waitOrder (p : Net.Setup F) : List Thread := p.stopOrder.map .source ++ p.joinOrder.map .node

/-- The first thread in that order that never returns. -/
def FirstStuck (p : Net.Setup F) (ls : Nat → Label F) (x : Thread) : Prop :=
  ∃ before after, waitOrder p = before ++ x :: after ∧ (∀ y ∈ before, ∃ t, Finished (run p ls t) y) ∧ ∀ t, ¬ Finished (run p ls t) x

end Verif.Crash
