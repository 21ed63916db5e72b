import Verif.Spec.Crash
import Verif.Spec.JsonFilter
/-!
# Specification vocabulary for filters that panic at what they read (C148)
-/
namespace Verif.FilterPanic
open Crash
variable {F : Type} [F64 F]

/-- What the filter reads next: the head of its queue, unless it has returned. -/
def next (s : State F) (f : Str) : Option (Event F) :=
  match s.net.nodes f with
  | some (.filter _ _ _ (e :: _) r) => if r.finished then none else some e
  | _ => none

/-- Threads panic as the code of the filters has it: no thread does but a filter that reads an event it cannot deal with (`bad`), and each that reads
one does. -/
structure Governed (p : Net.Setup F) (ls : Nat → Label F) (bad : Str → Event F → Prop) : Prop where
  only : ∀ t x, ls t = .crash x → ∃ f e, x = .node f ∧ next (run p ls t) f = some e ∧ bad f e
  always : ∀ t f now e, ls t = .net (.act f now) → (run p ls t).aborted = false → .node f ∉ (run p ls t).dead →
    next (run p ls t) f = some e → ¬ bad f e

/-- At some time the filter's queue has accepted an event it cannot deal with, and no `Shutdown` before that. -/
def Poisoned (p : Net.Setup F) (ls : Nat → Label F) (bad : Str → Event F → Prop) (f : Str) : Prop :=
  ∃ t pre x post, (run p ls t).net.log f = pre ++ x :: post ∧ bad f x.2 ∧ ∀ y ∈ pre, y.2.isShutdown = false

/-- What a JSON-encoding filter cannot deal with: a line with a time outside the calendar (C131).  `json` says which filters are such. -/
def OutOfCalendar (json : Str → Prop) (f : Str) (e : Event F) : Prop := json f ∧ ∃ l, e = .log l ∧ ¬ JsonFilter.InCalendar l.time

end Verif.FilterPanic
