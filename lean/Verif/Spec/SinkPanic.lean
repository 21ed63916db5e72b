import Verif.Spec.Crash
import Verif.Model.SinkImpls
import Verif.Model.Date
/-!
# Specification vocabulary for sinks that panic (C149)
-/
namespace Verif.SinkPanic
open Crash
variable {F : Type} [F64 F]

/-- Threads panic as the code of the sinks has it: no thread does but a sink whose next step is a panic, and each whose next step is one does.  `panicked` says
which states of a sink stand for a panic: the models of the sinks have `none` for it. -/
structure Governed (p : Net.Setup F) (ls : Nat → Label F) (panicked : ∀ n, (p.sink n).κ → Prop) : Prop where
  start : ∀ n, ¬ panicked n (p.sink n).start
  only : ∀ t x, ls t = .crash x → ∃ n m r, x = .node n ∧ (run p ls t).net.nodes n = some (.sink (p.sink n) m r) ∧
    panicked n (r.step (p.sink n).impl m).state
  always : ∀ t n now m r, ls t = .net (.act n now) → (run p ls t).aborted = false → .node n ∉ (run p ls t).dead →
    (run p ls t).net.nodes n = some (.sink (p.sink n) m r) → ¬ panicked n (r.step (p.sink n).impl m).state

/-- The sinks that write the time of a line as a date, as they start, and their panicked state. -/
inductive WritesDates : (k : Net.SinkCode F) → (k.κ → Prop) → Prop where
  | console (ext : Console.Ext F) (interval : Nat) (clock : Nat → Int) (stamps : Nat → Str × Str) (binWidth : Int) (tags : TagMap) (h : ext.time = Chrono.consoleTime) :
      WritesDates ⟨_, consoleImpl ext interval clock stamps, some { state := Console.init binWidth tags }⟩ (fun s => s = none)
  | elasticsearch (showId : Nat → Str) (interval : Nat) (resps : Nat → Elastic.Response) (uuids : Nat → Nat) (limit : Nat) (pfx : Option Str) (type : Str)
      (tags : TagMap) :
      WritesDates ⟨_, elasticImpl (Elastic.chrono showId) interval resps uuids, some { state := Elastic.init limit pfx type tags }⟩ (fun s => s = none)

/-- At some time the sink's queue has accepted this line, and no `Shutdown` before it. -/
def Accepted (p : Net.Setup F) (ls : Nat → Label F) (n : Str) (l : LogLine) : Prop :=
  ∃ t pre x post, (run p ls t).net.log n = pre ++ (x, .log l) :: post ∧ ∀ y ∈ pre, y.2.isShutdown = false

end Verif.SinkPanic
