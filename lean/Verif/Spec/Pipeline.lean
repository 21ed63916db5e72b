import Verif.Model.Pipeline
import Verif.Spec.Sink
/-!
# Specification vocabulary for the pipeline (C63, C84)
-/
namespace Verif
namespace Pipeline
variable {F : Type} [F64 F] {κ : Type}

/-- What a chain of filters makes of a finite sequence of events, each filter processing its input
one event after the other; `clocks` gives, for every filter, the times it processes them at. -/
inductive Through : List (FilterCode F) → List (Event F) → List (Event F) → Prop where
  | done (es) : Through [] es es
  | filter (f fs es) (clock : List Int) (out) : clock.length = es.length →
      Through fs (expectedSent f.process f.start ((clock.zip es).map some)) out →
      Through (f :: fs) es out

/-- Not a pulse of the timer. -/
def notPulse (e : Event F) : Bool := !e.isTimerFlush

/-- An event a source sends before it shuts down. -/
def Sendable (e : Event F) : Prop := e.isShutdown = false ∧ e.isTimerFlush = false

/-- A filter that handles each event on its own (`Tidy`) and never makes up a `Shutdown`. -/
structure Proper (f : FilterCode F) : Prop where
  tidy : Tidy f.process
  keeps : ∀ ins : List (Int × Event F), (∀ i ∈ ins, i.2.isShutdown = false) →
    ∀ e ∈ expectedSent f.process f.start (ins.map some), e.isShutdown = false

/-- `input` is an interleaving of what the sources have sent of `evs` so far, leaving `left`, and pulses
of the timer: `tagged` says which source each event comes from. -/
def Interleaved (evs left : List (List (Event F))) (input : List (Event F)) : Prop :=
  ∃ tagged : List (Option Nat × Event F), tagged.map Prod.snd = input ∧
    (∀ t ∈ tagged, t.1 = none → t.2.isTimerFlush = true) ∧
    left.length = evs.length ∧
    ∀ i, evs[i]?.getD [] = (tagged.filter (·.1 == some i)).map Prod.snd ++ left[i]?.getD []

end Pipeline
end Verif
