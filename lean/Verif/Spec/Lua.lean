import Verif.Model.Lua
/-!
# Specification vocabulary for scripts (C94-C96)
-/
namespace Verif
namespace Lua

/-- Index `n` addresses position `i` of a sequence: counted from 1, or from the end if negative. -/
def Addresses (n : Int) (len i : Nat) : Prop := i < len ∧ (n = (i : Int) + 1 ∨ n = (i : Int) - (len : Int))

/-- A 64-bit integer. -/
def IsI64 (n : Int) : Prop := -2 ^ 63 ≤ n ∧ n < 2 ^ 63

/-- The value of a tag of one's own. -/
def ownTag (tags : Option TagMap) (k : Str) : Option Str := tags.bind (·.get k)

/-- What a call is about. -/
inductive Target (F : Type) where
  | payload
  | metric (i : Val F)
  | log (i : Val F)

section
variable {F : Type} [F64 F]

/-- The element a call is about, if any. -/
def Call.target : Call F → Target F
  | .clearLogs | .clearMetrics | .pushLog _ | .pushMetric _ _ => .payload
  | .setMetricName i _ | .metricRemoveTag i _ | .metricSetTag i _ _ | .metricTagValue i _ | .metricName i => .metric i
  | .metricQuery a _ => .metric a
  | .logRemoveTag i _ | .logSetTag i _ _ | .logTagValue i _ | .logSetField i _ _ | .logSetValue i _
  | .logFieldValue i _ | .logValue i | .logPath i => .log i

/-- The strings a call needs. -/
def Call.strings : Call F → List (Val F)
  | .setMetricName _ s | .logRemoveTag _ s | .logTagValue _ s | .logSetValue _ s | .logFieldValue _ s
  | .metricRemoveTag _ s | .metricTagValue _ s | .pushLog s | .pushMetric s _ => [s]
  | .logSetTag _ s t | .logSetField _ s t | .metricSetTag _ s t => [s, t]
  | .clearLogs | .clearMetrics | .metricQuery _ _ | .logValue _ | .logPath _ | .metricName _ => []

/-- The target does not exist. -/
def Target.missing (c : Conv F) (p : Payload F) : Target F → Prop
  | .payload => False
  | .metric i => ¬ ∃ k, Addresses (c.toInteger i) p.metrics.length k
  | .log i => ¬ ∃ k, Addresses (c.toInteger i) p.logs.length k

/-- A metric that differs at most in name and tags. -/
def Retouched (m m' : Telemetry F) : Prop := m' = { m with name := m'.name, tags := m'.tags }

/-- A log line that differs at most in value, fields and tags. -/
def RetouchedLog (l l' : LogLine) : Prop := l' = { l with value := l'.value, fields := l'.fields, tags := l'.tags }

/-- A metric made by a script: a value of kind `set` that is not kept across time bins. -/
def MadeMetric (m : Telemetry F) : Prop :=
  (∃ x, m.value = .set x) ∧ m.persist = false ∧ m.overrideCount = none ∧ m.overrideSampleSum = none

/-- A script has left of `old` what is `new`: first the old elements, retouched, or none of them; then elements it
made. -/
def Left {α : Type} (retouched : α → α → Prop) (made : α → Prop) (old new : List α) : Prop :=
  ∃ kept added, new = kept ++ added ∧ (∀ x ∈ added, made x) ∧
    (kept = [] ∨ kept.length = old.length ∧ ∀ (i : Nat) (a b : α), old[i]? = some a → kept[i]? = some b → retouched a b)

/-- A call of the script failed: the function is missing or raises an error. -/
def failed : LuaResult F → Bool
  | .ok _ => false
  | _ => true

/-- The results of the script's calls over a sequence of events. -/
def results {L : Type} (script : Script F L) (fail : LuaFn → Event F) : Programmable F L → List (Event F) → List (LuaResult F)
  | _, [] => []
  | s, e :: es =>
    (match e with
      | .telemetry m => [(script s.lua .processMetric ⟨[m], []⟩).2]
      | .log l => [(script s.lua .processLog ⟨[], [l]⟩).2]
      | .timerFlush i => if i ≤ s.lastFlushIdx then [] else [(script s.lua .tick ⟨[], []⟩).2]
      | .raw _ | .shutdown => []) ++
    results script fail (programmableProcess script fail 0 s e []).1 es

end
end Lua
end Verif
