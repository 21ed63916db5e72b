import Verif.Model.Scripts
/-!
# Specification vocabulary for the example scripts (C108)
-/
namespace Verif
namespace Lua
variable {F : Type} [F64 F]

/-- Conversions do what they should on numbers and strings. -/
structure Plain (c : Conv F) : Prop where
  str : ∀ s, c.toStr (.str s) = some s
  num : ∀ x, c.toNumber (.num x) = x
  one : c.toInteger (.num (F64.ofNat 1)) = 1

/-- The payloads the filter calls a script's functions with: one metric, one line, or nothing. -/
def Given : LuaFn → Payload F → Prop
  | .processMetric, p => ∃ m, p = ⟨[m], []⟩
  | .processLog, p => ∃ l, p = ⟨[], [l]⟩
  | .tick, p => p = ⟨[], []⟩

/-- A filter after it has received events, each with the time. -/
def received {σ : Type} (p : Process F σ) (sources : Nat) (start : σ) (hist : List (Int × Event F)) : FilterRun F σ :=
  hist.foldl (fun r i => r.step p sources (some i)) { state := start }

/-- A flush with a higher index than every flush before it (there is no flush 0). -/
def NewFlush (hist : List (Int × Event F)) (i : Nat) : Prop := 0 < i ∧ ∀ t j, (t, Event.timerFlush j) ∈ hist → j < i

/-- `since` is what came after the last new flush, or everything if there was none. -/
def SinceFlush (hist since : List (Int × Event F)) : Prop :=
  (hist = since ∧ ∀ t j, (t, Event.timerFlush j) ∈ since → j = 0) ∨
  ∃ before t i, hist = before ++ (t, .timerFlush i) :: since ∧ NewFlush before i ∧ ∀ t j, (t, Event.timerFlush j) ∈ since → j ≤ i

/-- Metrics and lines. -/
def isCounted : Int × Event F → Bool
  | (_, .telemetry _) | (_, .log _) => true
  | _ => false

/-- Counting on from `x` to `x + k` in floating point. -/
def countOn (x : F) : Nat → F
  | 0 => x
  | k + 1 => countOn (F64.add x (F64.ofNat 1)) k

/-- The number of metrics and lines, in floating point. -/
def counted (es : List (Int × Event F)) : F := countOn (F64.ofNat 0) (es.countP isCounted)

/-- What a counting script sends at a new flush: a line, a metric and the flush. -/
def Report (text : F → Str) (name : Str) (env : Env) (now : Int) (count : F) (i : Nat) (sent : List (Event F)) : Prop :=
  ∃ line metric, sent = [.log line, .telemetry metric, .timerFlush i] ∧
    metric.name = name ∧ metric.value = .set count ∧ metric.timestamp = now ∧
    line.value = "count_per_tick: ".toList ++ text count ∧ line.path = env.path ∧ line.time = now

/-- A letter, a digit or an underscore. -/
def WordChar (c : Char) : Prop :=
  ('a' ≤ c ∧ c ≤ 'z') ∨ ('A' ≤ c ∧ c ≤ 'Z') ∨ ('0' ≤ c ∧ c ≤ '9') ∨ c = '_'

/-- The name of a host at the start of a collectd metric: `collectd`, a dot or at sign, a word, and the rest, which does not go on
with a word. -/
def HasHost (name host rest : Str) : Prop :=
  ∃ c, (c = '.' ∨ c = '@') ∧ name = "collectd".toList ++ c :: host ++ rest ∧ host ≠ [] ∧ (∀ c ∈ host, WordChar c) ∧
    ∀ c ∈ rest.head?, ¬ WordChar c

end Lua
end Verif
