import Verif.Model.Filter
/-!
# What a script can do: the payload library of the programmable filter

src/filter/programmable_filter.rs:16-22 and 60-428.  The Lua interpreter is external: a script's function is a tree (`Prog`) that
calls the library, gets an answer and goes on.  Its first argument is always the payload it was given (a script
that passes anything else makes the library follow a stray pointer; not modelled).  Overflow is that of a release
build: it wraps.
-/
namespace Verif
namespace Lua

/-- What a script passes as an argument; a missing argument is `nil`.  For the library at src/filter/programmable_filter.rs:60-431. -/
inductive Val (F : Type) where
  | nil
  | num (x : F)
  | str (s : Str)
  | other

/-- Conversions of the Lua library — `lua_tointeger`, `lua_tonumber`, `lua_tostring`.  External.  For the library at src/filter/programmable_filter.rs:60-431. -/
structure Conv (F : Type) where
  toInteger : Val F → Int
  toNumber : Val F → F
  toStr : Val F → Option Str

/-- A call of the library, by the name it has in scripts — `PAYLOAD_LIB`, src/filter/programmable_filter.rs:400-428;
arguments after the payload. -/
inductive Call (F : Type) where
  | setMetricName (i name : Val F)
  | clearLogs
  | clearMetrics
  | logRemoveTag (i key : Val F)
  | logSetTag (i key val : Val F)
  | logTagValue (i key : Val F)
  | logSetField (i key val : Val F)
  | logSetValue (i val : Val F)
  | logFieldValue (i key : Val F)
  | logValue (i : Val F)
  | logPath (i : Val F)
  | metricQuery (a b : Val F)
  | metricRemoveTag (i key : Val F)
  | metricSetTag (i key val : Val F)
  | metricTagValue (i key : Val F)
  | pushLog (line : Val F)
  | pushMetric (name val : Val F)
  | metricName (i : Val F)

/-- What a call returns to the script: nothing, `nil`, a string or a number.  For the library at src/filter/programmable_filter.rs:60-431. -/
inductive Ret (F : Type) where
  | nothing
  | nil
  | str (s : Str)
  | num (x : F)

/-- `push_string` if there is one, else `push_nil`.  For the library at src/filter/programmable_filter.rs:60-431. -/
def Ret.ofStr {F : Type} : Option Str → Ret F
  | some s => .str s
  | none => .nil

/-- The outcome of a call: the thread panics, a Lua error is raised, or the call returns.  For the library at src/filter/programmable_filter.rs:60-431. -/
inductive Out (F : Type) [F64 F] where
  | panic
  | luaError
  | ok (p : Payload F) (r : Ret F)

/-- What the filter lends to the payload — src/filter/programmable_filter.rs:12-13. -/
structure Env where
  globalTags : TagMap
  path : Str

/-- `idx` — src/filter/programmable_filter.rs:16-22, in 64-bit arithmetic. -/
def idx (n : Int) (top : Nat) : Nat :=
  if n < 0 then (((top : Int) - (n.natAbs : Int)) % 2 ^ 64).toNat else ((n - 1) % 2 ^ 64).toNat

section
variable {F : Type} [F64 F]

/-- `metrics[idx]`, panicking if out of bounds, with a continuation that may replace the element.  For the library at src/filter/programmable_filter.rs:60-431. -/
def onMetric (c : Conv F) (p : Payload F) (i : Val F) (f : Telemetry F → Telemetry F × Ret F) : Out F :=
  let k := idx (c.toInteger i) p.metrics.length
  match p.metrics[k]? with
  | none => .panic
  | some m => .ok { p with metrics := p.metrics.set k (f m).1 } (f m).2

/-- `logs[idx]`.  For the library at src/filter/programmable_filter.rs:60-431. -/
def onLog (c : Conv F) (p : Payload F) (i : Val F) (f : LogLine → LogLine × Ret F) : Out F :=
  let k := idx (c.toInteger i) p.logs.length
  match p.logs[k]? with
  | none => .panic
  | some l => .ok { p with logs := p.logs.set k (f l).1 } (f l).2

/-- A library function that wants one string: without it, an error is logged and `nil` pushed.  For the library at src/filter/programmable_filter.rs:60-431. -/
def withStr (c : Conv F) (p : Payload F) (v : Val F) (f : Str → Out F) : Out F :=
  match c.toStr v with
  | some s => f s
  | none => .ok p .nil

/-- The library — src/filter/programmable_filter.rs:60-397, each function cited below; `now` is `time::now()`. -/
def Call.apply (c : Conv F) (env : Env) (now : Int) (p : Payload F) : Call F → Out F
  /- lua_set_metric_name 87-94; `check_string` raises a Lua error, and is evaluated before the index is used -/
  | .setMetricName i name => match c.toStr name with
    | none => .luaError
    | some s => onMetric c p i fun m => ({ m with name := s }, .nothing)
  /- lua_clear_logs 143-149 -/
  | .clearLogs => .ok { p with logs := [] } .nothing
  /- lua_clear_metrics 118-124 -/
  | .clearMetrics => .ok { p with metrics := [] } .nothing
  /- lua_log_remove_tag 360-380 -/
  | .logRemoveTag i key => withStr c p key fun k =>
      onLog c p i fun l => ({ l with tags := (removeTag l.tags k).1 }, .ofStr (removeTag l.tags k).2)
  /- lua_log_set_tag 265-291 -/
  | .logSetTag i key val => withStr c p key fun k => withStr c p val fun v =>
      onLog c p i fun l => ({ l with tags := (insertTag l.tags k v).1 }, .ofStr (insertTag l.tags k v).2)
  /- lua_log_tag_value 167-189 -/
  | .logTagValue i key => withStr c p key fun k =>
      onLog c p i fun l => (l, .ofStr (getFromTags l.tags k env.globalTags))
  /- lua_log_set_field 293-319 -/
  | .logSetField i key val => withStr c p key fun k => withStr c p val fun v =>
      onLog c p i fun l => ({ l with fields := l.fields.set k v }, .ofStr (l.fields.get k))
  /- lua_log_set_value 321-336 -/
  | .logSetValue i val => withStr c p val fun v =>
      onLog c p i fun l => ({ l with value := v }, .nil)
  /- lua_log_field_value 191-211 -/
  | .logFieldValue i key => withStr c p key fun k =>
      onLog c p i fun l => (l, .ofStr (l.fields.get k))
  /- lua_log_value 69-76 -/
  | .logValue i => onLog c p i fun l => (l, .str l.value)
  /- lua_log_path 78-85 -/
  | .logPath i => onLog c p i fun l => (l, .str l.path)
  /- lua_metric_query 382-397: both the percentile and the index are taken from the second argument -/
  | .metricQuery a _ => onMetric c p a fun m => (m, match m.query (c.toNumber a) with
      | some x => .num x
      | none => .nil)
  /- lua_metric_remove_tag 338-358 -/
  | .metricRemoveTag i key => withStr c p key fun k =>
      onMetric c p i fun m => ({ m with tags := (removeTag m.tags k).1 }, .ofStr (removeTag m.tags k).2)
  /- lua_metric_set_tag 237-263 -/
  | .metricSetTag i key val => withStr c p key fun k => withStr c p val fun v =>
      onMetric c p i fun m => ({ m with tags := (insertTag m.tags k v).1 }, .ofStr (insertTag m.tags k v).2)
  /- lua_metric_tag_value 213-235 -/
  | .metricTagValue i key => withStr c p key fun k =>
      onMetric c p i fun m => (m, .ofStr (getFromTags m.tags k env.globalTags))
  /- lua_push_log 126-141 -/
  | .pushLog line => match c.toStr line with
    | some s => .ok { p with logs := p.logs ++ [(LogLine.new now env.path s).overlayTagsFromMap env.globalTags] } .nothing
    | none => .ok p .nothing
  /- lua_push_metric 96-116; `harden().unwrap()` -/
  | .pushMetric name val => match c.toStr name with
    | none => .ok p .nothing
    | some s =>
      match (({ name := some s } : SoftTelemetry F).setValue (c.toNumber val)).harden now with
      | .ok m => .ok { p with metrics := p.metrics ++ [m.overlayTagsFromMap env.globalTags] } .nothing
      | .error _ => .panic
  /- lua_metric_name 60-67 -/
  | .metricName i => onMetric c p i fun m => (m, .str m.name)

/-- A script's function at work: it returns, raises an error, or calls the library and goes on with the answer.
`L` is the rest of the interpreter's state.  A function that never returns is not modelled.  Run by src/filter/programmable_filter.rs:576-618. -/
inductive Prog (F L : Type) [F64 F] where
  | done (l : L)
  | error (l : L)
  | call (c : Call F) (k : Ret F → Prog F L)

/-- How a call of a script's function ends — src/filter/programmable_filter.rs:576-618. -/
inductive Ended (F L : Type) [F64 F] where
  | panic
  | error (l : Option L)
  | ok (l : L) (p : Payload F)

/-- Run a function on a payload; `clock t` is the time at its `t`-th call of the library.  A Lua error
raised by the library ends the function (a script that catches errors with `pcall` is not modelled) — src/filter/programmable_filter.rs:576-618. -/
def Prog.run {L : Type} (c : Conv F) (env : Env) (clock : Nat → Int) : Prog F L → Nat → Payload F → Ended F L
  | .done l, _, p => .ok l p
  | .error l, _, _ => .error (some l)
  | .call a k, t, p => match a.apply c env (clock t) p with
    | .panic => .panic
    | .luaError => .error none
    | .ok p' r => (k r).run c env clock (t + 1) p'

/-- What of a script `run_lua_func` gets to see: the functions it defines (external) — src/filter/programmable_filter.rs:576-618. -/
abbrev Functions (F L : Type) [F64 F] := L → LuaFn → Option (Prog F L)

/-- Calling a function of a script — src/filter/programmable_filter.rs:590-617: `none` is a panic.  After an error raised by
the library the interpreter's state is `spoilt l` (external). -/
def callFn {L : Type} (fns : Functions F L) (spoilt : L → L) (c : Conv F) (env : Env) (clock : Nat → Int)
    (l : L) (fn : LuaFn) (p : Payload F) : Option (L × LuaResult F) :=
  match fns l fn with
  | none => some (l, .noSuchFunction)
  | some prog => match prog.run c env clock 0 p with
    | .panic => none
    | .error (some l') => some (l', .error)
    | .error none => some (spoilt l, .error)
    | .ok l' p' => some (l', .ok p')

/-! ## The interpreter's stack -/

/-- Depth of the interpreter's stack after `run_lua_func` — src/filter/programmable_filter.rs:590-617: `get_global` pushes one
value; if that is no function nothing is popped.  Else `push_light_userdata` pushes one,
`get_metatable_from_registry` one, which `set_metatable` pops; `pcall(1, 0, 0)` pops function and argument and, if
the function fails, pushes the message, which nothing pops. -/
def depthAfter {L : Type} (depth : Nat) (res : L × LuaResult F) : Nat :=
  let depth := depth + 1
  match res.2 with
  | .noSuchFunction => depth
  | r =>
    let depth := depth + 1
    let depth := depth + 1 - 1
    let depth := depth - 2
    match r with
    | .ok _ => depth
    | _ => depth + 1

/-- `process` — src/filter/programmable_filter.rs:535-573 — as far as the stack is concerned. -/
def depthStep {L : Type} (script : Script F L) (s : Programmable F L) (depth : Nat) : Event F → Nat
  | .telemetry m => depthAfter depth (script s.lua .processMetric ⟨[m], []⟩)
  | .timerFlush i => if s.lastFlushIdx ≥ i then depth else depthAfter depth (script s.lua .tick ⟨[], []⟩)
  | .log l => depthAfter depth (script s.lua .processLog ⟨[], [l]⟩)
  | .raw _ | .shutdown => depth

/-- The filter and its stack over a sequence of events, from `ProgrammableFilter::new`
(src/filter/programmable_filter.rs:470-531), which leaves the stack empty. -/
def stackRun {L : Type} (script : Script F L) (fail : LuaFn → Event F) :
    Programmable F L → Nat → List (Event F) → Programmable F L × Nat
  | s, d, [] => (s, d)
  | s, d, e :: es => stackRun script fail (programmableProcess script fail 0 s e []).1 (depthStep script s d e) es

end
end Lua
end Verif
