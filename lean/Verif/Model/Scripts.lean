import Verif.Model.Lua
/-!
# The example scripts

The scripts of /repo/examples/scripts, written out as the calls of the payload library that they make.  `text` is how Lua writes a
number (`%s`; external), the state is the value of the one global variable.
-/
namespace Verif
namespace Lua
variable {F : Type} [F64 F]

/-- `1` of a script — examples/scripts/collectd_scrub.lua:1-22. -/
def one : Val F := .num (F64.ofNat 1)

/-- The function `tick` of the scripts that count — examples/scripts/keep_count.lua:11-15 and collectd_scrub.lua:18-22. -/
def tickCount (text : F → Str) (name : String) (count : F) : Prog F F :=
  .call (.pushMetric (.str name.toList) (.num count)) fun _ =>
    .call (.pushLog (.str ("count_per_tick: ".toList ++ text count))) fun _ => .done (F64.ofNat 0)

/-- examples/scripts/keep_count.lua -/
def keepCount (text : F → Str) : Functions F F := fun count fn => match fn with
  | .processMetric => some (.done (F64.add count (F64.ofNat 1)))
  | .processLog => some (.done (F64.add count (F64.ofNat 1)))
  | .tick => some (tickCount text "count_per_tick" count)

/-- examples/scripts/frau_im_mond.lua -/
def frauImMond : Functions F F := fun l fn => match fn with
  | .processMetric => some (.call (.setMetricName one (.str "frau_im_mond".toList)) fun _ => .done l)
  | .processLog => some (.done l)
  | .tick => some (.done l)

/-- `[%w_]` — examples/scripts/collectd_scrub.lua:1-22. -/
def isWord (c : Char) : Bool := c.isAlphanum || c == '_'

/-- `string.match(name, "^(collectd)[%.@][%w_]+(.*)")`, the two groups put together — examples/scripts/collectd_scrub.lua:7-9. -/
def scrub (name : Str) : Option Str :=
  if "collectd".toList.isPrefixOf name then
    match name.drop 8 with
    | [] => none
    | c :: rest =>
      if (c = '.' ∨ c = '@') ∧ rest.takeWhile isWord ≠ [] then some ("collectd".toList ++ rest.dropWhile isWord) else none
  else none

/-- examples/scripts/collectd_scrub.lua -/
def collectdScrub (text : F → Str) : Functions F F := fun count fn => match fn with
  | .processMetric => some (.call (.metricName one) fun r => match r with
    | .str name => match scrub name with
      | some n => .call (.setMetricName one (.str n)) fun _ => .done (F64.add count (F64.ofNat 1))
      | none => .done (F64.add count (F64.ofNat 1))
    | _ => .error (F64.add count (F64.ofNat 1)))
  | .processLog => some (.done (F64.add count (F64.ofNat 1)))
  | .tick => some (tickCount text "cernan_bridge.count_per_tick" count)

/-- The filter with a script — src/filter/programmable_filter.rs:535-618.  Simplifications: one clock reading for each event; a
panic of the library counts as an error of the script (for the example scripts there is none, see C108_no_panic). -/
def withScript {L : Type} (fns : Functions F L) (c : Conv F) (env : Env) (fail : LuaFn → Event F) : Process F (Programmable F L) :=
  fun now s e res => programmableProcess
    (fun l fn p => (callFn fns id c env (fun _ => now) l fn p).getD (l, .error)) fail now s e res

end Lua
end Verif
