import Verif.Model.Event
/-!
# The statsd parser and source

Models src/protocols/statsd.rs and the datagram loop of src/source/statsd.rs.
-/
namespace Verif.Statsd

section
variable {F : Type} [F64 F]

/-- `StatsdParseConfig` — src/source/statsd.rs:36-47 — together with the external
functions the parser calls: `f64::from_str` (std), and `Regex::is_match` of each mask
(the `regex` crate), as the predicate it computes. -/
structure Config (F : Type) [F64 F] where
  histogramMasks : List ((Str → Bool) × List F) := []
  summarizeErrorBound : F
  parseF : Str → Option F

/-- `str::find(c)` and the two slices around the hit (std, external): the text before the
first `c` and the text after it.  Used at src/protocols/statsd.rs:22-163. -/
def cut (c : Char) : Str → Option (Str × Str)
  | [] => none
  | x :: s => if x = c then some ([], s) else (cut c s).map fun p => (x :: p.1, p.2)

/-- `str::split_terminator('\n')` (std, external).  Used at src/protocols/statsd.rs:22-163. -/
def splitTerminator : Str → List Str
  | [] => []
  | c :: s =>
    if c = '\n' then [] :: splitTerminator s
    else match splitTerminator s with
      | [] => [[c]]
      | l :: ls => (c :: l) :: ls

/-- Drop a carriage return at the end.  Used at src/protocols/statsd.rs:22-163. -/
def stripCr (l : Str) : Str := if l.getLast? = some '\r' then l.dropLast else l

/-- `str::lines` (std, external): the lines, each without a carriage return at its end.
(Recent versions of std keep one at the end of a last line that has no line feed.)  Used at src/protocols/statsd.rs:22-163. -/
def lines (s : Str) : List Str := (splitTerminator s).map stripCr

/-- What parsing a line comes to: `return false`, a panic, or a point pushed to `res` — src/protocols/statsd.rs:22-163. -/
inductive LineResult (F : Type) [F64 F] where
  | bad
  | panic
  | point (t : Telemetry F)

/-- Timers and histograms — src/protocols/statsd.rs:101-115, 131-146, with the setters of
src/metric/telemetry.rs:301-364. -/
def timer (cfg : Config F) (name : Str) (m : SoftTelemetry F) : SoftTelemetry F :=
  let m := { m with persist := some false, kind := some .summarize, error := some cfg.summarizeErrorBound }
  match cfg.histogramMasks.find? fun mb => mb.1 name with
  | some mb => ({ m with kind := some .histogram, error := none } : SoftTelemetry F).setBounds mb.2
  | none => m

/-- The match on the type field — src/protocols/statsd.rs:64-153; `none` is `return false`.
`m` is the point under construction, `ty` the text after the value's `|`. -/
def applyType (cfg : Config F) (name : Str) (val : F) (signed : Bool) (m : SoftTelemetry F)
    (ty : Str) : Option (SoftTelemetry F) :=
  let gauge : SoftTelemetry F :=
    { m with persist := some true, kind := some (if signed then .sum else .set) }
  match cut '@' ty with
  | some (t, s) =>
    let scaled (m : SoftTelemetry F) : Option (SoftTelemetry F) :=
      match cfg.parseF s with
      | some sample => some (m.setValue (F64.mul val (F64.div (F64.ofNat 1) sample)))
      | none => none
    if t = ['g', '|'] ∨ t = ['g'] then scaled gauge
    else if t = ['c', '|'] ∨ t = ['c'] then
      scaled { m with kind := some .sum, persist := some false }
    else if t = ['m', 's'] ∨ t = ['m', 's', '|'] ∨ t = ['h'] ∨ t = ['h', '|'] then
      scaled (timer cfg name m)
    else none
  | none =>
    if ty = ['g'] then some gauge
    else if ty = ['m', 's'] ∨ ty = ['h'] then some (timer cfg name m)
    else if ty = ['c'] then some { m with kind := some .sum, persist := some false }
    else none

/-- One turn of the loop in `parse_statsd` — src/protocols/statsd.rs:28-161.  `now` is
`time::now()`.  The slice `&src[offset..=offset]` panics if the byte after `offset` is not
at a character boundary. -/
def parseLine (cfg : Config F) (now : Int) (src : Str) : LineResult F :=
  match cut ':' src with
  | none => .bad
  | some (name, rest) =>
    if name = [] then .bad
    else match rest with
    | [] => .bad
    | c :: _ =>
      match cut '|' rest with
      | none => .bad
      | some (value, ty) =>
        match cfg.parseF value with
        | none => .bad
        | some val =>
          let m := { ((Telemetry.default now : Telemetry F).thaw.setValue val) with
                      name := some name, timestamp := some now }
          if c.utf8Size ≠ 1 then .panic
          else
            let signed := c = '+' ∨ c = '-'
            if ty = [] then .bad
            else match applyType cfg name val signed m ty with
              | none => .bad
              | some m =>
                match m.harden now with
                | .ok t => .point t
                | .error _ => .panic

/-- What `parse_statsd` returns, or a panic — src/protocols/statsd.rs:22-163. -/
inductive Verdict where
  | accepted | rejected | panicked
deriving DecidableEq, Repr

/-- The loop of `parse_statsd` — src/protocols/statsd.rs:28-162: the verdict and `res`. -/
def parseLines (cfg : Config F) (now : Int) : List Str → List (Telemetry F) →
    Verdict × List (Telemetry F)
  | [], res => (if res.isEmpty then .rejected else .accepted, res)
  | l :: ls, res =>
    match parseLine cfg now l with
    | .bad => (.rejected, res)
    | .panic => (.panicked, res)
    | .point t => parseLines cfg now ls (res ++ [t])

/-- `parse_statsd` — src/protocols/statsd.rs:22-163.  Simplification: one clock reading
per packet. -/
def parseStatsd (cfg : Config F) (now : Int) (source : Str) (res : List (Telemetry F)) :
    Verdict × List (Telemetry F) :=
  parseLines cfg now (lines source) res

/-- What `recv_from` yields before it would block: a datagram, already checked by
`str::from_utf8` (`none` is one that is not UTF-8), with the clock at the time — src/source/statsd.rs:90-133. -/
structure Datagram where
  text : Option Str
  now : Int

/-- `Statsd::handle_datagrams` — src/source/statsd.rs:90-133 — over the datagrams received
until the socket would block or fails: the points sent to the channels, in order, and
whether it ended without panic. -/
def handleDatagrams (cfg : Config F) : List Datagram → List (Telemetry F) → List (Telemetry F) × Bool
  | [], _ => ([], true)
  | d :: ds, metrics =>
    match d.text with
    | none => handleDatagrams cfg ds metrics
    | some val =>
      match parseStatsd cfg d.now val metrics with
      | (.accepted, ms) =>
        let (sent, ok) := handleDatagrams cfg ds []
        (ms ++ sent, ok)
      | (.rejected, ms) => handleDatagrams cfg ds ms
      | (.panicked, _) => ([], false)

end
end Verif.Statsd
