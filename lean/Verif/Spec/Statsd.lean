import Verif.Model.Statsd
/-!
# Specification of the statsd line format

Written as a printer: what a client sends for a reading, and the point it stands for.
-/
namespace Verif.Statsd

/-- The metric types of the protocol. -/
inductive Ty where
  | counter | gauge | timer | histogram
deriving DecidableEq

/-- Their spelling. -/
def Ty.text : Ty → Str
  | .counter => ['c']
  | .gauge => ['g']
  | .timer => ['m', 's']
  | .histogram => ['h']

/-- A reading as a client writes it: a name, the value as text, the type, and perhaps a
sample rate as text, with or without a second bar before the `@`. -/
structure Reading where
  name : Str
  value : Str
  ty : Ty
  rate : Option (Bool × Str)
deriving DecidableEq

/-- The line for a reading: `name:value|type`, `name:value|type@rate` or
`name:value|type|@rate`. -/
def Reading.text (r : Reading) : Str :=
  r.name ++ [':'] ++ r.value ++ ['|'] ++ r.ty.text ++
    match r.rate with
    | none => []
    | some (bar, rate) => (if bar then ['|'] else []) ++ ['@'] ++ rate

section
variable {F : Type} [F64 F]

/-- A reading that means something: a non-empty name without colon, a value without bar
that is a number, a rate that is a number. -/
def Reading.Valid (cfg : Config F) (r : Reading) : Prop :=
  r.name ≠ [] ∧ ':' ∉ r.name ∧ '|' ∉ r.value ∧ (cfg.parseF r.value).isSome ∧
    ∀ bar rate, r.rate = some (bar, rate) → (cfg.parseF rate).isSome

/-- The number a reading reports: its value, times the inverse of its sample rate. -/
def Reading.number (cfg : Config F) (r : Reading) : Option F :=
  (cfg.parseF r.value).bind fun v =>
    match r.rate with
    | none => some v
    | some (_, rate) => (cfg.parseF rate).map fun s => F64.mul v (F64.div (F64.ofNat 1) s)

/-- The value of the point for a reading with number `v`: counters and signed gauges add up,
unsigned gauges replace, timers and histograms are summarised, or binned when a mapping
matches the name. `none`: the configured bounds make no histogram. -/
def Reading.pointValue (cfg : Config F) (r : Reading) (v : F) : Option (Value F) :=
  match r.ty with
  | .counter => some (.sum v)
  | .gauge =>
    if r.value.head? = some '+' ∨ r.value.head? = some '-' then some (.sum v) else some (.set v)
  | .timer | .histogram =>
    match cfg.histogramMasks.find? fun mb => mb.1 r.name with
    | some (_, bounds) =>
      (F64.histNew (F64.sort bounds)).map fun h => .histogram (F64.histInsert h v)
    | none => some (.quantiles (F64.ckmsInsert (F64.ckmsNew cfg.summarizeErrorBound) v) v)

/-- The point a reading stands for, received at `now`: persistent exactly if it is a gauge,
without tags. -/
def Reading.point (cfg : Config F) (now : Int) (r : Reading) : Option (Telemetry F) :=
  (r.number cfg).bind fun v => (r.pointValue cfg v).map fun value =>
    { name := r.name, value := value, persist := decide (r.ty = .gauge), tags := none,
      timestamp := now, overrideCount := none, overrideSampleSum := none }

/-- A usable configuration: the error bound is below one, and every mapping's bounds make a
histogram. -/
def Config.Usable (cfg : Config F) : Prop :=
  F64.ge cfg.summarizeErrorBound (F64.ofNat 1) = false ∧
    ∀ mb ∈ cfg.histogramMasks, (F64.histNew (F64.sort mb.2)).isSome

/-- The configuration has no point for the reading: a timer or histogram whose mapping's bounds
make no histogram, or one without mapping when the error bound is one or more. -/
def Reading.NoPoint (cfg : Config F) (r : Reading) : Prop :=
  (r.ty = .timer ∨ r.ty = .histogram) ∧
    match cfg.histogramMasks.find? fun mb => mb.1 r.name with
    | some mb => F64.histNew (F64.sort mb.2) = none
    | none => F64.ge cfg.summarizeErrorBound (F64.ofNat 1) = true

/-- What is assumed of `f64::from_str`: it accepts only text that starts with an ASCII
character. -/
def Config.AsciiNumbers (cfg : Config F) : Prop :=
  ∀ s, (cfg.parseF s).isSome → ∃ c t, s = c :: t ∧ c.utf8Size = 1

/-- The lines of a text, whatever the line ends. -/
def unlines (ls : List (Str × Bool)) : Str :=
  ls.flatMap fun l => l.1 ++ (if l.2 then ['\r', '\n'] else ['\n'])

/-- The points of a datagram taken by itself: those of its lines if it is accepted, none
if it is rejected. -/
def ownPoints (cfg : Config F) (d : Datagram) : List (Telemetry F) :=
  match d.text with
  | none => []
  | some text =>
    match parseStatsd cfg d.now text [] with
    | (.accepted, pts) => pts
    | _ => []

/-- The points of the lines before the first one that cannot be read. -/
def pointsBefore (cfg : Config F) (now : Int) : List Str → List (Telemetry F)
  | [] => []
  | l :: ls => match parseLine cfg now l with
    | .point t => t :: pointsBefore cfg now ls
    | _ => []

/-- Those of a datagram. -/
def goodPoints (cfg : Config F) (d : Datagram) : List (Telemetry F) :=
  match d.text with
  | none => []
  | some text => pointsBefore cfg d.now (lines text)

/-- All lines of the datagram can be read. -/
def allGood (cfg : Config F) (d : Datagram) : Prop :=
  ∃ text, d.text = some text ∧ ∀ l ∈ lines text, ∃ t, parseLine cfg d.now l = .point t

end
end Verif.Statsd
