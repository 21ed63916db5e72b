import Verif.Spec.Buckets
import Verif.Spec.SinkImpls
import Verif.Spec.Statsd
/-!
# Vocabulary for totals from a statsd packet to the console (C112)
-/
namespace Verif
section
variable {F : Type} [F64 F]

/-- Total of the SUM values of the points with this name. -/
def totalNamed (n : Str) (pts : List (Telemetry F)) : F := sumTotal (pts.filter fun t => t.name = n)

/-- The text the console prints for waiting lines and stored points: the lines one after the other, then the points by kind, within a
kind in their order, each with its name, time and value. -/
def IsConsoleText (ext : Console.Ext F) (tags : TagMap) (stamps : Str × Str) (ls : List LogLine) (pts : List (Telemetry F))
    (text : Str) : Prop :=
  ∃ parts : List Str, ls.map (Console.printLine ext tags) = parts.map some ∧
    text = "Flushing lines: ".toList ++ stamps.1 ++ ['\n'] ++ parts.flatten ++
      "Flushing metrics: ".toList ++ stamps.2 ++ ['\n'] ++
      "  sums:\n".toList ++ pts.flatMap (consoleText ext .sum) ++
      "  sets:\n".toList ++ pts.flatMap (consoleText ext .set) ++
      "  summaries:\n".toList ++ pts.flatMap (consoleText ext .summarize) ++
      "  histograms:\n".toList ++ pts.flatMap (consoleText ext .histogram)

/-- Run operations, recording what iteration yields just before every reset: what a sink flushes. -/
def flushSnaps (hash : Str × TagMap → Nat) (b : Buckets F) : List (BucketOp F) → Option (List (List (Telemetry F)))
  | [] => some []
  | .add now v :: ops => match b.add hash now v with
    | none => none
    | some b' => flushSnaps hash b' ops
  | .reset now :: ops => match b.iter, flushSnaps hash (b.reset now) ops with
    | some pts, some rest => some (pts :: rest)
    | _, _ => none

/-- The times of a history of the store, in order. -/
def opTimes : List (BucketOp F) → List Int
  | [] => []
  | .add now _ :: ops => now :: opTimes ops
  | .reset now :: ops => now :: opTimes ops

end

namespace Statsd
variable {F : Type} [F64 F]

/-- What the readings of a name report, added up: each value times the inverse of its sample rate. -/
def totalReported (cfg : Config F) (n : Str) : List Reading → F
  | [] => F64.zero
  | r :: rs => match r.number cfg with
    | some v => if r.name = n then F64.add v (totalReported cfg n rs) else totalReported cfg n rs
    | none => totalReported cfg n rs

/-- The numbers reported under a name, in order. -/
def numbersOf (cfg : Config F) (n : Str) (rs : List Reading) : List F :=
  (rs.filter fun r => r.name = n).filterMap fun r => r.number cfg

/-- A datagram with these readings, one to a line, at least one of them. -/
def Carries (cfg : Config F) (d : Datagram) (rs : List Reading) : Prop :=
  rs ≠ [] ∧ (∀ r ∈ rs, r.Valid cfg) ∧ ∃ text, d.text = some text ∧ lines text = rs.map Reading.text

end Statsd
end Verif
