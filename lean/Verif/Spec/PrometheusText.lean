import Verif.Spec.Prometheus
/-!
# A reader of the Prometheus text format

What a server that scrapes the sink makes of the text, for the part of the format cernan uses: TYPE lines, and samples with an optional
list of labels.
-/
namespace Verif
namespace Prometheus

/-- One line as read. -/
inductive Seen where
  | type (name tname : Str)
  | sample (name : Str) (labels : List (Str × Str)) (value : Str)
deriving DecidableEq

/-- The labels, after the opening brace, and what follows the closing one. -/
def readLabels : Nat → Str → Option (List (Str × Str) × Str)
  | 0, _ => none
  | fuel + 1, s =>
    match s.dropWhile (· ≠ '=') with
    | '=' :: '"' :: s' =>
      match s'.dropWhile (· ≠ '"') with
      | '"' :: '}' :: rest => some ([(s.takeWhile (· ≠ '='), s'.takeWhile (· ≠ '"'))], rest)
      | '"' :: ',' :: ' ' :: rest =>
        (readLabels fuel rest).map fun r => ((s.takeWhile (· ≠ '='), s'.takeWhile (· ≠ '"')) :: r.1, r.2)
      | _ => none
    | _ => none

/-- One line, without its line feed. -/
def readLine (s : Str) : Option Seen :=
  if s.take 7 = "# TYPE ".toList then
    match (s.drop 7).dropWhile (· ≠ ' ') with
    | ' ' :: t => some (.type ((s.drop 7).takeWhile (· ≠ ' ')) t)
    | _ => none
  else
    match s.dropWhile (fun c => c ≠ '{' ∧ c ≠ ' ') with
    | ' ' :: v => some (.sample (s.takeWhile fun c => c ≠ '{' ∧ c ≠ ' ') [] v)
    | '{' :: s' => match readLabels s'.length s' with
      | some (labels, ' ' :: v) => some (.sample (s.takeWhile fun c => c ≠ '{' ∧ c ≠ ' ') labels v)
      | _ => none
    | _ => none

/-- A text, line by line; every line ends with a line feed. -/
def readText : Nat → Str → Option (List Seen)
  | _, [] => some []
  | 0, _ => none
  | fuel + 1, s => match s.dropWhile (· ≠ '\n') with
    | _ :: rest => match readLine (s.takeWhile (· ≠ '\n')), readText fuel rest with
      | some l, some ls => some (l :: ls)
      | _, _ => none
    | [] => none

/-- A tag that can be read back: there is no equals sign or line feed in its key, and no quote or line feed in its value. -/
def CleanTag (kv : Str × Str) : Prop := '=' ∉ kv.1 ∧ '\n' ∉ kv.1 ∧ '"' ∉ kv.2 ∧ '\n' ∉ kv.2

/-- Numbers are written without quotes and line feeds. -/
def CleanNumbers {F : Type} (ext : Ext F) : Prop := (∀ x, '"' ∉ ext.showF x ∧ '\n' ∉ ext.showF x) ∧ ∀ n, '\n' ∉ ext.showN n

/-- What a line says. -/
def see {F : Type} (ext : Ext F) : Line F → Seen
  | .type name tname => .type name tname
  | .sample name labels (.nat n) => .sample name labels (ext.showN n)
  | .sample name labels (.real x) => .sample name labels (ext.showF x)

end Prometheus
end Verif
