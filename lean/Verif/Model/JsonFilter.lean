import Verif.Model.Filter
import Verif.Model.Date
/-!
# The JSON-encoding filter with its panic

`jsonProcess` (`Verif.Model.Filter`) takes the text of a time from outside and cannot fail.  Here times are those of `chrono` (`Verif.Model.Date`), and a time
outside its calendar is a panic, which ends the filter's thread.
-/
namespace Verif
namespace JsonFilter
variable {F : Type} [F64 F]

/-- `JSONEncodeFilter::process` — src/filter/json_encode_filter.rs:68-129; `none` is the panic of `NaiveDateTime::from_timestamp` at line 76.  `num` is the
conversion of numbers. -/
def process (num : Str → Option Str) (now : Int) (s : JsonEncode) (event : Event F) (res : List (Event F)) :
    Option (JsonEncode × List (Event F) × Except (Event F) Unit) :=
  match event with
  | .log l =>
    match Chrono.formatTime l.time with
    | none => none
    | some time => some (jsonProcess (.serde num fun _ => time) now s (.log l) res)
  | ev => some (jsonProcess (.serde num fun _ => []) now s ev res)

/-- One iteration of the loop in `Filter::run` — src/filter/mod.rs:79-113; `none` is a panic. -/
def step (num : Str → Option Str) (sources : Nat) (r : FilterRun F JsonEncode) : Option (Int × Event F) → Option (FilterRun F JsonEncode)
  | none => some r
  | some (_, .shutdown) =>
    some { r with sent := r.sent ++ [.shutdown], totalShutdowns := r.totalShutdowns + 1, finished := decide (r.totalShutdowns + 1 ≥ sources) }
  | some (now, event) =>
    match process num now r.state event r.events with
    | none => none
    | some (st, evs, .ok ()) => some { r with state := st, events := [], sent := r.sent ++ evs }
    | some (st, evs, .error fe) => some { r with state := st, events := evs, sent := r.sent ++ [fe] }

/-- How a thread was left: by a panic or not, what it had sent, and what it had not read.  For src/filter/mod.rs:69-114. -/
structure Left (F : Type) [F64 F] where
  panicked : Bool
  run : FilterRun F JsonEncode
  unread : List (Option (Int × Event F))

/-- `Filter::run` — src/filter/mod.rs:69-114 — on a sequence of receive results.  An event that ends the thread by a panic has been read. -/
def run (num : Str → Option Str) (sources : Nat) (r : FilterRun F JsonEncode) : List (Option (Int × Event F)) → Left F
  | [] => ⟨false, r, []⟩
  | i :: is =>
    if r.finished then ⟨false, r, i :: is⟩
    else match step num sources r i with
      | none => ⟨true, r, is⟩
      | some r' => run num sources r' is

end JsonFilter
end Verif
