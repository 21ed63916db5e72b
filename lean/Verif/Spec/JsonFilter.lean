import Verif.Spec.Json
import Verif.Spec.Date
import Verif.Spec.Filter
import Verif.Spec.Native
/-!
# What the JSON-encoding filter is to send

For C131.
-/
namespace Verif
namespace JsonFilter
variable {F : Type} [F64 F]

/-- The times that have a date: from the first second of the year -262144 to the last of 262143. -/
def InCalendar (t : Int) : Prop := -8334632851200 ≤ t ∧ t ≤ 8210298412799

instance (t : Int) : Decidable (InCalendar t) := inferInstanceAs (Decidable (_ ∧ _))

/-- `s` is the time in UTC, date, hour, minute and second. -/
def IsUtc (t : Int) (s : Str) : Prop :=
  ∃ n d second, Date.OfDay n d ∧ t = 86400 * n + (second : Nat) ∧ second < 86400 ∧ d.Valid ∧ Date.IsTime "+00:00".toList s d second

/-- The event a log line is to be replaced by: JSON, of the object that maps each key to the first of what the line itself says (the object it is the text
of, if lines are to be parsed and it is the text of one, else `message` with its text), its fields, and time, path and tags. -/
def LineSent (num : Str → Option Str) (parseLine : Bool) (tags : TagMap) (l : LogLine) (e : Event F) : Prop :=
  ∃ obj r text time, e = .raw r ∧ r.encoding = .json ∧ r.bytes = text.flatMap String.utf8EncodeChar ∧ (∃ n, Json.IsText n (.obj obj) text) ∧
    (obj.map Prod.fst).Nodup ∧ IsUtc l.time time ∧
    ∀ k, JsonMap.get obj k =
      ((match (if parseLine then Json.fromStr num l.value else none) with
        | some (.obj o) => JsonMap.get o k
        | _ => if k = "message".toList then some (.str l.value) else none).or
        ((l.fields.get k).map .str)).or
      (if k = "time".toList then some (.str time)
       else if k = "path".toList then some (.str l.path)
       else if k = "tags".toList then some (.obj ((tagIter l.tags tags).collect.map fun (kv : Str × Str) => (kv.1, Json.str kv.2)))
       else none)

/-- What is to be sent for an event: a line is encoded, everything else stays as it is. -/
def Sent (num : Str → Option Str) (parseLine : Bool) (tags : TagMap) : Event F → Event F → Prop
  | .log l, e => LineSent num parseLine tags l e
  | a, e => e = a

end JsonFilter
end Verif
