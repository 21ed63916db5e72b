import Verif.Spec.JsonFilter
import Verif.Spec.SinkImpls
import Verif.Spec.Kafka
/-! # Specification vocabulary for log lines on their way to Kafka (C137) -/
namespace Verif.LinePipeline
variable {F : Type} [F64 F]

/-- The bytes are the UTF-8 of a JSON object that says what the line says: if lines are parsed and this one is the text of an object, every
member of it; otherwise its text as `message`, and as `path` where it is from unless the line has fields of its own. -/
def TellsLine (num : Str → Option Str) (parseLine : Bool) (l : LogLine) (bytes : Bytes) : Prop :=
  ∃ obj text n, bytes = text.flatMap String.utf8EncodeChar ∧ Json.IsText n (.obj obj) text ∧ (obj.map Prod.fst).Nodup ∧
    match (if parseLine then Json.fromStr num l.value else none) with
    | some (.obj o) => ∀ k v, JsonMap.get o k = some v → JsonMap.get obj k = some v
    | _ => JsonMap.get obj "message".toList = some (.str l.value) ∧
        (l.fields = [] → JsonMap.get obj "path".toList = some (.str l.path))

/-- The Kafka message an event is to become: a line one that tells it, a raw event one with its bytes; other events become none. -/
def Becomes (num : Str → Option Str) (parseLine : Bool) (topic : Str) : Event F → Submission → Prop
  | .log l, s => s.topic = topic ∧ TellsLine num parseLine l s.payload
  | .raw r, s => s.topic = topic ∧ s.payload = r.bytes
  | _, _ => False

/-- Is the event a line or a raw event? -/
def forKafka : Event F → Bool
  | .log _ | .raw _ => true
  | _ => false

end Verif.LinePipeline
