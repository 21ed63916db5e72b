import Verif.Spec.Avro
import Verif.Spec.Kafka
import Verif.Spec.Native
import Verif.Spec.Graphite
/-! # Specification: Avro clients and the Kafka messages their frames become (C120) -/
namespace Verif.Avro
open Wire

/-- A client of the Avro source: the id of its connection, the frames it sends before it closes, and how its bytes come off the network. -/
structure Client where
  id : Nat
  frames : List Frame
  net : List NetItem

/-- The client keeps to the format, its bodies are valid Avro, no frame is over the limit of one MiB, and no read comes up empty in the
middle of a length prefix. -/
structure Client.Good (avroOk : Bytes → Bool) (c : Client) : Prop where
  reads : NonEmptyReads c.net
  framed : Framed (c.frames.map Frame.encode) (symsOf c.net)
  fits : ∀ f ∈ c.frames, f.Fits ∧ avroOk f.body = true ∧ f.encode.length ≤ 1048576

/-- What the source publishes for the client. -/
def Client.events (avroOk : Bytes → Bool) (c : Client) : List RawEvent :=
  (Conn.run avroOk { connectionId := c.id }
    (socketItems ((symsOf c.net).length + 1) { maxPayloadSize := 1048576, buffer := { stream := c.net } })).published

/-- The Kafka message for a frame of a client: the body is the payload, the key is the hexadecimal numeral of the ordering value, and the
headers are exactly the keys sent, each once, with the value sent last. -/
structure Frame.MessageOf (topic : Str) (cid : Nat) (f : Frame) (s : Submission) : Prop where
  topic : s.topic = topic
  payload : s.payload = f.body
  key : Kafka.IsNumeral f.orderBy s.key
  none : ¬ f.hasMetadata → s.headers = []
  nodup : (s.headers.map Prod.fst).Nodup
  headers : f.hasMetadata → ∀ k, (s.headers.find? (fun kv => kv.1 = k)).map Prod.snd = lastValue f.kvs k
  connection : s.connectionId = some cid

end Verif.Avro
