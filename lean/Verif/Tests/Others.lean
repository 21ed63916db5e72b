import Verif.Tests.Fix
import Verif.Model.Ack
import Verif.Model.Avro
import Verif.Model.Date
import Verif.Model.Filter
import Verif.Model.Kafka
/-!
# The unit tests of the acknowledgement bag, the Avro source, the JSON filter and the Kafka sink,
run on the model

Each `example` is one `#[test]` of /repo with its inputs and its assertions.
-/
namespace Verif.Tests
open Ack

/-! ## src/metric/ackbag.rs -/

/-- An empty bag. -/
def noAcks : Bag := fun _ => none

/-- `test_prepare_wait_adds_default_entry` — src/metric/ackbag.rs:115-123. -/
example (key : Nat) : (noAcks.prepareWait key).propsFor key = some 0 := by
  simp [Bag.propsFor, Bag.prepareWait]

/-- `test_remove_works` — src/metric/ackbag.rs:125-137. -/
example (key other : Nat) :
    (((noAcks.prepareWait key).remove key).remove other).propsFor key = none := by
  simp [Bag.propsFor, Bag.prepareWait, Bag.remove]

/-- `test_ack_adds_one_to_tally` — src/metric/ackbag.rs:139-149. -/
example (key : Nat) : ((noAcks.prepareWait key).ack key).propsFor key = some 1 := by
  simp [Bag.propsFor, Bag.prepareWait, Bag.ack, Ack.ack, usizeMax]

/-- A thread waiting for key 3 with a bag. -/
def waiter (bag : Bag) : World :=
  { bag := bag, threads := fun _ => ⟨.waiting 5, 0⟩ }

/-- Is thread 3 done waiting? -/
def released (w : Option World) : Option Bool := w.map fun w => decide ((w.threads 3).pc = .released)

/-- `test_wait_for_returns_when_there_are_acks` — src/metric/ackbag.rs:151-161. -/
example : released ((waiter ((noAcks.prepareWait 3).ack 3)).step (.poll 3)) = some true := by
  decide +kernel

/-- `test_wait_for_sleeps_when_there_are_no_acks` — src/metric/ackbag.rs:163-176: after one look and one
nap, during which the acknowledgement comes. -/
example :
    released ((waiter (noAcks.prepareWait 3)).step (.poll 3)) = some false ∧
    released (do let w ← (waiter (noAcks.prepareWait 3)).step (.poll 3)
                 ({ w with bag := w.bag.ack 3 } : World).step (.poll 3)) = some true := by
  decide +kernel

/-- `test_waiting_for_nonexistent_key_returns` — src/metric/ackbag.rs:178-182. -/
example : released ((waiter noAcks).step (.poll 3)) = some true := by decide +kernel

/-! ## src/source/avro.rs -/
open Avro

/-- `header_async` — src/source/avro.rs:360-370. -/
example : (Header.mk 0 0 0 0).sync = false := by decide +kernel

/-- `header_sync` — src/source/avro.rs:372-382. -/
example : (Header.mk 0 1 0 0).sync = true := by decide +kernel

/-- A big-endian number of `n` bytes. -/
def be (n v : Nat) : Bytes := (List.range n).reverse.map fun i => UInt8.ofNat (v / 256 ^ i)

/-- `parse_payload_happy_path_v1` — src/source/avro.rs:384-429 — for every blob that is a container. -/
example (avroOk : Bytes → Bool) (blob : Bytes) (h : avroOk blob = true) :
    Payload.parse avroOk (be 4 1 ++ be 4 0 ++ be 8 0 ++ be 8 0 ++ blob) =
      some (.valid ⟨1, 0, 0, 0⟩ none blob) := by
  have e : be 4 1 ++ be 4 0 ++ be 8 0 ++ be 8 0 =
      [0,0,0,1, 0,0,0,0, 0,0,0,0,0,0,0,0, 0,0,0,0,0,0,0,0] := by decide
  rw [e]
  simp [Payload.parse, Header.parse, readUInt, takeN, Wire.beNat, readMetadata, h]

/-- `parse_payload_happy_path_v2` — src/source/avro.rs:431-499 — for every blob that is a container. -/
example (avroOk : Bytes → Bool) (blob : Bytes) (h : avroOk blob = true) :
    Payload.parse avroOk (be 4 2 ++ be 4 0 ++ be 8 0 ++ be 8 0 ++ be 1 1 ++
        be 1 7 ++ "testkey".toUTF8.toList ++ be 2 9 ++ "testvalue".toUTF8.toList ++ blob) =
      some (.valid ⟨2, 0, 0, 0⟩ (some [("testkey".toUTF8.toList, "testvalue".toUTF8.toList)]) blob) := by
  have e : be 4 2 ++ be 4 0 ++ be 8 0 ++ be 8 0 ++ be 1 1 ++
      be 1 7 ++ "testkey".toUTF8.toList ++ be 2 9 ++ "testvalue".toUTF8.toList =
      [0,0,0,2, 0,0,0,0, 0,0,0,0,0,0,0,0, 0,0,0,0,0,0,0,0, 1, 7, 116,101,115,116,107,101,121, 0,9,
        116,101,115,116,118,97,108,117,101] := by decide +kernel
  have k : "testkey".toUTF8.toList = [116,101,115,116,107,101,121] := by decide +kernel
  have v : "testvalue".toUTF8.toList = [116,101,115,116,118,97,108,117,101] := by decide +kernel
  rw [e, k, v]
  simp [Payload.parse, Header.parse, readUInt, takeN, Wire.beNat, readMetadata, readKvs,
    Kafka.insertMeta, h]

/-! ## src/filter/json_encode_filter.rs -/

/-- `merged_objects_contain_all_keys` — src/filter/json_encode_filter.rs:287-301 — on two overlapping
objects (for all objects it is part of C24). -/
example :
    ((mergeObjects [[("a".toList, .str "1".toList), ("b".toList, .str "2".toList)],
        [("b".toList, .str "3".toList), ("c".toList, .str "4".toList)]]).map
      fun kv => (kv.1, match kv.2 with | .str s => s | _ => [])) =
    [("a".toList, "1".toList), ("b".toList, "2".toList), ("c".toList, "4".toList)] := by
  decide +kernel

/-- `serde_json`, with numbers as they are written, and the times of `chrono`. -/
def jsonExt : JsonExt := .serde some fun t => (Chrono.formatTime t).getD []

/-- `process_event` of the tests: the payload of the event that comes out. -/
def processLine (parseLine : Bool) (line : String) : Option Bytes :=
  let l : LogLine := { time := 946684800, path := "testpath".toList, value := line.toList, fields := [], tags := none }
  match (jsonProcess (F := Fix) jsonExt 7 { parseLine := parseLine, tags := [], rand := fun _ => 0 }
      (.log l) []).2.1 with
  | .raw r :: _ => some r.bytes
  | _ => none

/-- The bytes of a text. -/
def utf8 (s : String) : Bytes := s.toList.flatMap String.utf8EncodeChar

/-- `parsable_line_parsing_off` — src/filter/json_encode_filter.rs:182-203. -/
example : processLine false "{\"bad\": \"do not parse\"}" =
    some (utf8 ("{\"message\":\"{\\\"bad\\\": \\\"do not parse\\\"}\",\"time\":\"2000-01-01T00:00:00+00:00\"," ++
      "\"path\":\"testpath\",\"tags\":{}}")) := by decide +kernel

/-- `parsable_line_parsing_on` — src/filter/json_encode_filter.rs:205-226. -/
example : processLine true "{\"good\": \"do parse\"}" =
    some (utf8 "{\"good\":\"do parse\",\"time\":\"2000-01-01T00:00:00+00:00\",\"path\":\"testpath\",\"tags\":{}}") := by
  decide +kernel

/-- `unparsable_line` — src/filter/json_encode_filter.rs:228-249. -/
example : processLine true "this is not json" =
    some (utf8 ("{\"message\":\"this is not json\",\"time\":\"2000-01-01T00:00:00+00:00\"," ++
      "\"path\":\"testpath\",\"tags\":{}}")) := by decide +kernel

/-- `non_object_line` — src/filter/json_encode_filter.rs:251-272. -/
example : processLine true "[123, \"not an object\"]" =
    some (utf8 ("{\"message\":\"[123, \\\"not an object\\\"]\",\"time\":\"2000-01-01T00:00:00+00:00\"," ++
      "\"path\":\"testpath\",\"tags\":{}}")) := by decide +kernel

/-! ## src/sink/kafka.rs -/

/-- A Kafka sink of the tests. -/
def kafka (max : Nat) (script : List (Submission → KOutcome) := []) : Kafka :=
  { topicName := "test-topic".toList, maxMessageBytes := max, script := script }

/-- Deliver a message and flush. -/
def deliverFlush (k : Kafka) (m : Option Metadata) : Option Kafka := do
  let k ← k.deliverRaw (fun _ => true) ⟨1024, .raw, [1, 2, 3, 4, 5, 6, 7, 8, 9, 10], m, none⟩
  k.flush fun _ => true

/-- `test_valve_closes_at_max_bytes` — src/sink/kafka.rs:563-599. -/
example :
    (do let k := kafka 10
        let a ← k.deliverRaw (fun _ => true) ⟨0, .raw, [1, 2, 3, 4, 5, 6, 7, 8, 9], none, none⟩
        let b ← a.deliverRaw (fun _ => true) ⟨0, .raw, [10], none, none⟩
        let c ← b.flush fun _ => true
        some ([k, a, b, c].map fun k => (k.valveOpen, k.messageBytes, k.messages.length, k.publish))) =
    some [(true, 0, 0, 0), (true, 9, 1, 0), (false, 10, 2, 0), (true, 0, 0, 2)] := by decide +kernel

/-- `test_kafka_retryable_error_goes_through` — src/sink/kafka.rs:674-745: the message comes back with a
recoverable error once; both submissions are the same. -/
example :
    (do let m : Metadata := [([107], [1, 2, 3])]
        let k ← deliverFlush (kafka 1000 [fun s => .retryable ⟨some s.payload, some s.key, some s.headers⟩])
          (some m)
        let sub : Submission := ⟨"test-topic".toList, [1, 2, 3, 4, 5, 6, 7, 8, 9, 10],
          "400".toUTF8.toList, m, none⟩
        some (k.trace.filter (fun e => match e with | .submitted _ => true | _ => false) =
          [.submitted sub, .submitted sub], k.publish, k.retry) : Option (Bool × Nat × Nat)) =
    some (true, 1, 1) := by decide +kernel

/-- `test_kafka_retry_with_message_loss` — src/sink/kafka.rs:747-777: the message comes back without its
payload and key. -/
example :
    (deliverFlush (kafka 1000 [fun _ => .retryable ⟨none, none, none⟩]) none).map
      (fun k => ((k.trace.filter fun e => match e with | .submitted _ => true | _ => false).length,
        k.retryFailed)) = some (1, 1) := by decide +kernel

/-- `test_unrecoverable_kafka_error` — src/sink/kafka.rs:779-811 and `test_unreachable_kafka_error` —
src/sink/kafka.rs: any other error. -/
example :
    (deliverFlush (kafka 1000 [fun _ => .fatal]) none).map
      (fun k => ((k.trace.filter fun e => match e with | .submitted _ => true | _ => false).length,
        k.publishFailed)) = some (1, 1) := by decide +kernel

/-- `test_kafka_send_future_failed` — src/sink/kafka.rs:859-880. -/
example : (deliverFlush (kafka 10 [fun _ => .canceled]) none).map (·.publishFailed) = some 1 := by
  decide +kernel

end Verif.Tests
