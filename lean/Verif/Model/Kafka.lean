import Verif.Model.Event
/-!
# Kafka sink

Models src/sink/kafka.rs.  librdkafka is external: what becomes of each submission is
taken from a script of outcomes, one per submission in order of submission, each of which
may depend on what was submitted; once the script is used up every submission is
published.  (For a broker that answers with retryable errors for ever `flush` never returns: its
turns are those of `flushLoop` with longer and longer scripts, see C119.)
-/
namespace Verif

/-- `OwnedMessage` as handed back by librdkafka with an error.  Wrapped at src/sink/kafka.rs:215-218. -/
structure OwnedMessage where
  payload : Option Bytes
  key : Option Bytes
  headers : Option (List (Bytes × Bytes))
deriving DecidableEq

/-- What `finalize()` eventually reports, with the errors sorted as
`await_inflight_messages` sorts them — src/sink/kafka.rs:399-452. -/
inductive KOutcome where
  | published
  /-- one of the thirteen recoverable errors (409-421) -/
  | retryable (m : OwnedMessage)
  /-- any other production error (430-435) or client error (438-443) -/
  | fatal
  /-- the delivery future was cancelled (447-452) -/
  | canceled
deriving DecidableEq

/-- `RDKafkaError`, the error codes of librdkafka: those `await_inflight_messages` names
(src/sink/kafka.rs:409-421), that of a full local queue, and all others. -/
inductive RDKafkaError where
  | invalidMessage | unknownTopicOrPartition | leaderNotAvailable | notLeaderForPartition
  | requestTimedOut | networkException | groupLoadInProgress | groupCoordinatorNotAvailable
  | messageTimedOut | notCoordinatorForGroup | notEnoughReplicas | notEnoughReplicasAfterAppend
  | notController
  | queueFull
  | other (code : Int)
deriving DecidableEq

/-- `KafkaError`: of production, or another.  Matched at src/sink/kafka.rs:389-463. -/
inductive KafkaError where
  | messageProduction (e : RDKafkaError)
  | other
deriving DecidableEq

/-- `PublishResult`, what `finalize()` returns — src/sink/kafka.rs:106, 121-129. -/
inductive Finalized where
  | ok
  | err (e : KafkaError) (m : OwnedMessage)
  | none
deriving DecidableEq

/-- How `await_inflight_messages` sorts what `finalize()` returns — src/sink/kafka.rs:399-453. -/
def KOutcome.of : Finalized → KOutcome
  | .ok => .published
  | .err (.messageProduction e) m =>
    match e with
    | .invalidMessage | .unknownTopicOrPartition | .leaderNotAvailable | .notLeaderForPartition
    | .requestTimedOut | .networkException | .groupLoadInProgress | .groupCoordinatorNotAvailable
    | .messageTimedOut | .notCoordinatorForGroup | .notEnoughReplicas | .notEnoughReplicasAfterAppend
    | .notController => .retryable m
    | _ => .fatal
  | .err .other _ => .fatal
  | .none => .canceled

/-- One call of `try_payload` — the arguments given to librdkafka — src/sink/kafka.rs:149-176. -/
structure Submission where
  topic : Str
  payload : Bytes
  key : Bytes
  headers : List (Bytes × Bytes)
  connectionId : Option Nat
deriving DecidableEq

/-- An in-flight message (`KafkaPublishResult`, src/sink/kafka.rs:115-118): its
connection id, what was submitted, and the outcome it will have. -/
structure InFlight where
  sub : Submission
  outcome : KOutcome
deriving DecidableEq

/-- How a message ended — src/sink/kafka.rs:389-463. -/
inductive Verdict where
  | published | failed | unretryable
deriving DecidableEq

/-- Observable happenings, in order (ghost) — src/sink/kafka.rs:333-365, src/sink/kafka.rs:389-463, src/sink/kafka.rs:378-385. -/
inductive KEvent where
  | submitted (s : Submission)
  /-- a message reached its final outcome -/
  | final (connectionId : Option Nat) (v : Verdict)
  /-- `props.ack()` for a connection -/
  | ack (connectionId : Nat)
deriving DecidableEq

/-- `Kafka` — src/sink/kafka.rs:252-269, with the four statistics of
`DefaultStatsCollector` (200-213), the outcome script and the ghost trace. -/
structure Kafka where
  topicName : Str
  messages : List InFlight := []
  messageBytes : Nat := 0
  maxMessageBytes : Nat
  flushInterval : Nat := 100
  publish : Nat := 0
  retry : Nat := 0
  publishFailed : Nat := 0
  retryFailed : Nat := 0
  script : List (Submission → KOutcome) := []
  trace : List KEvent := []

namespace Kafka

/-- `valve_state` — src/sink/kafka.rs:303-309. -/
def valveOpen (k : Kafka) : Bool := k.messageBytes < k.maxMessageBytes

/-- Uppercase hexadecimal digits of a number (`format!("{:X}", order_by)`,
src/sink/kafka.rs:321), with fuel. -/
def hexLoop : Nat → Nat → List UInt8 → List UInt8
  | 0, _, acc => acc
  | n + 1, v, acc =>
    let d := v % 16
    let c : UInt8 := if d < 10 then UInt8.ofNat (48 + d) else UInt8.ofNat (55 + d)
    if v / 16 = 0 then c :: acc else hexLoop n (v / 16) (c :: acc)

/-- `format!("{:X}", order_by)` for a `u64`.  Used at src/sink/kafka.rs:321. -/
def hex (v : Nat) : Bytes := hexLoop 16 v []

/-- `try_payload` — src/sink/kafka.rs:149-176.  `utf8` is `str::from_utf8(..).is_ok()`;
an invalid header key is a panic (`none`).  The record's timestamp is not modelled. -/
def tryPayload (utf8 : Bytes → Bool) (k : Kafka) (payload key : Bytes)
    (metadata : Option Metadata) (connectionId : Option Nat) : Option (InFlight × Kafka) :=
  let headers := metadata.getD []
  if headers.all (fun kv => utf8 kv.1) then
    let s : Submission := ⟨k.topicName, payload, key, headers, connectionId⟩
    let outcome := (k.script.head?.getD fun _ => .published) s
    some (⟨s, outcome⟩, { k with script := k.script.tail, trace := k.trace ++ [.submitted s] })
  else none

/-- `deliver_raw` — src/sink/kafka.rs:313-331. -/
def deliverRaw (utf8 : Bytes → Bool) (k : Kafka) (r : RawEvent) : Option Kafka :=
  (k.tryPayload utf8 r.bytes (hex r.orderBy) r.metadata r.connectionId).map fun (m, k') =>
    { k' with messages := k'.messages ++ [m], messageBytes := k'.messageBytes + r.bytes.length }

/-- `acknowledge` — src/sink/kafka.rs:378-385. -/
def acknowledge (k : Kafka) : Option Nat → Kafka
  | some c => { k with trace := k.trace ++ [.ack c] }
  | none => k

/-- `FailedMessageWrapper` — src/sink/kafka.rs:215-218. -/
structure Failed where
  message : OwnedMessage
  connectionId : Option Nat

/-- `HashMap::insert` on a metadata map.  Used at src/sink/kafka.rs:240. -/
def insertMeta (m : Metadata) (kv : Bytes × Bytes) : Metadata :=
  match m with
  | [] => [kv]
  | x :: m => if x.1 = kv.1 then kv :: m else x :: insertMeta m kv

/-- `FailedMessageWrapper::metadata` — src/sink/kafka.rs:233-246.  The iteration order of
the resulting map (arbitrary in Rust) is the order of first insertion here. -/
def Failed.metadata (f : Failed) : Option Metadata :=
  f.message.headers.map fun hs => hs.foldl insertMeta []

/-- The scan of `await_inflight_messages` — src/sink/kafka.rs:390-455: (messages to retry,
ids to acknowledge, published, to be retried, failed, finals). -/
def scan : List InFlight →
    List Failed × List (Option Nat) × Nat × Nat × Nat × List KEvent
  | [] => ([], [], 0, 0, 0, [])
  | m :: ms =>
    let (rs, ids, p, r, f, es) := scan ms
    let c := m.sub.connectionId
    match m.outcome with
    | .published => (rs, c :: ids, p + 1, r, f, .final c .published :: es)
    | .retryable o => (⟨o, c⟩ :: rs, ids, p, r + 1, f, es)
    | .fatal | .canceled => (rs, c :: ids, p, r, f + 1, .final c .failed :: es)

/-- `await_inflight_messages` — src/sink/kafka.rs:389-463. -/
def awaitInflight (k : Kafka) : List Failed × Kafka :=
  let (rs, ids, p, r, f, es) := scan k.messages
  let k := { k with publish := k.publish + p, publishFailed := k.publishFailed + f,
                    retry := k.retry + r, trace := k.trace ++ es }
  (rs, ids.foldl acknowledge k)

/-- The `filter_map` over the messages to retry — src/sink/kafka.rs:337-358:
(state, new messages, ids of the unretryable ones). -/
def resubmit (utf8 : Bytes → Bool) :
    Kafka → List Failed → Option (Kafka × List InFlight × List (Option Nat))
  | k, [] => some (k, [], [])
  | k, f :: fs =>
    match f.message.payload, f.message.key with
    | some p, some key =>
      match k.tryPayload utf8 p key f.metadata f.connectionId with
      | none => none
      | some (m, k) =>
        (resubmit utf8 k fs).map fun (k, ms, ids) => (k, m :: ms, ids)
    | _, _ =>
      (resubmit utf8 { k with retryFailed := k.retryFailed + 1,
                              trace := k.trace ++ [.final f.connectionId .unretryable] } fs).map
        fun (k, ms, ids) => (k, ms, f.connectionId :: ids)

/-- The `while !self.messages.is_empty()` loop — src/sink/kafka.rs:334-360, with fuel. -/
def flushLoop (utf8 : Bytes → Bool) : Nat → Kafka → List (Option Nat) →
    Option (Kafka × List (Option Nat))
  | 0, k, ids => some (k, ids)
  | n + 1, k, ids =>
    if k.messages.isEmpty then some (k, ids)
    else
      let (rs, k) := k.awaitInflight
      match resubmit utf8 k rs with
      | none => none
      | some (k, ms, more) => flushLoop utf8 n { k with messages := ms } (ids ++ more)

/-- `flush` — src/sink/kafka.rs:333-365.  `none` is a panic.  The fuel suffices
(`C27_flush_empties`): every round after the first uses up at least one scripted outcome or is the last. -/
def flush (utf8 : Bytes → Bool) (k : Kafka) : Option Kafka :=
  (flushLoop utf8 (k.script.length + 2) k []).map fun (k, ids) =>
    ids.foldl acknowledge { k with messageBytes := 0 }

end Kafka
end Verif
