import Verif.Model.Kafka
/-!
# Specification vocabulary for the Kafka properties (C27-C30)
-/
namespace Verif.Kafka

/-- The connection ids of the messages that reached a final outcome, in order. -/
def finals (es : List KEvent) : List (Option Nat) :=
  es.filterMap fun e => match e with
    | .final c _ => some c
    | _ => none

/-- How many messages ended with a given verdict. -/
def endedAs (v : Verdict) (es : List KEvent) : Nat :=
  es.countP fun e => match e with
    | .final _ w => w = v
    | _ => false

/-- The acknowledgements made, in order. -/
def acks (es : List KEvent) : List Nat :=
  es.filterMap fun e => match e with
    | .ack c => some c
    | _ => none

/-- What was submitted, in order. -/
def submissions (es : List KEvent) : List Submission :=
  es.filterMap fun e => match e with
    | .submitted s => some s
    | _ => none

/-- A broker error that hands back the message that was submitted. -/
def Faithful (s : Submission) : KOutcome → Prop
  | .retryable m => m.payload = some s.payload ∧ m.key = some s.key ∧ m.headers.getD [] = s.headers
  | _ => True

/-- Is the outcome a retryable error? -/
def isRetryable : KOutcome → Bool
  | .retryable _ => true
  | _ => false

/-- The operations the run-loop performs on the sink. -/
inductive Op where
  | deliver (r : RawEvent)
  | flush

/-- Run a sequence of operations; `none` is a panic. -/
def run (utf8 : Bytes → Bool) : Kafka → List Op → Option Kafka
  | k, [] => some k
  | k, .deliver r :: ops => (k.deliverRaw utf8 r).bind fun k => run utf8 k ops
  | k, .flush :: ops => (k.flush utf8).bind fun k => run utf8 k ops

/-- Total payload size accepted since the last flush. -/
def bytesSinceFlush (ops : List Op) : Nat :=
  ops.foldl (fun n op => match op with
    | .deliver r => n + r.bytes.length
    | .flush => 0) 0

/-- The raw events delivered, in order. -/
def delivered : List Op → List RawEvent
  | [] => []
  | .deliver r :: ops => r :: delivered ops
  | .flush :: ops => delivered ops

/-- The value of a hexadecimal digit in ASCII. -/
def digitOf (b : UInt8) : Option Nat :=
  if 48 ≤ b.toNat ∧ b.toNat ≤ 57 then some (b.toNat - 48)
  else if 65 ≤ b.toNat ∧ b.toNat ≤ 70 then some (b.toNat - 55)
  else none

/-- The number a text of hexadecimal digits reads as, after `n`. -/
def readHex : Nat → Bytes → Option Nat
  | n, [] => some n
  | n, b :: bs => (digitOf b).bind fun d => readHex (16 * n + d) bs

/-- The upper-case hexadecimal numeral of a number: it reads as the number and has no needless zeros. -/
def IsNumeral (n : Nat) (key : Bytes) : Prop :=
  key ≠ [] ∧ readHex 0 key = some n ∧ (key.head? = some 48 → key = [48])

/-- The Kafka message for a raw event; `key` says which key its ordering value gives. -/
structure IsMessage (topic : Str) (key : Nat → Bytes) (r : RawEvent) (s : Submission) : Prop where
  topic : s.topic = topic
  payload : s.payload = r.bytes
  key : s.key = key r.orderBy
  headers : s.headers = r.metadata.getD []
  connection : s.connectionId = r.connectionId

/-- How many messages of a connection were published. -/
def publishedOf (c : Nat) (es : List KEvent) : Nat := es.countP (· = .final (some c) .published)

/-- How many messages of a connection were given up. -/
def lostOf (c : Nat) (es : List KEvent) : Nat :=
  es.countP fun e => e = .final (some c) .failed || e = .final (some c) .unretryable

/-- An answer that is not the end of the message, unless it is published. -/
def Hopeful : KOutcome → Prop
  | .published => True
  | .retryable m => m.payload.isSome ∧ m.key.isSome
  | _ => False

/-- "Try again": a recoverable error, with the message handed back. -/
def Again (s : Submission) (o : KOutcome) : Prop := isRetryable o = true ∧ Faithful s o

end Verif.Kafka
