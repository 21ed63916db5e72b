import Verif.Spec.Ack
/-!
# Specification: an Avro client that repeats what was not answered, over restarts and kills of cernan (C154)
-/
namespace Verif.Ack

/-- The frames of connection `c` that a sink acknowledged, in order. -/
def ackedOf (c : Nat) (trace : List AckEvent) : List Nat := trace.filterMap fun e => match e with | .acked c' n => if c' = c then some n else none | _ => none

/-- The frames of connection `c` that went to the channels, in order. -/
def sentOf (c : Nat) (trace : List AckEvent) : List Nat := trace.filterMap fun e => match e with | .sent c' n => if c' = c then some n else none | _ => none

/-- The frames of connection `c` that were answered, in order. -/
def answeredOf (c : Nat) (trace : List AckEvent) : List Nat := trace.filterMap fun e => match e with | .answered c' n => if c' = c then some n else none | _ => none

/-- Connection `c` only publishes synchronously, and the source forwards to one channel (the queue may have refused the event).  The other connections do as they like. -/
def Act.SyncOnly (c : Nat) : Act → Prop
  | .publishAsync c' _ => c' ≠ c
  | .send c' copies => c' = c → copies ≤ 1
  | _ => True

/-- One life of cernan, as a client with messages numbered 0, 1, 2, … sees it: the connection it makes, what happens until the life ends, be it in the middle of anything, and how many answers reach
the client. -/
structure Life where
  conn : Nat
  schedule : List Act
  received : Nat

/-- What has happened by the end of the life. -/
def Life.trace (l : Life) : List AckEvent := ((World.run {} l.schedule).getD {}).trace

/-- The life can happen so: no answer reaches the client that was not given. -/
def Life.Happens (l : Life) : Prop := (World.run {} l.schedule).isSome ∧ l.received ≤ (answeredOf l.conn l.trace).length

/-- The client publishes synchronously, and the source forwards to one channel. -/
def Life.Sync (l : Life) : Prop := ∀ a ∈ l.schedule, a.SyncOnly l.conn

/-- The client has been answered `next` messages in the lives before these.  In each life it publishes from the first message it has no answer for onwards, so that frame `n` of the connection
carries message `next + n`.  The messages it publishes that are acknowledged by a sink, in order. -/
def ackedOver (next : Nat) : List Life → List Nat
  | [] => []
  | l :: ls => (ackedOf l.conn l.trace).map (next + ·) ++ ackedOver (next + l.received) ls

/-- The messages that go to the channel, in order. -/
def sentOver (next : Nat) : List Life → List Nat
  | [] => []
  | l :: ls => (sentOf l.conn l.trace).map (next + ·) ++ sentOver (next + l.received) ls

/-- The number of answers the client gets in all. -/
def receivedIn (lives : List Life) : Nat := (lives.map (·.received)).sum

end Verif.Ack
