/-!
# The acknowledgement bag and synchronous publishes

Models src/metric/ackbag.rs and the publish protocol of
src/source/avro.rs:302-344 as a transition system: any number of connection
threads, any number of acknowledging sinks, one step per critical section of the
bag's mutex.  Simplification: mutex poisoning is outside the model (no code panics
while holding the lock).
-/
namespace Verif.Ack

/-- Largest `usize` on the 64-bit targets cernan is built for.  `usize` of `acks_received` — src/metric/ackbag.rs:8-10. -/
def usizeMax : Nat := 18446744073709551615

/-- `SyncAckProps::ack` — src/metric/ackbag.rs:19-21 (`saturating_add(1)`); the
argument is `acks_received`. -/
def ack (acks : Nat) : Nat := min (acks + 1) usizeMax

/-- `SyncAckBag` — src/metric/ackbag.rs:28-32: the acknowledgement count per key. -/
abbrev Bag := Nat → Option Nat

/-- `SyncAckBag::prepare_wait` — src/metric/ackbag.rs:53-56. -/
def Bag.prepareWait (b : Bag) (key : Nat) : Bag := fun k => if k = key then some 0 else b k

/-- `SyncAckBag::remove` — src/metric/ackbag.rs:59-62. -/
def Bag.remove (b : Bag) (key : Nat) : Bag := fun k => if k = key then none else b k

/-- `SyncAckBag::with_props(key, |p| p.ack())` — src/metric/ackbag.rs:67-72, as called
from `Kafka::acknowledge`, src/sink/kafka.rs:378-386. -/
def Bag.ack (b : Bag) (key : Nat) : Bag := fun k => if k = key then (b k).map Ack.ack else b k

/-- `SyncAckBag::props_for` — src/metric/ackbag.rs:44-50. -/
def Bag.propsFor (b : Bag) (key : Nat) : Option Nat := b key

/-- Where a connection thread is in `handle_avro_payload`, src/source/avro.rs:302-344. -/
inductive Pc where
  /-- between frames -/
  | idle
  /-- `prepare_wait` done, `util::send` to come (316-319) -/
  | prepared
  /-- in `wait_for_callback`, about to look at the bag; the argument is
  `current_nap_time` in ms (ackbag.rs:80-94) -/
  | waiting (nap : Nat)
  /-- `wait_for` returned, `remove` to come (332) -/
  | released
  /-- `remove` done, the id is to be written to the client (252-262, 333) -/
  | answering
deriving DecidableEq, Repr

/-- A connection thread: where it is, and the number of the frame it is handling — src/source/avro.rs:169-262, src/source/avro.rs:302-344. -/
structure Thread where
  pc : Pc := .idle
  frame : Nat := 0
deriving DecidableEq

/-- What an observer can see.  The answer is written at src/source/avro.rs:302-344; acknowledgements are src/sink/kafka.rs:378-385. -/
inductive AckEvent where
  /-- connection `c` registered its frame `n` (a synchronous publish) -/
  | registered (c n : Nat)
  /-- connection `c`'s frame `n` went to the channels -/
  | sent (c n : Nat)
  /-- a sink acknowledged the message of connection `c`'s frame `n` -/
  | acked (c n : Nat)
  /-- connection `c` answered its frame `n` to the client -/
  | answered (c n : Nat)
deriving DecidableEq, Repr

/-- The global state: bag, threads, messages accepted by the channels and not yet
acknowledged, and the history.  The bag is src/metric/ackbag.rs:30-32. -/
structure World where
  bag : Bag := fun _ => none
  threads : Nat → Thread := fun _ => {}
  inflight : List (Nat × Nat) := []
  trace : List AckEvent := []

/-- A scheduling choice.  `copies` is how many channels `util::send` forwarded the
event to.  Steps of src/source/avro.rs:302-344, of src/metric/ackbag.rs:80-94 and of src/sink/kafka.rs:378-385. -/
inductive Act where
  | publishAsync (c copies : Nat)
  | publishSync (c : Nat)
  | send (c copies : Nat)
  | poll (c : Nat)
  | remove (c : Nat)
  | answer (c : Nat)
  | sinkAck (c n : Nat)
deriving DecidableEq, Repr

/-- replace one thread.  For the steps of src/source/avro.rs:302-344. -/
def World.setThread (w : World) (c : Nat) (t : Thread) : World :=
  { w with threads := fun x => if x = c then t else w.threads x }

/-- One atomic step; `none` when the step is not possible in this state.
* `publishAsync`: src/source/avro.rs:319-328, 335 — no registration, send, no answer;
* `publishSync`: 314-317; `send`: 319-328;
* `poll`: one iteration of src/metric/ackbag.rs:84-93 (naps start at 5 ms and double
  up to 250 ms);
* `remove`: src/source/avro.rs:332; `answer`: 333 and 251-262;
* `sinkAck`: src/sink/kafka.rs:378-386 for one accepted message. -/
def World.step (w : World) : Act → Option World
  | .publishAsync c copies =>
    let t := w.threads c
    match t.pc with
    | .idle => some { w.setThread c ⟨.idle, t.frame + 1⟩ with
        inflight := w.inflight ++ List.replicate copies (c, t.frame)
        trace := w.trace ++ [.sent c t.frame] }
    | _ => none
  | .publishSync c =>
    let t := w.threads c
    match t.pc with
    | .idle => some { w.setThread c ⟨.prepared, t.frame⟩ with
        bag := w.bag.prepareWait c
        trace := w.trace ++ [.registered c t.frame] }
    | _ => none
  | .send c copies =>
    let t := w.threads c
    match t.pc with
    | .prepared => some { w.setThread c ⟨.waiting 5, t.frame⟩ with
        inflight := w.inflight ++ List.replicate copies (c, t.frame)
        trace := w.trace ++ [.sent c t.frame] }
    | _ => none
  | .poll c =>
    let t := w.threads c
    match t.pc with
    | .waiting nap =>
      match w.bag.propsFor c with
      | some acks =>
        if acks = 0 then some (w.setThread c ⟨.waiting (min 250 (nap * 2)), t.frame⟩)
        else some (w.setThread c ⟨.released, t.frame⟩)
      | none => some (w.setThread c ⟨.released, t.frame⟩)
    | _ => none
  | .remove c =>
    let t := w.threads c
    match t.pc with
    | .released => some { w.setThread c ⟨.answering, t.frame⟩ with bag := w.bag.remove c }
    | _ => none
  | .answer c =>
    let t := w.threads c
    match t.pc with
    | .answering => some { w.setThread c ⟨.idle, t.frame + 1⟩ with
        trace := w.trace ++ [.answered c t.frame] }
    | _ => none
  | .sinkAck c n =>
    if (c, n) ∈ w.inflight then
      some { w with
        inflight := w.inflight.erase (c, n)
        bag := w.bag.ack c
        trace := w.trace ++ [.acked c n] }
    else none

/-- A schedule.  Of the threads of src/source/tcp.rs:179-222 and of the sinks. -/
def World.run (w : World) : List Act → Option World
  | [] => some w
  | a :: as => (w.step a).bind (·.run as)

end Verif.Ack
