/-!
# Fan-out

Models `util::send` (src/util.rs:27-68).  The element type is arbitrary.
-/
namespace Verif

/-- What one `hopper::Sender::send` call reports: accepted, `Error::Full`, or any
other error.  External: hopper hands the event back with the error.  Matched at src/util.rs:28-68. -/
inductive SendOutcome where
  | ok | full | other
deriving DecidableEq, Repr

/-- A downstream channel: the events it has accepted, and the outcomes its next
send attempts will report (after the script is used up every attempt succeeds).
Simplification: a channel that reports transient errors forever, on which `send`
never returns, is outside the model — src/util.rs:28-68. -/
structure Chan (E : Type) where
  accepted : List E
  script : List SendOutcome
deriving DecidableEq

/-- `while let Err(res) = chan.send(event) { .. }` — src/util.rs:38-53 and 56-67.
Returns the new script, what the channel accepted, and how much
`UTIL_SEND_HOPPER_ERROR_FULL` grew. -/
def sendLoop {E : Type} (event : E) : List SendOutcome → List E → Chan E × Nat
  | [], acc => (⟨acc ++ [event], []⟩, 0)
  | .ok :: s, acc => (⟨acc ++ [event], s⟩, 0)
  | .full :: s, acc => (⟨acc, s⟩, 1)
  | .other :: s, acc => sendLoop event s acc

/-- The `for chan in &mut chans[1..]` loop — src/util.rs:36-54. -/
def sendRest {E : Type} (event : E) : List (Chan E) → List (Chan E) × Nat
  | [] => ([], 0)
  | c :: cs =>
    let (c', n) := sendLoop event c.script c.accepted
    let (cs', m) := sendRest event cs
    (c' :: cs', n + m)

/-- `util::send` — src/util.rs:28-68: nothing without channels; otherwise clones go
to `chans[1..]` and the event itself to `chans[0]` last. -/
def send {E : Type} (chans : List (Chan E)) (event : E) : List (Chan E) × Nat :=
  match chans with
  | [] => ([], 0)
  | c0 :: cs =>
    let (cs', m) := sendRest event cs
    let (c0', n) := sendLoop event c0.script c0.accepted
    (c0' :: cs', m + n)

/-- A sequence of sends, as sources and filters perform — src/util.rs:28-68. -/
def sendAll {E : Type} (chans : List (Chan E)) : List E → List (Chan E) × Nat
  | [] => (chans, 0)
  | e :: es =>
    let (chans', n) := send chans e
    let (chans'', m) := sendAll chans' es
    (chans'', n + m)

end Verif
