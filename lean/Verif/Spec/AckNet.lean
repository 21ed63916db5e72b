import Verif.Spec.AckLive
import Verif.Spec.NetFlow
import Verif.Spec.Kafka
import Verif.Model.SinkImpls
/-!
# Specification vocabulary: connections whose messages go through the whole process (C147)
-/
namespace Verif
open Net

/-- How many messages of connection `c` have been acknowledged in this history. -/
def Ack.acksOf (c : Nat) (trace : List Ack.AckEvent) : Nat :=
  trace.countP fun e => match e with | .acked c' _ => c' == c | _ => false

/-- An execution of the connections and an execution of the process are two views of the same: connection `conn` belongs to source `i`, and what that sends for it is
acknowledged by the Kafka sink `n`.  What happens in step `t` of the process is what happens to the connections from `time t` until `time (t + 1)`: sending for the
connection is the source's sending, and the connection has been acknowledged as often as the sink has given an acknowledgement for it. -/
structure Joined {F : Type} [F64 F] (p : Setup F) (ls : Nat → Label F) (n : Str) (utf8 : Bytes → Bool) (interval : Nat) (sink : Kafka) (i conn : Nat)
    (acts : Nat → Option Ack.Act) (w : Nat → Ack.World) (time : Nat → Nat) : Prop where
  start : time 0 = 0
  forward : ∀ t, time t ≤ time (t + 1)
  unbounded : ∀ s, ∃ t, s < time t
  sends : ∀ t s copies, time t ≤ s → s < time (t + 1) → acts s = some (.send conn copies) →
    ∃ e, ls t = .emit i (.raw e) ∧ e.connectionId = some conn
  own : ∀ t j e, ls t = .emit j (.raw e) → e.connectionId = some conn → j = i
  acked : ∀ t m r k, (run p ls t).nodes n = some (.sink ⟨_, kafkaImpl utf8 interval, some sink⟩ m r) → r.state = some k →
    Ack.acksOf conn (w (time t)).trace = (Kafka.acks k.trace).count conn

end Verif
