import Verif.Model.Tcp
/-!
# Specification vocabulary for listening sockets (C97, C98)
-/
namespace Verif

namespace Tcp

/-- The accept loop goes round. -/
def State.serving (s : State) : Prop := s.phase ≠ .stopping ∧ s.phase ≠ .panicked

/-- The loop will look at a token: its event is pending, or has been reported, or it is being looked at. -/
def State.noticed (s : State) (t : Nat) : Prop :=
  s.pending t = true ∨
  (∃ events, s.phase = .handling events ∧ t ∈ events) ∨
  ∃ i events, s.phase = .accepting i events ∧ (t = i ∨ t ∈ events)

end Tcp

namespace Udp

/-- The loop goes round. -/
def State.serving (s : State) : Prop := s.phase ≠ .returned ∧ s.phase ≠ .panicked

/-- The loop will look at a socket. -/
def State.noticed (s : State) (t : Nat) : Prop :=
  s.pending t = true ∨
  (∃ events, s.phase = .handling events ∧ t ∈ events) ∨
  ∃ i events, s.phase = .reading i events ∧ (t = i ∨ t ∈ events)

/-- The datagrams that arrive at a socket in a schedule, by number of arrival, in order; `c` is the number of the next. -/
def arrivals (i : Nat) : Nat → List Label → List Nat
  | _, [] => []
  | c, .arrive j :: ls => if j = i then c :: arrivals i (c + 1) ls else arrivals i (c + 1) ls
  | c, _ :: ls => arrivals i c ls

/-- The datagrams read from a socket, in order. -/
def State.readFrom (s : State) (i : Nat) : List Nat := (s.read.filter fun x => x.1 = i).map fun x => x.2

/-- The datagrams that wait at a socket, in order. -/
def State.waitingAt (s : State) (i : Nat) : List Nat := match s.sockets[i]? with
  | some k => k.waiting
  | none => []

end Udp
end Verif
