import Verif.Model.Stream
import Verif.Spec.Graphite
/-! # Specification of reading from a polled socket -/
namespace Verif.Stream

variable {σ : Type}

/-- The handler is in `poll` and nothing will wake it unless something happens from outside. -/
def Asleep (s : State σ) : Prop := s.phase = .polling ∧ s.edge = false ∧ s.system = false

/-- Nothing the client sent is left, neither in the kernel nor in the handler's buffer. -/
def AllRead (h : Handler σ) (s : State σ) : Prop := s.sock.kernel = [] ∧ h.staged s.own = []

/-- How many bytes are left. -/
def unread (h : Handler σ) (s : State σ) : Nat := s.sock.kernel.length + (h.staged s.own).length

/-- The bytes that arrive in the course of these steps. -/
def sent : List Label → Bytes
  | [] => []
  | .arrive bs :: ls => bs ++ sent ls
  | _ :: ls => sent ls

/-- The handler can do nothing by itself. -/
def Stuck (h : Handler σ) (s : State σ) : Prop := ∀ l : Label, l.own = true → step h s l = none

end Verif.Stream
