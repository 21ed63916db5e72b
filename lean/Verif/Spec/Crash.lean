import Verif.Model.Crash
import Verif.Spec.Net
/-!
# Specification vocabulary for threads that panic (C117)
-/
namespace Verif
namespace Crash
section
variable {F : Type} [F64 F]

/-- `main` joins all sinks and then all filters (src/bin/cernan.rs:805-806). -/
def SinksFirst (p : Net.Setup F) : Prop := ∃ a b, p.joinOrder = a ++ b ∧
  a.Perm (p.wiring.sinks.map (·.1)) ∧ b.Perm (p.wiring.filters.map (·.1))

/-- Every thread that has not panicked gets its turn again and again. -/
structure Fair (p : Net.Setup F) (ls : Nat → Label F) : Prop where
  nodes : ∀ n, n ∈ p.wiring.sinks.map (·.1) ++ p.wiring.filters.map (·.1) → ∀ t, ∃ t' ≥ t, ∃ now, ls t' = .net (.act n now)
  sources : ∀ i, i < p.wiring.sources.length → ∀ t, ∃ t' ≥ t, ls t' = .net (.stop i)
  main : ∀ t, ∃ t' ≥ t, ls t' = .net .main

/-- Some way from a source to this filter or sink leads through none of the filters `dead`. -/
inductive Served (c : Topology.Config) (dead : Str → Prop) : Str → Prop
  | source (s n : Str) : s ∈ (c.natives ++ c.sources).map (·.1) → Topology.Forwards c s n → Served c dead n
  | filter (f n : Str) : Served c dead f → ¬ dead f → Topology.Forwards c f n → Served c dead n

/-- The filter panics before it has sent a `Shutdown`. -/
def DiesMute (p : Net.Setup F) (ls : Nat → Label F) (f : Str) : Prop :=
  ∃ t, .node f ∈ (run p ls t).dead ∧ ∀ nd, (run p ls t).net.nodes f = some nd → .shutdown ∉ nd.sent

/-- The process is over: `main` has returned, or panicked. -/
def Over (s : State F) : Prop := s.net.main = .exited ∨ s.aborted = true

/-- However far the process has got, flushing a sink often enough opens its valve. -/
def ValvesReopen (p : Net.Setup F) (ls : Nat → Label F) : Prop :=
  ∀ n t m r, (run p ls t).net.nodes n = some (.sink (p.sink n) m r) → ∃ N, (p.sink n).impl.valveOpen (flushes (p.sink n).impl N r.state) = true

/-- The thread has done all it was to do. -/
def Finished (s : State F) : Thread → Prop
  | .source i => i ∈ s.net.ended
  | .node n => ∃ nd, s.net.nodes n = some nd ∧ nd.returned = true

end
end Crash
end Verif
