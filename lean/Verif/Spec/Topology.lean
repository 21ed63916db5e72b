import Verif.Model.Topology
/-! # Specification vocabulary for the wiring -/
namespace Verif.Topology

/-- In the configuration, `n` lists `x` among its forwards. -/
def Forwards (c : Config) (n x : Str) : Prop :=
  ∃ fs, (n, fs) ∈ c.filters ++ c.natives ++ c.sources ∧ x ∈ fs

/-- `x` is a sink or a filter: something that can be sent to. -/
def HasChannel (c : Config) (x : Str) : Prop := x ∈ c.sinks ∨ ∃ fs, (x, fs) ∈ c.filters

/-- No two nodes have the same name. -/
def Distinct (c : Config) : Prop :=
  (c.sinks ++ (c.filters ++ c.natives ++ c.sources).map (·.1)).Nodup

instance (c : Config) : Decidable (Distinct c) :=
  inferInstanceAs (Decidable (c.sinks ++ (c.filters ++ c.natives ++ c.sources).map (·.1)).Nodup)

end Verif.Topology
