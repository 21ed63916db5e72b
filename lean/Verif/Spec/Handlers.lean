import Verif.Model.Handlers
import Verif.Spec.Crash
import Verif.Model.Avro
import Verif.Model.Native
import Verif.Model.Graphite
/-!
# Specification vocabulary for stream handlers that panic (C151)
-/
namespace Verif.Handlers
variable {F : Type} [F64 F]

/-- Draining a map yields each of its elements once, in some order. -/
def Drains (p : Setup F) : Prop := ∀ i xs, (p.drain i xs).Perm xs

/-- Every thread that has not panicked gets its turn again and again, and a handler that has been told to shut down comes to an end, by
returning or by panicking, unless the process is over before. -/
structure Fair (p : Setup F) (ls : Nat → Label F) : Prop where
  nodes : ∀ n, n ∈ p.proc.wiring.sinks.map (·.1) ++ p.proc.wiring.filters.map (·.1) → ∀ t, ∃ t' ≥ t, ∃ now, ls t' = .proc (.net (.act n now))
  sources : ∀ i, i < p.proc.wiring.sources.length → ∀ t, ∃ t' ≥ t, ls t' = .proc (.net (.stop i))
  main : ∀ t, ∃ t' ≥ t, ls t' = .proc (.net .main)
  handlers : ∀ i t, ∀ id ∈ ((run p ls t).pools i).signalled, ∃ t' ≥ t, id ∉ ((run p ls t').pools i).running ∨ (run p ls t').proc.aborted = true

/-- A handler of this source panics at some time. -/
def HandlerPanics (p : Setup F) (ls : Nat → Label F) (i : Nat) : Prop := ∃ t, ((run p ls t).pools i).crashed ≠ []

/-- A source panics for some other reason. -/
def SourcePanics (ls : Nat → Label F) : Prop := ∃ t i, ls t = .proc (.crash (.source i))

/-- Handler `id` of source `i` serves an avro connection that reads `items`: it panics at some time iff `handle_stream` does. -/
def ServesAvro (p : Setup F) (ls : Nat → Label F) (i id : Nat) (avroOk : Bytes → Bool) (cid : Nat) (items : List Avro.Item) : Prop :=
  (∃ t, id ∈ ((run p ls t).pools i).crashed) ↔ (Avro.Conn.run avroOk { connectionId := cid } items).ending = .panicked

/-- What a handler serves: a connection of a native, a graphite or an avro source, and all that will be read from it. -/
inductive Connection (F : Type) [F64 F] where
  | native (bits : Native.Bits F) (now : Int) (fuel : Nat) (r : Wire.Reader)
  | graphite (ext : Graphite.Ext F) (now : Int) (lines : List Str)
  | avro (avroOk : Bytes → Bool) (cid : Nat) (items : List Avro.Item)

/-- Serving it ends in a panic. -/
def Connection.Panics : Connection F → Prop
  | .native bits now fuel r => (Native.serve bits now fuel r).2 = .panicked
  | .graphite ext now lines => Graphite.handleLines ext now lines [] = none
  | .avro avroOk cid items => (Avro.Conn.run avroOk { connectionId := cid } items).ending = .panicked

/-- The source has spawned this handler at some time. -/
def Spawned (p : Setup F) (ls : Nat → Label F) (i id : Nat) : Prop := ∃ t, id ∈ ((run p ls t).pools i).spawned

/-- Handlers panic as their code has it. -/
def Serves (p : Setup F) (ls : Nat → Label F) (conn : Nat → Nat → Connection F) : Prop :=
  ∀ i id, (∃ t, id ∈ ((run p ls t).pools i).crashed) ↔ Spawned p ls i id ∧ (conn i id).Panics

end Verif.Handlers
