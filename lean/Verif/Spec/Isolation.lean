import Verif.Spec.Net
/-!
# What is upstream, and runs that differ only elsewhere (for C140)
-/
namespace Verif
namespace Net
open Topology (Config Forwards Wiring)

/-- `m` is `n` or forwards to something that is upstream of `n`. -/
inductive Upstream (c : Config) (n : Str) : Str → Prop where
  | here : Upstream c n n
  | step (m x : Str) : Forwards c m x → Upstream c n x → Upstream c n m

section
variable {F : Type} [F64 F]

/-- The process after finitely many steps. -/
def after (p : Setup F) (ls : List (Label F)) : State F := ls.foldl (step p) (initial p)

/-- Steps that concern a part of the process: those of its filters and sinks, of sources that send to it, of the timer and of `main`, the signal, and
the ending of sources, for which `main` waits. -/
def concerns (U : Str → Bool) (w : Wiring) : Label F → Bool
  | .act n _ => U n
  | .emit i _ => match w.sources[i]? with
    | some (_, chans) => chans.any U
    | none => false
  | _ => true

/-- Nothing outside of the part sends to it but sources and the timer. -/
def Closed (U : Str → Bool) (w : Wiring) : Prop := ∀ f ups downs, (f, ups, downs) ∈ w.filters → U f = false → ∀ m ∈ downs, U m = false

/-- Two processes that are alike in a part: the same nodes there, with the same code, the same number of upstreams and the same channels into the part; the
same sources as far as they send to the part, stopped in the same order; and the same queues there are full at the same sends.  Everything else may differ:
other filters, sinks and sources, their code, their queues, further channels of the nodes of the part. -/
structure Alike (U : Str → Bool) (p p' : Setup F) : Prop where
  filters : ∀ n, U n = true → (p.wiring.filters.find? (·.1 == n)).map (fun x => (x.2.1.length, x.2.2.filter U)) =
    (p'.wiring.filters.find? (·.1 == n)).map (fun x => (x.2.1.length, x.2.2.filter U))
  sinks : ∀ n, U n = true → (p.wiring.sinks.find? (·.1 == n)).map (·.2.length) = (p'.wiring.sinks.find? (·.1 == n)).map (·.2.length)
  code : ∀ n, U n = true → p.filter n = p'.filter n ∧ p.sink n = p'.sink n
  sources : p.wiring.sources.map (·.2.filter U) = p'.wiring.sources.map (·.2.filter U)
  timer : p.wiring.flush.filter U = p'.wiring.flush.filter U
  stopOrder : p.stopOrder = p'.stopOrder
  full : ∀ n, U n = true → ∀ k, p.full n k = p'.full n k

/-- A node without its channels out of the part. -/
def Node.within (U : Str → Bool) : Node F → Node F
  | .filter f n ch q r => .filter f n (ch.filter U) q r
  | .sink k n r => .sink k n r

end
end Net
end Verif
