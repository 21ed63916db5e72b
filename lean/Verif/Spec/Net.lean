import Verif.Model.Net
import Verif.Spec.Pipeline
import Verif.Spec.Topology
/-!
# Specification vocabulary for the whole process (C92, C93)
-/
namespace Verif
namespace Net
open Topology

/-- Some source forwards to the node, or some node that is fed does. -/
inductive Fed (c : Config) : Str → Prop where
  | source (s n : Str) : s ∈ (c.natives ++ c.sources).map (·.1) → Forwards c s n → Fed c n
  | filter (f n : Str) : Fed c f → Forwards c f n → Fed c n

/-- Source `s` reaches `n` through the filters `fs`, and nothing else is forwarded to `n` or to any filter on the way. -/
inductive Only (c : Config) (s : Str) : List Str → Str → Prop where
  | direct (n : Str) : s ∈ (c.natives ++ c.sources).map (·.1) → Forwards c s n → (∀ u, Forwards c u n → u = s) → Only c s [] n
  | via (fs : List Str) (f n : Str) : Only c s fs f → Forwards c f n → (∀ u, Forwards c u n → u = f) →
      Only c s (fs ++ [f]) n

/-- Sources, any number of them, forward to `first`, and nothing else does; from there a single chain of filters leads to `n`: the filters are `fs`,
of which the first is `first`; if there are none `first` is `n`. -/
inductive Funnel (c : Config) (first : Str) : List Str → Str → Prop where
  | sources : HasChannel c first → (∀ u, Forwards c u first → u ∈ (c.natives ++ c.sources).map (·.1)) → Funnel c first [] first
  | via (fs : List Str) (f n : Str) : Funnel c first fs f → Forwards c f n → (∀ u, Forwards c u n → u = f) → Funnel c first (fs ++ [f]) n

section
variable {F : Type} [F64 F]

/-- Every thread gets its turn again and again, and a source that is told to shut down gets round to it. -/
structure Fair (p : Setup F) (ls : Nat → Label F) : Prop where
  nodes : ∀ n, n ∈ p.wiring.sinks.map (·.1) ++ p.wiring.filters.map (·.1) → ∀ t, ∃ t' ≥ t, ∃ now, ls t' = .act n now
  sources : ∀ i, i < p.wiring.sources.length → ∀ t, ∃ t' ≥ t, ls t' = .stop i
  main : ∀ t, ∃ t' ≥ t, ls t' = .main

/-- No `Shutdown` is ever dropped because a queue is full. -/
def ShutdownsKept (p : Setup F) (ls : Nat → Label F) : Prop := ∀ t n x, (x, .shutdown) ∉ (run p ls t).lost n

/-- What a source has sent by some time: what it served before it returned, and its `Shutdown` when it did. -/
def sourceSent (p : Setup F) (ls : Nat → Label F) (i : Nat) : Nat → List (Event F)
  | 0 => []
  | t + 1 => sourceSent p ls i t ++ match ls t with
    | .emit j e => if j = i ∧ Event.isServed e ∧ i ∉ (run p ls t).ended then [e] else []
    | .stop j => if j = i ∧ i ∈ (run p ls t).told ∧ i ∉ (run p ls t).ended then [.shutdown] else []
    | _ => []

/-- What a queue has accepted from one sender, in order; or, given the other record, what was dropped because it was full. -/
def acceptedFrom (x : Sender) (log : List (Sender × Event F)) : List (Event F) :=
  (log.filter (·.1 == x)).map (·.2)

/-- What a sink is given comes from the sources that forward to `first`: of each, in order, all that it sent until time `T`, and perhaps some of what
it sent until `t`; nothing else but pulses of the timer. -/
def FromSources (c : Config) (p : Setup F) (ls : Nat → Label F) (first : Str) (T t : Nat) (received : List (Sender × Event F)) : Prop :=
  (∀ x ∈ received, x.2.isShutdown = false ∧ match x.1 with
    | .source i => ∃ s chans, p.wiring.sources[i]? = some (s, chans) ∧ Forwards c s first
    | .timer => x.2.isTimerFlush = true
    | .filter _ => False) ∧
  ∀ i s chans, p.wiring.sources[i]? = some (s, chans) → Forwards c s first →
    sourceSent p ls i T <+: acceptedFrom (.source i) received ∧ acceptedFrom (.source i) received <+: sourceSent p ls i t

/-- Every item of `all` is in one of the two lists `kept` and `dropped`, which have them in the same order. -/
inductive Parted {α : Type} : List α → List α → List α → Prop where
  | nil : Parted [] [] []
  | kept (x : α) {kept dropped all : List α} : Parted kept dropped all → Parted (x :: kept) dropped (x :: all)
  | dropped (x : α) {kept dropped all : List α} : Parted kept dropped all → Parted kept (x :: dropped) (x :: all)

/-- What a chain of filters makes of a finite sequence of events if behind every filter some of what it sends is dropped: `drops` has, for
every filter, what. -/
inductive Lossy : List (Pipeline.FilterCode F) → List (Event F) → List (List (Event F)) → List (Event F) → Prop where
  | done (es) : Lossy [] es [] es
  | filter (f fs es) (clock : List Int) (kept d drops out) : clock.length = es.length →
      Parted kept d (expectedSent f.process f.start ((clock.zip es).map some)) → Lossy fs kept drops out →
      Lossy (f :: fs) es (d :: drops) out

/-- What a filter has sent. -/
def Node.sent : Node F → List (Event F)
  | .filter _ _ _ _ r => r.sent
  | .sink _ _ _ => []

/-- What a sink has been given. -/
def Node.delivered : Node F → List (Event F)
  | .filter _ _ _ _ _ => []
  | .sink _ _ r => deliveredBy r.calls

/-- The process has been set up for this configuration: the wiring is that of start-up; `main` goes through the
handles it holds, in some order; filters treat events one by one and do not make up `Shutdown`s. -/
structure SetUp (c : Config) (p : Setup F) : Prop where
  wired : wire c = .ok p.wiring
  stopOrder : p.stopOrder.Perm ((handles p.wiring).map (·.2))
  joinOrder : p.joinOrder.Perm (p.wiring.sinks.map (·.1) ++ p.wiring.filters.map (·.1))
  filters : ∀ n ∈ c.filters.map (·.1), Pipeline.Proper (p.filter n)

/-- Flushing opens the valves of every sink. -/
def SinksReopen (c : Config) (p : Setup F) : Prop := ∀ n ∈ c.sinks, Reopens (p.sink n).impl (p.sink n).start

end
end Net
end Verif
