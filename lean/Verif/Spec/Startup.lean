import Verif.Model.Startup
/-!
# Specification of start-up (C121)
-/
namespace Verif.Startup
open Config Topology
variable {F : Type}

/-- Each address can be bound when those before it have been. -/
def BindInTurn (bind : List Addr → Addr → Bool) (addrs : List Addr) : Prop :=
  ∀ before x after, addrs = before ++ x :: after → bind before x = true

/-- The TCP sources, in the order they are started. -/
def tcps (a : Args F) : List Tcp := a.natives ++ a.graphites ++ a.avros

/-- The addresses of a host and port; none if the host is unknown. -/
def addresses (h : Host) (host : Str) (port : Nat) : List Addr := (h.resolve host port).getD []

/-- What must be so for `main` to come through. -/
structure CanStart (h : Host) (a : Args F) : Prop where
  /-- a queue can be made for each sink and filter -/
  queues : ∀ n ∈ a.sinkNames ++ a.filterNodes.map (·.1), h.channel n = true
  /-- the nodes can be connected as asked -/
  wired : ∃ w, wire a.topology = .ok w
  wavefront : ∀ w, a.wavefront = some w → w.host ≠ []
  influxdb : ∀ i, a.influxdb = some i → h.influxUrl i = true
  kafka : ∀ k ∈ a.kafkas, h.producer k.brokers (k.rdkafka.getD []) = true
  /-- the hosts of TCP sources are known -/
  known : ∀ t ∈ tcps a, (h.resolve t.host t.port).isSome = true
  /-- no address to listen on is taken, not even by another of the sources -/
  tcp : BindInTurn h.tcpBind ((tcps a).flatMap fun t => addresses h t.host t.port)
  udp : BindInTurn h.udpBind (a.statsds.flatMap fun s => addresses h s.host s.port)

/-- The part of `CanStart` that is not about the connections between the nodes. -/
structure Provided (h : Host) (a : Args F) : Prop where
  queues : ∀ n ∈ a.sinkNames ++ a.filterNodes.map (·.1), h.channel n = true
  wavefront : ∀ w, a.wavefront = some w → w.host ≠ []
  influxdb : ∀ i, a.influxdb = some i → h.influxUrl i = true
  kafka : ∀ k ∈ a.kafkas, h.producer k.brokers (k.rdkafka.getD []) = true
  known : ∀ t ∈ tcps a, (h.resolve t.host t.port).isSome = true
  tcp : BindInTurn h.tcpBind ((tcps a).flatMap fun t => addresses h t.host t.port)
  udp : BindInTurn h.udpBind (a.statsds.flatMap fun s => addresses h s.host s.port)

/-- Everything works that a component needs at its start. -/
structure AllWell (h : Host) (a : Args F) : Prop where
  main : CanStart h a
  scripts : ∀ f ∈ a.programmables, h.script f.scriptsDirectory f.script = true
  patterns : ∀ f ∈ a.files, h.pattern f.file = true
  hosts : ∀ t ∈ tcps a, h.resolve t.host t.port ≠ some []
  statsd : ∀ s ∈ a.statsds, ∃ x xs, h.resolve s.host s.port = some (x :: xs)
  http : ∀ p, a.prometheus = some p → h.http p.host p.port = true

end Verif.Startup
