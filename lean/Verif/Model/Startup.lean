import Verif.Model.Config
/-!
# Start-up: what each component does before it runs

`main` makes the queues, checks the topology, and then makes and starts sinks, filters and sources in turn.  Sinks and sources are
made (`init`) by `main` itself, where a panic ends the process; filters are made in their own threads, where a panic ends that thread alone.
Simplifications: what is asked of the operating system, of librdkafka, of the Lua interpreter and of other libraries is a parameter (`Host`);
file names that are not Unicode do not occur; the threads' own first steps are taken at once; spawning threads and installing the
signal handler succeed.
-/
namespace Verif.Startup
open Config Topology Matrix

/-- A socket address.  Used at src/source/tcp.rs:68-108 and src/source/statsd.rs:138-161. -/
structure Addr where
  ip : Str
  port : Nat
deriving DecidableEq

/-- The world outside.  Asked at src/source/tcp.rs:68-108 and src/source/statsd.rs:138-161. -/
structure Host where
  /-- `hopper::channel_with_explicit_capacity` for a name under the data directory -/
  channel : Str → Bool
  /-- `to_socket_addrs` of a host and port -/
  resolve : Str → Nat → Option (List Addr)
  /-- `mio::net::TcpListener::bind`, given the addresses this process has bound so far -/
  tcpBind : List Addr → Addr → Bool
  /-- `mio::net::UdpSocket::bind`, likewise -/
  udpBind : List Addr → Addr → Bool
  /-- `Url::parse` of the address made from the InfluxDB settings -/
  influxUrl : Influx → Bool
  /-- librdkafka makes a producer from these brokers and settings -/
  producer : Str → List (Str × Str) → Bool
  /-- `tiny_http::Server::http` of a host and port -/
  http : Str → Nat → Bool
  /-- the script can be read and is valid, and running it raises no error; given the scripts directory and the path -/
  script : Str → Str → Bool
  /-- `glob::glob` takes the pattern -/
  pattern : Str → Bool

/-- `WavefrontSink::init` — src/sink/wavefront.rs:582-602: an empty host is a panic; a server that does not answer is not. -/
def initWavefront {F : Type} (w : Config.Wavefront F) : Bool := w.host ≠ []

/-- `InfluxDB::init` — src/sink/influxdb.rs:204-225.  Making the HTTP client succeeds. -/
def initInflux (h : Host) (i : Influx) : Bool := h.influxUrl i

/-- `Kafka::init` — src/sink/kafka.rs:272-301.  Topic and brokers are there: sinks without are left out, src/config.rs:745-770. -/
def initKafka (h : Host) (k : Config.Kafka) : Bool := h.producer k.brokers (k.rdkafka.getD [])

/-- The sinks' `init`, in the order of `main` — src/bin/cernan.rs:422-504.  The null, console, Prometheus, native and Elasticsearch sinks
have nothing in `init` that can fail (src/sink/null.rs:25-27, src/sink/console.rs:68-75, src/sink/prometheus.rs:631-650,
src/sink/native.rs:92-103, src/sink/elasticsearch.rs:161-173). -/
def initSinks {F : Type} (h : Host) (a : Args F) : Bool :=
  a.wavefront.all initWavefront && a.influxdb.all (initInflux h) && a.kafkas.all (initKafka h)

/-- Binding a list of addresses one after another — src/source/tcp.rs:79-85, src/source/statsd.rs:143-147; `none` is a panic
(`.expect("Unable to bind ...")`). -/
def bindAll (bind : List Addr → Addr → Bool) : List Addr → List Addr → Option (List Addr)
  | bound, [] => some bound
  | bound, x :: xs => if bind bound x then bindAll bind (bound ++ [x]) xs else none

/-- What differs between the sources at start.  For src/bin/cernan.rs:77-807. -/
inductive Kind where
  | tcp (host : Str) (port : Nat)
  | statsd (host : Str) (port : Nat)
  | internal
  | file (pattern : Str)
deriving DecidableEq

/-- A source: its name, its forwards and its kind.  For src/bin/cernan.rs:77-807. -/
structure Source where
  path : Str
  forwards : List Str
  kind : Kind
deriving DecidableEq

/-- A TCP source of the configuration.  For src/bin/cernan.rs:77-807. -/
def tcpSource (t : Tcp) : Source := ⟨t.path, t.forwards, .tcp t.host t.port⟩

/-- The sources in the order `main` starts them — src/bin/cernan.rs:654-762: native, internal, statsd, graphite, avro, files. -/
def sourceList {F : Type} (a : Args F) : List Source :=
  a.natives.map tcpSource ++
  ⟨named "sources.internal" [], a.internalForwards, .internal⟩ ::
  (a.statsds.map (fun s => ⟨s.path, s.forwards, .statsd s.host s.port⟩) ++
  a.graphites.map tcpSource ++ a.avros.map tcpSource ++
  a.files.map fun s => ⟨s.path, s.forwards, .file s.file⟩)

/-- What has been started.  For src/bin/cernan.rs:77-807. -/
structure Started where
  wiring : Wiring
  /-- addresses listened on -/
  tcp : List Addr := []
  udp : List Addr := []
  /-- threads of filters and sources that panic as soon as they run -/
  dead : List Str := []
  /-- sources that listen on nothing -/
  deaf : List Str := []

/-- `Source::init`, and the start of the thread — `TCP::init` (src/source/tcp.rs:68-108) panics if the host is unknown or an address
cannot be bound; `Statsd::init` (src/source/statsd.rs:138-161) panics if an address cannot be bound, but only logs an unknown host;
`FileServer::run` (src/source/file/file_server.rs:77-97) panics in its own thread if the pattern is malformed.  `none` is a panic of `main`. -/
def initSource (h : Host) (s : Started) (src : Source) : Option Started :=
  match src.kind with
  | .tcp host port => (h.resolve host port).bind fun addrs =>
      (bindAll h.tcpBind s.tcp addrs).map fun tcp =>
        { s with tcp := tcp, deaf := if addrs.isEmpty then s.deaf ++ [src.path] else s.deaf }
  | .statsd host port => match h.resolve host port with
      | some addrs => (bindAll h.udpBind s.udp addrs).map fun udp =>
          { s with udp := udp, deaf := if addrs.isEmpty then s.deaf ++ [src.path] else s.deaf }
      | none => some { s with deaf := s.deaf ++ [src.path] }
  | .internal => some s
  | .file pattern => some (if h.pattern pattern then s else { s with dead := s.dead ++ [src.path] })

/-- Starting the sources — src/bin/cernan.rs:654-762. -/
def startSources (h : Host) (senders : List Str) : Adjacency Str → Started → List Source → Except Stop Started
  | _, s, [] => .ok s
  | m, s, src :: srcs =>
    match populate senders src.path m src.forwards with
    | none => .error (.exit 0)
    | some m1 =>
      let (downs, m2) := m1.popMetadata src.path
      match initSource h s src with
      | none => .error .panic
      | some s => startSources h senders m2
          { s with wiring := { s.wiring with sources := s.wiring.sources ++ [(src.path, downs)], flush := insertAll s.wiring.flush src.forwards } }
          srcs

/-- The programmable filters whose threads panic in `ProgrammableFilter::new` — src/filter/programmable_filter.rs:469-530, called in the filter's
thread, src/bin/cernan.rs:531-537.  The other filters' `new` cannot fail. -/
def brokenScripts {F : Type} (h : Host) (a : Args F) : List Str :=
  (a.programmables.filter fun f => !h.script f.scriptsDirectory f.script).map (·.path)

/-- `main` up to the point where it waits for a signal — src/bin/cernan.rs:110-789, with the configuration parsed. -/
def start {F : Type} (h : Host) (a : Args F) : Except Stop Started :=
  let c := a.topology
  if (senders c).all h.channel then
    if validate c then
      if initSinks h a then
        let (m, w) := startSinks (matrix c) {} c.sinks
        match startFilters (senders c) m w c.filters with
        | .error e => .error e.why
        | .ok (m, w) => startSources h (senders c) m { wiring := w, dead := brokenScripts h a } (sourceList a)
      else .error .panic
    else .error (.exit 1)
  else .error .panic

/-- Is the Prometheus sink's HTTP server up?  It runs in a thread of its own, which panics if it cannot listen — src/http.rs:69-76. -/
def scrapable {F : Type} (h : Host) (a : Args F) : Bool := a.prometheus.all fun p => h.http p.host p.port

end Verif.Startup
