import Verif.Model.Prometheus
/-!
# Scraping: the Prometheus sink and its HTTP server

src/http.rs and src/sink/prometheus.rs:393-444, 630-675.  The sink's thread and the server's thread share the aggregation behind a
mutex.  Steps of the two threads and of clients are labels; a list of labels is a schedule.  What `tiny_http` does with requests
before it hands them over is external; it hands them over one by one, in the order they were made.
-/
namespace Verif
namespace Scrape
open Prometheus
section
variable {F : Type} [F64 F]

/-- What the sink's thread is doing — src/sink/prometheus.rs:656-675. -/
inductive SinkPhase (F : Type) [F64 F] where
  /-- waiting for its run-loop to call it -/
  | idle
  /-- in `insert`, holding the lock -/
  | inserting (t : Telemetry F)
  /-- in `purge`, holding the lock; called by `flush`, which `shutdown` calls too -/
  | purging (now : Int) (stop : Bool)
  /-- in `http_srv.shutdown()`, waiting for the server -/
  | stopping
  | returned
  | panicked

/-- What the server's thread is doing — src/http.rs:31-63, src/sink/prometheus.rs:394-443. -/
inductive ServerPhase where
  | polling
  /-- in `recv_timeout` -/
  | receiving
  /-- at the start of `handle`, with a request -/
  | handling (r : Nat)
  /-- writing the text, holding the lock -/
  | writing (r : Nat)
  | ended
  | panicked
deriving DecidableEq

/-- Who holds the lock.  The sink is src/sink/prometheus.rs:630-675, its handler src/sink/prometheus.rs:394-443, the server src/http.rs:31-64. -/
inductive Holder where
  | nobody
  | sink
  | server
deriving DecidableEq

/-- Both threads, the lock and the clients.  A request is known by its number.  The sink is src/sink/prometheus.rs:630-675, its handler src/sink/prometheus.rs:394-443, the server src/http.rs:31-64. -/
structure State (F : Type) [F64 F] where
  aggr : Aggr F
  holder : Holder := .nobody
  poisoned : Bool := false
  sink : SinkPhase F := .idle
  server : ServerPhase := .polling
  /-- the server has been told to shut down -/
  system : Bool := false
  /-- requests made so far -/
  requests : Nat := 0
  /-- those the server has not received -/
  waiting : List Nat := []
  /-- answers: the request, and the text, or nothing -/
  answers : List (Nat × Option (List (Line F))) := []

/-- The configuration.  The sink is src/sink/prometheus.rs:630-675, its handler src/sink/prometheus.rs:394-443, the server src/http.rs:31-64. -/
structure Setup (F : Type) [F64 F] where
  ext : Ext F
  tags : TagMap
  ageThreshold : Option Nat
  capacity : Nat
  gzip : Bool := false

/-- `init` — src/sink/prometheus.rs:631-650, src/http.rs:68-76.  If the address cannot be bound (`bound`), only the server's thread panics. -/
def State.start (p : Setup F) (bound : Bool) : State F :=
  { aggr := Aggr.new p.capacity, server := if bound then .polling else .panicked }

/-- What happens next.  The sink is src/sink/prometheus.rs:630-675, its handler src/sink/prometheus.rs:394-443, the server src/http.rs:31-64. -/
inductive Label (F : Type) [F64 F] where
  /-- the sink is given a point -/
  | deliver (now : Int) (t : Telemetry F)
  /-- the sink is flushed -/
  | flush (now : Int)
  /-- the sink is shut down -/
  | shutdown (now : Int)
  /-- the sink finishes what it does with the aggregation, and releases the lock -/
  | finish
  /-- the sink's `join` of the server returns -/
  | join
  /-- a client makes a request -/
  | request
  /-- the server's `poll` returns -/
  | poll
  /-- the server receives a request, or finds that there is none for a second -/
  | recv
  /-- `poll` or `recv_timeout` fails -/
  | fail
  /-- `try_lock` -/
  | tryLock
  /-- the server writes the text, iterating over the map in this order of positions, and releases the lock -/
  | write (now : Int) (order : List Nat)

/-- Is a point young enough? — src/sink/prometheus.rs:662-663. -/
def Setup.accepts (p : Setup F) (now : Int) (t : Telemetry F) : Bool := match p.ageThreshold with
  | some age => decide (((t.timestamp - now).natAbs : Int) ≤ Wavefront.asI64 age)
  | none => true

/-- `self.aggrs.lock().unwrap()`: `none` while the server holds the lock.  The sink is src/sink/prometheus.rs:630-675, its handler src/sink/prometheus.rs:394-443, the server src/http.rs:31-64. -/
def State.lock (s : State F) (phase : SinkPhase F) : Option (State F) :=
  if s.poisoned then some { s with sink := .panicked }
  else if s.holder = .nobody then some { s with sink := phase, holder := .sink }
  else none

/-- One step; `none` if the label is not possible.

* `deliver` — src/sink/prometheus.rs:661-669; `flush`, `shutdown` — 656-659, 671-674; a panic while the lock is held poisons it.
* `join` — src/thread.rs:35-48: a panic of the server is passed on.
* `poll`, `recv`, `fail` — src/http.rs:38-62: requests are not received once the system event is pending.
* `tryLock`, `write` — src/sink/prometheus.rs:394-443: without the lock, or with nothing to say, the request is dropped.

Simplification: failures to send the answer, which only change counters, are left out. -/
def step (p : Setup F) (s : State F) : Label F → Option (State F)
  | .deliver now t => match s.sink with
    | .idle => if p.accepts now t then s.lock (.inserting t) else some s
    | _ => none
  | .flush now => match s.sink with
    | .idle => s.lock (.purging now false)
    | _ => none
  | .shutdown now => match s.sink with
    | .idle => s.lock (.purging now true)
    | _ => none
  | .finish => match s.sink with
    | .inserting t => match s.aggr.insert p.ext t with
      | some (a, _) => some { s with aggr := a, holder := .nobody, sink := .idle }
      | none => some { s with poisoned := true, holder := .nobody, sink := .panicked }
    | .purging now stop =>
      let s := { s with aggr := (s.aggr.purge now).1, holder := .nobody }
      some (if stop then { s with system := true, sink := .stopping } else { s with sink := .idle })
    | _ => none
  | .join => match s.sink, s.server with
    | .stopping, .ended => some { s with sink := .returned }
    | .stopping, .panicked => some { s with sink := .panicked }
    | _, _ => none
  | .request => some { s with requests := s.requests + 1, waiting := s.waiting ++ [s.requests] }
  | .poll => match s.server with
    | .polling => some { s with server := if s.system then .ended else .receiving }
    | _ => none
  | .recv => match s.server with
    | .receiving => match s.waiting with
      | [] => some { s with server := .polling }
      | r :: rs => some { s with server := .handling r, waiting := rs }
    | _ => none
  | .fail => match s.server with
    | .polling | .receiving => some { s with server := .panicked }
    | _ => none
  | .tryLock => match s.server with
    | .handling r =>
      if s.poisoned = true ∨ s.holder ≠ .nobody then some { s with answers := s.answers ++ [(r, none)], server := .polling }
      else some { s with holder := .server, server := .writing r }
    | _ => none
  | .write now order => match s.server with
    | .writing r =>
      if order.Perm (List.range s.aggr.data.length) then
        match scrape p.ext p.tags p.gzip now false (order.filterMap fun i => s.aggr.data[i]?) with
        | none => some { s with poisoned := true, holder := .nobody, server := .panicked }
        | some answer => some { s with answers := s.answers ++ [(r, answer)], holder := .nobody, server := .polling }
      else none
    | _ => none

/-- A schedule.  The sink is src/sink/prometheus.rs:630-675, its handler src/sink/prometheus.rs:394-443, the server src/http.rs:31-64. -/
def run (p : Setup F) : State F → List (Label F) → Option (State F)
  | s, [] => some s
  | s, l :: ls => (step p s l).bind fun s' => run p s' ls

end
end Scrape
end Verif
