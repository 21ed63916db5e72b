import Verif.Model.Thread
/-!
# Listening: the accept loop of TCP sources

src/source/tcp.rs and `TokenSlab` (src/util.rs:87-151).  The operating system and mio are external: sockets are registered
edge-triggered, so one event is reported for connections that arrive after the socket was last found empty, and a poll returns some of the
events pending.  Steps of the world, the accept loop and its handler threads are labels; a list of labels is a schedule.
-/
namespace Verif
namespace Tcp

/-- `constants::SYSTEM` — src/constants.rs:9. -/
def SYSTEM : Nat := 2048

/-- `TokenSlab` — src/util.rs:95-98.  Nothing is ever removed from it, so the slab is a list, and keys are positions. -/
structure TokenSlab (α : Type) where
  count : Nat := 0
  tokens : List α := []

/-- `TokenSlab::insert` — src/util.rs:146-150. -/
def TokenSlab.insert {α : Type} (s : TokenSlab α) (x : α) : Nat × TokenSlab α :=
  (s.tokens.length, { tokens := s.tokens ++ [x], count := s.count + 1 })

/-- `index` — src/util.rs:106-119; `none` is a panic. -/
def TokenSlab.index {α : Type} (s : TokenSlab α) (t : Nat) : Option α := s.tokens[t]?

/-- `TokenSlab::iter` — src/util.rs:135-137: tokens and elements. -/
def TokenSlab.iter {α : Type} (s : TokenSlab α) : List (Nat × α) := s.tokens.zipIdx.map fun x => (x.2, x.1)

/-- One address — src/source/tcp.rs:76-88: binding to it gives a listener, or fails, which is a panic. -/
def bind {α : Type} (s : Option (TokenSlab α)) (a : Option α) : Option (TokenSlab α) :=
  match s, a with
  | some s, some x => some (s.insert x).2
  | _, _ => none

/-- `init` — src/source/tcp.rs:67-108: each address found, in order.  A failed look-up is a panic (`none`).  The listeners, and the
token of the stream events. -/
def init {α : Type} (addrs : Option (List (Option α))) : Option (TokenSlab α × Nat) :=
  match addrs with
  | none => none
  | some as => (as.foldl bind (some {})).map fun s => (s, s.count)

/-- A listening socket — src/source/tcp.rs:140-177, src/source/tcp.rs:179-222. -/
structure Listener where
  /-- connections made and not yet accepted -/
  waiting : Nat := 0
  /-- registered with the poller -/
  registered : Bool := true
  /-- the poller has an event of it to report -/
  ready : Bool := false
deriving DecidableEq

/-- What `accept` returns — src/source/tcp.rs:186-218. -/
inductive Accept where
  | ok
  /-- `ConnectionAborted`: a waiting connection is gone -/
  | aborted
  /-- `Interrupted`, `TimedOut` -/
  | again
  | wouldBlock
  | other
deriving DecidableEq

/-- Where the accept loop is — src/source/tcp.rs:140-177. -/
inductive Phase where
  /-- in `poll` -/
  | polling
  /-- in `for event in events`: those left, by token -/
  | handling (events : List Nat)
  /-- in the loop of `spawn_stream_handlers` -/
  | accepting (i : Nat) (events : List Nat)
  /-- has seen the system event: shuts its handlers down, sends `Shutdown` and returns -/
  | stopping
  | panicked
deriving DecidableEq

/-- A TCP source and the world around it — src/source/tcp.rs:140-177, src/source/tcp.rs:179-222. -/
structure State where
  listeners : List Listener
  /-- the poller has a stream event to report: a handler has ended -/
  streamReady : Bool := false
  /-- the poller has the system event to report -/
  systemReady : Bool := false
  phase : Phase := .polling
  /-- the pool of handlers -/
  threads : Thread.State := {}
  /-- handlers that have pushed their id and have yet to flag the stream event -/
  unflagged : List Nat := []
  /-- the listener each connection was accepted from, in order -/
  accepted : List Nat := []
deriving DecidableEq

/-- After `run` has registered everything — src/source/tcp.rs:111-133.  `registered` says for which listeners that succeeds (a
failure is only logged). -/
def State.start (registered : List Bool) : State :=
  { listeners := registered.map fun b => { registered := b } }

/-- What happens next — src/source/tcp.rs:140-177, src/source/tcp.rs:179-222. -/
inductive Label where
  /-- a client connects -/
  | connect (i : Nat)
  /-- the source is told to shut down — src/thread.rs:43-48 -/
  | shutdown
  /-- `poll` returns these events -/
  | poll (events : List Nat)
  /-- `poll` fails -/
  | pollFails
  /-- the next event is looked at -/
  | event
  /-- `accept` returns -/
  | accept (a : Accept)
  /-- a handler ends and pushes its id — src/thread.rs:107-110 -/
  | finish (id : Nat)
  /-- it flags the stream event — src/thread.rs:112-116 -/
  | flag (id : Nat)
  /-- a handler panics -/
  | crash (id : Nat)
deriving DecidableEq

/-- Is the event of a token pending? — src/source/tcp.rs:140-177, src/source/tcp.rs:179-222. -/
def State.pending (s : State) (t : Nat) : Bool :=
  if t = SYSTEM then s.systemReady
  else if t = s.listeners.length then s.streamReady
  else match s.listeners[t]? with
    | some l => l.registered && l.ready
    | none => false

/-- Change one listener — src/source/tcp.rs:140-177, src/source/tcp.rs:179-222. -/
def State.modify (s : State) (i : Nat) (f : Listener → Listener) : State :=
  { s with listeners := s.listeners.modify i f }

/-- `poll` reports an event: it is no longer pending — src/source/tcp.rs:140-177, src/source/tcp.rs:179-222. -/
def State.report (s : State) (t : Nat) : State :=
  if t = SYSTEM then { s with systemReady := false }
  else if t = s.listeners.length then { s with streamReady := false }
  else s.modify t fun l => { l with ready := false }

/-- One event — src/source/tcp.rs:146-171. -/
def State.dispatch (s : State) (t : Nat) (events : List Nat) : State :=
  if t = SYSTEM then { s with phase := .stopping }
  else if t = s.listeners.length then
    match Thread.step s.threads .joinReady with
    | some th => { s with threads := th, phase := .handling events }
    | none => { s with phase := .panicked }
  else if t < s.listeners.length then { s with phase := .accepting t events }
  else { s with phase := .panicked }

/-- One step; `none` if the label is not possible — src/source/tcp.rs:140-177, src/source/tcp.rs:179-222. -/
def step (s : State) : Label → Option State
  | .connect i =>
    if i < s.listeners.length then
      some (s.modify i fun l => { l with waiting := l.waiting + 1, ready := true })
    else none
  | .shutdown => some { s with systemReady := true }
  | .poll events =>
    if s.phase = .polling ∧ events ≠ [] ∧ events.Nodup ∧ ∀ t ∈ events, s.pending t = true then
      some { events.foldl State.report s with phase := .handling events }
    else none
  | .pollFails => if s.phase = .polling then some { s with phase := .panicked } else none
  | .event => match s.phase with
    | .handling [] => some { s with phase := .polling }
    | .handling (t :: events) => some (s.dispatch t events)
    | _ => none
  | .accept a => match s.phase with
    | .accepting i events => match s.listeners[i]?, a with
      | none, _ => none
      | some l, .ok =>
        if l.waiting = 0 then none
        else (Thread.step s.threads .spawn).map fun th =>
          { s.modify i (fun l => { l with waiting := l.waiting - 1 }) with threads := th, accepted := s.accepted ++ [i] }
      | some l, .aborted =>
        if l.waiting = 0 then none else some (s.modify i fun l => { l with waiting := l.waiting - 1 })
      | some _, .again => some s
      | some l, .wouldBlock => if l.waiting = 0 then some { s with phase := .handling events } else none
      | some _, .other => some { s.modify i (fun l => { l with registered := false }) with phase := .handling events }
    | _ => none
  | .finish id => (Thread.step s.threads (.finish id)).map fun th => { s with threads := th, unflagged := id :: s.unflagged }
  | .flag id => if id ∈ s.unflagged then some { s with unflagged := s.unflagged.erase id, streamReady := true } else none
  | .crash id => (Thread.step s.threads (.crash id)).map fun th => { s with threads := th }

/-- A schedule — src/source/tcp.rs:140-177, src/source/tcp.rs:179-222. -/
def run : State → List Label → Option State
  | s, [] => some s
  | s, l :: ls => (step s l).bind fun s' => run s' ls

end Tcp

/-! ## Datagrams: the poll loop of the statsd source -/

namespace Udp
open Tcp (SYSTEM)

/-- A datagram socket — src/source/statsd.rs:163-204. -/
structure Socket where
  /-- datagrams that have arrived and have not been read, by number of arrival -/
  waiting : List Nat := []
  ready : Bool := false
deriving DecidableEq

/-- What `recv_from` returns — src/source/statsd.rs:99-129. -/
inductive Recv where
  | ok
  | wouldBlock
  | other
deriving DecidableEq

/-- Where the loop is — src/source/statsd.rs:176-202. -/
inductive Phase where
  | polling
  | handling (events : List Nat)
  | reading (i : Nat) (events : List Nat)
  | returned
  | panicked
deriving DecidableEq

/-- The source and the world around it — src/source/statsd.rs:163-204. -/
structure State where
  sockets : List Socket
  systemReady : Bool := false
  phase : Phase := .polling
  /-- datagrams that have arrived so far -/
  arrived : Nat := 0
  /-- the datagrams read: socket and number -/
  read : List (Nat × Nat) := []
deriving DecidableEq

/-- One address — src/source/statsd.rs:143-147: binding to it gives a socket, or fails, which is a panic. -/
def bind {α : Type} (s : Option (List α)) (a : Option α) : Option (List α) :=
  match s, a with
  | some s, some x => some (s ++ [x])
  | _, _ => none

/-- `init` — src/source/statsd.rs:138-161: each address found, in order; a failed look-up is only logged. -/
def init {α : Type} (addrs : Option (List (Option α))) : Option (List α) :=
  match addrs with
  | none => some []
  | some as => as.foldl bind (some [])

/-- When `run` has registered the sockets — src/source/statsd.rs:163-173. -/
def State.start (n : Nat) : State := { sockets := List.replicate n {} }

/-- What happens next — src/source/statsd.rs:163-204. -/
inductive Label where
  | arrive (i : Nat)
  | shutdown
  | poll (events : List Nat)
  | pollFails
  | event
  | recv (r : Recv)
deriving DecidableEq

/-- Is the event of a token pending?  Sockets are registered edge-triggered — src/source/statsd.rs:164-173 (a failure to register, which is only logged, is not modelled). -/
def State.pending (s : State) (t : Nat) : Bool :=
  if t = SYSTEM then s.systemReady
  else match s.sockets[t]? with
    | some k => k.ready
    | none => false

/-- `poll` reports an event — src/source/statsd.rs:163-204. -/
def State.report (s : State) (t : Nat) : State :=
  if t = SYSTEM then { s with systemReady := false }
  else { s with sockets := s.sockets.modify t fun k => { k with ready := false } }

/-- One step; `none` if the label is not possible.  What is read of a datagram is in `Verif.Model.StatsdRecv` — src/source/statsd.rs:163-204. -/
def step (s : State) : Label → Option State
  | .arrive i =>
    if i < s.sockets.length then
      some { s with sockets := s.sockets.modify i (fun k => { k with waiting := k.waiting ++ [s.arrived], ready := true }), arrived := s.arrived + 1 }
    else none
  | .shutdown => some { s with systemReady := true }
  | .poll events =>
    if s.phase = .polling ∧ events ≠ [] ∧ events.Nodup ∧ ∀ t ∈ events, s.pending t = true then
      some { events.foldl State.report s with phase := .handling events }
    else none
  | .pollFails => if s.phase = .polling then some { s with phase := .panicked } else none
  | .event => match s.phase with
    | .handling [] => some { s with phase := .polling }
    | .handling (t :: events) =>
      if t = SYSTEM then some { s with phase := .returned }
      else if t < s.sockets.length then some { s with phase := .reading t events }
      else some { s with phase := .panicked }
    | _ => none
  | .recv r => match s.phase with
    | .reading i events => match s.sockets[i]?, r with
      | none, _ => none
      | some k, .ok => match k.waiting with
        | [] => none
        | d :: ds => some { s with sockets := s.sockets.set i { k with waiting := ds }, read := s.read ++ [(i, d)] }
      | some k, .wouldBlock => if k.waiting = [] then some { s with phase := .handling events } else none
      | some _, .other => some { s with phase := .handling events }
    | _ => none

/-- A schedule — src/source/statsd.rs:163-204. -/
def run : State → List Label → Option State
  | s, [] => some s
  | s, l :: ls => (step s l).bind fun s' => run s' ls

end Udp
end Verif
