/-!
# Threads and the thread pool

Models src/thread.rs and the accept loop of src/source/tcp.rs as a machine.  Steps of the thread
that owns the pool and of the handler threads are labels, so that a list of labels is a schedule.
-/
namespace Verif.Thread

/-- `ThreadPool` — src/thread.rs:76-85.  A handle is identified with its thread's id; `threads` lists
the keys of the map in an order that does not matter; the last id pushed to `joinable` comes first.
`thread_event_readiness` only wakes the accept loop up, see `Label.joinReady`. -/
structure Pool where
  threadId : Nat := 0
  joinable : List Nat := []
  threads : List Nat := []
deriving DecidableEq

/-- `spawn` — src/thread.rs:99-120, `next_thread_id` — src/thread.rs:122-126. -/
def Pool.spawn (p : Pool) : Nat × Pool :=
  (p.threadId, { p with threadId := p.threadId + 1, threads := p.threads ++ [p.threadId] })

/-- What the owner of the pool is doing — src/thread.rs:76-152. -/
inductive Phase where
  /-- in its loop -/
  | serving
  /-- in `shutdown`, between two handles: the handles still to be drained -/
  | draining (todo : List Nat)
  /-- in `shutdown`, waiting for a thread -/
  | joining (id : Nat) (todo : List Nat)
  /-- `shutdown` has returned these ids -/
  | returned (ids : List Nat)
  /-- the owner has panicked -/
  | panicked
deriving DecidableEq

/-- The pool, its owner and the handler threads — src/thread.rs:76-152. -/
structure State where
  pool : Pool := {}
  phase : Phase := .serving
  /-- handler threads that have not ended -/
  running : List Nat := []
  /-- handler threads that have panicked -/
  crashed : List Nat := []
  /-- what was spawned, in order -/
  spawned : List Nat := []
  /-- threads that were told to shut down, in order -/
  signalled : List Nat := []
  /-- what `join_ready` has returned, in order -/
  reported : List Nat := []
deriving DecidableEq

/-- Steps.  `finish` and `crash` are steps of handler threads: to return from `f` and push the id, or
to panic in `f`.  The order in which `HashMap::drain` yields the handles (external) is a parameter of
`shutdown` — src/thread.rs:76-152. -/
inductive Label where
  | spawn
  | joinReady
  | shutdown (order : List Nat)
  | signal
  | join
  | finish (id : Nat)
  | crash (id : Nat)
deriving DecidableEq

/-- `join` of one handle — src/thread.rs:35-37: `none` while the thread runs, `false` if its panic is
passed on. -/
def joinHandle (s : State) (id : Nat) : Option Bool :=
  if id ∈ s.running then none else some (decide (id ∉ s.crashed))

/-- `join_ready` — src/thread.rs:135-145, with `joinable` still to be popped: the new state and what
was joined, or `none` if it waits or panics. -/
def joinReady (s : State) : List Nat → List Nat → List Nat → Option (List Nat × List Nat)
  | threads, joined, [] => some (threads, joined)
  | threads, joined, id :: joinable =>
    if id ∈ threads then
      match joinHandle s id with
      | some true => joinReady s (threads.filter (· ≠ id)) (joined ++ [id]) joinable
      | _ => none
    else joinReady s threads (joined ++ [id]) joinable

/-- One step; `none` if the label is not possible.

* `spawn`, `joinReady` — src/source/tcp.rs:153-164.  The handles are joined while the lock on
  `joinable` is held, so no thread pushes its id meanwhile and the step is atomic.
* `shutdown`, `signal`, `join` — `shutdown`, src/thread.rs:148-151 and 43-48, called at
  src/source/tcp.rs:148-149.  A panic while draining drops the remaining handles.
* `finish` — src/thread.rs:106-117; `crash` — a panic at line 107.

Not modelled: failures of `set_readiness` and of the registration of the system pipe. -/
def step (s : State) : Label → Option State
  | .spawn =>
    if s.phase = .serving then
      let (id, pool) := s.pool.spawn
      some { s with pool := pool, running := s.running ++ [id], spawned := s.spawned ++ [id] }
    else none
  | .joinReady =>
    if s.phase = .serving then
      match joinReady s s.pool.threads [] s.pool.joinable with
      | some (threads, joined) => some { s with
          pool := { s.pool with threads := threads, joinable := [] }, reported := s.reported ++ joined }
      | none => none
    else none
  | .shutdown order =>
    if s.phase = .serving ∧ order.Perm s.pool.threads then
      some { s with phase := .draining order, pool := { s.pool with threads := [] } }
    else none
  | .signal =>
    match s.phase with
    | .draining (id :: todo) =>
      some { s with phase := .joining id todo, signalled := s.signalled ++ [id] }
    | _ => none
  | .join =>
    match s.phase with
    | .joining id todo =>
      match joinHandle s id with
      | none => none
      | some true => some { s with phase := .draining todo }
      | some false => some { s with phase := .panicked }
    | .draining [] =>
      match joinReady s s.pool.threads [] s.pool.joinable with
      | some (threads, joined) => some { s with
          pool := { s.pool with threads := threads, joinable := [] }, phase := .returned joined,
          reported := s.reported ++ joined }
      | none => none
    | _ => none
  | .finish id =>
    if id ∈ s.running then
      some { s with running := s.running.filter (· ≠ id),
                    pool := { s.pool with joinable := id :: s.pool.joinable } }
    else none
  | .crash id =>
    if id ∈ s.running then
      some { s with running := s.running.filter (· ≠ id), crashed := id :: s.crashed }
    else none

/-- A schedule — src/thread.rs:76-152. -/
def run : State → List Label → Option State
  | s, [] => some s
  | s, l :: ls => match step s l with
    | some s' => run s' ls
    | none => none

end Verif.Thread
