/-!
# cernan's clock

Models `now` and `update_time` of src/time.rs: a global number that one thread refreshes and everybody reads.
-/
namespace Verif.Clock

/-- `i64 as usize` on a 64-bit machine.  Used at src/time.rs:12 and src/time.rs:21-29. -/
def asUsize (v : Int) : Nat := (v % 2 ^ 64).toNat

/-- `usize as i64`.  Used at src/time.rs:16-18. -/
def asI64 (n : Nat) : Int := if n < 2 ^ 63 then n else (n : Int) - 2 ^ 64

/-- The process: the time since its start in milliseconds, `NOW`, which is set at its first use (`lazy_static`) — src/time.rs:11-13 —
and since when the clock's thread sleeps, once it runs. -/
structure State where
  time : Nat := 0
  now : Option Nat := none
  asleep : Option Nat := none
deriving DecidableEq, Repr

/-- What happens next: time passes, somebody asks for the time, the clock's thread is started
(src/bin/cernan.rs:787-789), or it wakes up. -/
inductive Label where
  | pass (ms : Nat)
  | read
  | spawn
  | wake
deriving DecidableEq, Repr

/-- One step; `sys ms` is what `Utc::now().timestamp()` (external) gives `ms` milliseconds after the start, and the second result what a
reader is given.  `none` if the step is not possible: the thread sleeps for at least 500 ms (`thread::sleep`, external).

* `read` — `now`, src/time.rs:16-18.
* `spawn`, `wake` — `update_time`, src/time.rs:21-29.  Simplification: waking up, asking the system and storing are one step. -/
def step (sys : Nat → Int) (s : State) : Label → Option (State × Option Int)
  | .pass ms => some ({ s with time := s.time + ms }, none)
  | .read =>
    let n := s.now.getD (asUsize (sys s.time))
    some ({ s with now := some n }, some (asI64 n))
  | .spawn => match s.asleep with
    | none => some ({ s with asleep := some s.time }, none)
    | some _ => none
  | .wake => match s.asleep with
    | some since => if since + 500 ≤ s.time then some ({ s with now := some (asUsize (sys s.time)), asleep := some s.time }, none) else none
    | none => none

/-- What was read, and when.  By src/time.rs:16-18. -/
structure Reading where
  time : Nat
  value : Int
deriving DecidableEq, Repr

/-- A schedule: the state it ends in and the readings, in order.  Of src/time.rs:16-18 and src/time.rs:21-29. -/
def run (sys : Nat → Int) : State → List Label → Option (State × List Reading)
  | s, [] => some (s, [])
  | s, l :: ls => (step sys s l).bind fun (s', r) => (run sys s' ls).map fun (s'', rs) =>
      (s'', r.toList.map (Reading.mk s.time) ++ rs)

end Verif.Clock
