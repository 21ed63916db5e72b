import Verif.Model.Filter
/-!
# Specification vocabulary for the filter properties (C16-C23)
-/
namespace Verif

section
variable {F : Type} [F64 F] {σ : Type}

/-- Is this event a `Shutdown`? -/
def Event.isShutdown : Event F → Bool
  | .shutdown => true
  | _ => false

/-- Number of `Shutdown`s among the results of a sequence of receives. -/
def shutdownsIn (recv : List (Option (Int × Event F))) : Nat :=
  recv.countP fun r => match r with
    | some (_, e) => e.isShutdown
    | none => false

/-- What a filter is supposed to forward for a sequence of receives: for every input
the output its step produces *from an empty buffer*, or just the failure event if the
step fails; `Shutdown`s are forwarded as they are. -/
def expectedSent (p : Process F σ) (st : σ) : List (Option (Int × Event F)) → List (Event F)
  | [] => []
  | none :: is => expectedSent p st is
  | some (_, .shutdown) :: is => .shutdown :: expectedSent p st is
  | some (now, e) :: is =>
    match p now st e [] with
    | (st', out, .ok ()) => out ++ expectedSent p st' is
    | (st', _, .error fe) => fe :: expectedSent p st' is

/-- A step that only appends to the buffer, regardless of what is in it, and leaves
the buffer alone when it fails. -/
def Tidy (p : Process F σ) : Prop :=
  ∀ now st e buf, e.isShutdown = false →
    p now st e buf = ((p now st e []).1, buf ++ (p now st e []).2.1, (p now st e []).2.2) ∧
    (∀ fe, (p now st e []).2.2 = .error fe → (p now st e []).2.1 = [])

/-- A step that only appends to the buffer, regardless of what is in it. -/
def Appends (p : Process F σ) : Prop :=
  ∀ now st e buf, e.isShutdown = false →
    p now st e buf = ((p now st e []).1, buf ++ (p now st e []).2.1, (p now st e []).2.2)

/-- What is forwarded when the output of a failed step is not dropped but held (`held`) until
the next step that succeeds, and goes out in front of that step's output. -/
def heldBackSent (p : Process F σ) (st : σ) (held : List (Event F)) :
    List (Option (Int × Event F)) → List (Event F)
  | [] => []
  | none :: is => heldBackSent p st held is
  | some (_, .shutdown) :: is => .shutdown :: heldBackSent p st held is
  | some (now, e) :: is =>
    match p now st e [] with
    | (st', out, .ok ()) => held ++ out ++ heldBackSent p st' [] is
    | (st', out, .error fe) => fe :: heldBackSent p st' (held ++ out) is

/-- Feed events to a filter one after the other, with an empty buffer each time, and
list what each of them made it emit. -/
def outputs (p : Process F σ) (st : σ) : List (Int × Event F) → List (List (Event F))
  | [] => []
  | (now, e) :: es => (p now st e []).2.1 :: outputs p (p now st e []).1 es

/-- The filter's state afterwards. -/
def stateAfter (p : Process F σ) (st : σ) : List (Int × Event F) → σ
  | [] => st
  | (now, e) :: es => stateAfter p (p now st e []).1 es

/-! ### Flush boundary -/

/-- Does the event carry the timestamp `t`? -/
def hasTime (t : Int) (e : Event F) : Bool := e.timestamp == some t

/-- The fate of one timestamp `t` alone: `none` when nothing with that timestamp is
waiting, otherwise how many flushes the waiting group has seen and the group itself. -/
def pendStep (tolerance : Nat) (t : Int) (o : Option (Nat × List (Event F))) (e : Event F) :
    Option (Nat × List (Event F)) :=
  match e, o with
  | .timerFlush _, none => none
  | .timerFlush _, some (age, es) => if age + 1 > tolerance then none else some (age + 1, es)
  | e, none => if hasTime t e then some (0, [e]) else none
  | e, some (age, es) => if hasTime t e then some (age, es ++ [e]) else some (age, es)

/-- The group with timestamp `t` waiting after a history. -/
def waiting (tolerance : Nat) (t : Int) (h : List (Event F)) : Option (Nat × List (Event F)) :=
  h.foldl (pendStep tolerance t) none

/-- What the next flush must release for timestamp `t`: the waiting group, if this
flush makes it older than the tolerance. -/
def due (tolerance : Nat) (t : Int) (h : List (Event F)) : List (Event F) :=
  match waiting tolerance t h with
  | some (age, es) => if age + 1 > tolerance then es else []
  | none => []

/-- Everything the filter has emitted over a history, in order. -/
def emitted (tolerance : Nat) (h : List (Event F)) : List (Event F) :=
  (outputs flushBoundaryProcess { tolerance := tolerance } (h.map (0, ·))).flatten

/-- What the filter emits on `e` after the history `h`. -/
def emits (tolerance : Nat) (h : List (Event F)) (e : Event F) : List (Event F) :=
  (flushBoundaryProcess 0
    (stateAfter flushBoundaryProcess { tolerance := tolerance } (h.map (0, ·))) e []).2.1

/-- Number of timer flushes in a history. -/
def flushesIn (h : List (Event F)) : Nat := h.countP Event.isTimerFlush

/-! ### Programmable filter -/

/-- The index of a timer flush. -/
def Event.flushIdx : Event F → Option Nat
  | .timerFlush i => some i
  | _ => none

/-- The strict records of a sequence: each element greater than `last` and than all
elements before it. -/
def records (last : Nat) : List Nat → List Nat
  | [] => []
  | i :: is => if last < i then i :: records i is else records last is

/-- Did the call succeed? -/
def LuaResult.succeeds : LuaResult F → Bool
  | .ok _ => true
  | _ => false

/-- The timer flushes a filter takes in, each with whether the script's `tick` succeeds if it is called at that point. -/
def tickResults {L : Type} (script : Script F L) (fail : LuaFn → Event F) (sources : Nat) :
    FilterRun F (Programmable F L) → List (Option (Int × Event F)) → List (Nat × Bool)
  | _, [] => []
  | r, i :: is =>
    if r.finished then [] else
      (match i with
        | some (_, .timerFlush idx) => [(idx, (script r.state.lua .tick ⟨[], []⟩).2.succeeds)]
        | _ => []) ++ tickResults script fail sources (r.step (programmableProcess script fail) sources i) is

/-- The indices that are due: greater than all those before them whose `tick` was due and succeeded. -/
def dueTicks (last : Nat) : List (Nat × Bool) → List Nat
  | [] => []
  | (i, ok) :: is => if last < i then i :: dueTicks (if ok then i else last) is else dueTicks last is

end
end Verif
