import Verif.Spec.Wavefront
import Verif.Spec.InfluxServer
/-!
# A Wavefront proxy (for C142)

A proxy reads each connection line by line and takes a line for what it is only if it is ended; what a broken connection leaves of a line is dropped.  It
keeps one value per key, for any notion of key (say name, tags and time) and value, a later one over an earlier one.
-/
namespace Verif
namespace Wavefront

/-- What each connection carries: a failed write is the last thing on its connection. -/
def streams (sofar : Str) : List Wire → List Str
  | [] => [sofar]
  | .complete text :: ws => streams (sofar ++ text) ws
  | .part text :: ws => (sofar ++ text) :: streams [] ws
  | .delay _ :: ws => streams sofar ws

/-- The ended lines of a stream. -/
def endedLines (stream : Str) : List Str := (Influx.pieces '\n' stream).dropLast

/-- The lines that the proxy reads, over all connections. -/
def readLines (wire : List Wire) : List Str := (streams [] wire).flatMap endedLines

/-- The data of the proxy after reading lines. -/
def keep {K V : Type} [DecidableEq K] (read : Str → Option (K × V)) (db : K → Option V) : List Str → K → Option V
  | [] => db
  | l :: ls => keep read (match read l with
    | some (k, v) => fun x => if x = k then some v else db x
    | none => db) ls

section
variable {F : Type} [F64 F]

/-- A step: a point arrives, or a flush runs, with the outcomes of its connection attempts and writes. -/
inductive ProxyOp (F : Type) [F64 F] where
  | point (now : Int) (t : Telemetry F)
  | flush (now : Int) (script : List Io)

/-- Sink and wire over a history in which every flush returns; `none` is a panic, or a flush that does not return with that script. -/
def runProxy (ext : Ext F) : State F → List Wire → List (ProxyOp F) → Option (State F × List Wire)
  | s, wire, [] => some (s, wire)
  | s, wire, .point now t :: ops => match s.deliver ext now t with
    | some s' => runProxy ext s' wire ops
    | none => none
  | s, wire, .flush now script :: ops => match s.flush ext now script with
    | some (s', w, true) => runProxy ext s' (wire ++ w) ops
    | _ => none

/-- The same history on a network where nothing fails. -/
def ProxyOp.calm : ProxyOp F → ProxyOp F
  | .point now t => .point now t
  | .flush now _ => .flush now [.ok]

end
end Wavefront
end Verif
