import Verif.Model.Filter
import Verif.Model.Prometheus
import Verif.Model.Wavefront
/-!
# Times as 64-bit integers

The other models take `i64` times as unbounded integers.  Here the places of cernan that compute with times are modelled with the
arithmetic of the machine: in a debug build an overflow panics, in a release build it wraps around.
-/
namespace Verif.Machine

/-- How cernan was compiled: Cargo.toml sets no `overflow-checks`, so debug builds check and release builds do not.  For the arithmetic of src/metric/telemetry.rs:816-828, src/buckets.rs:146-178 and src/sink/wavefront.rs:233-341. -/
inductive Build where
  | debug
  | release
deriving DecidableEq

/-- The values of an `i64`.  For the arithmetic of src/metric/telemetry.rs:816-828, src/buckets.rs:146-178 and src/sink/wavefront.rs:233-341. -/
def Fits (x : Int) : Prop := -2 ^ 63 ≤ x ∧ x < 2 ^ 63

instance (x : Int) : Decidable (Fits x) := by unfold Fits; infer_instance

/-- The `i64` with the same low 64 bits.  For the arithmetic of src/metric/telemetry.rs:816-828, src/buckets.rs:146-178 and src/sink/wavefront.rs:233-341. -/
def wrap (x : Int) : Int := (x + 2 ^ 63) % 2 ^ 64 - 2 ^ 63

/-- The result of an `i64` operation whose exact result is `x`; `none` is a panic.  For the arithmetic of src/metric/telemetry.rs:816-828, src/buckets.rs:146-178 and src/sink/wavefront.rs:233-341. -/
def Build.result (b : Build) (x : Int) : Option Int :=
  if Fits x then some x
  else match b with
    | .debug => none
    | .release => some (wrap x)

/-- `x - y`.  For the arithmetic of src/metric/telemetry.rs:816-828, src/buckets.rs:146-178 and src/sink/wavefront.rs:233-341. -/
def Build.sub (b : Build) (x y : Int) : Option Int := b.result (x - y)

/-- `x.abs()`.  For the arithmetic of src/metric/telemetry.rs:816-828, src/buckets.rs:146-178 and src/sink/wavefront.rs:233-341. -/
def Build.abs (b : Build) (x : Int) : Option Int := b.result x.natAbs

/-- `x / y`: division by zero and `i64::MIN / -1` panic in both builds.  For the arithmetic of src/metric/telemetry.rs:816-828, src/buckets.rs:146-178 and src/sink/wavefront.rs:233-341. -/
def div (x y : Int) : Option Int :=
  if y = 0 then none else if Fits (x.tdiv y) then some (x.tdiv y) else none

/-- `x.saturating_add(y)`, `x.saturating_sub(-y)`.  For the arithmetic of src/metric/telemetry.rs:816-828, src/buckets.rs:146-178 and src/sink/wavefront.rs:233-341. -/
def satAdd (x y : Int) : Int := max (-2 ^ 63) (min (2 ^ 63 - 1) (x + y))

/-- `(x - y).abs()` — src/sink/wavefront.rs:281, 645; src/sink/prometheus.rs:138, 663; src/filter/delay_filter.rs:60, 68. -/
def Build.distance (b : Build) (x y : Int) : Option Int := (b.sub x y).bind b.abs

section
variable {F : Type} [F64 F]

/-- `DelayFilter::process` — src/filter/delay_filter.rs:53-80: whether the event is passed on; `none` is a panic. -/
def delayKeeps (b : Build) (now tolerance : Int) : Event F → Option Bool
  | .telemetry t => (b.distance t.timestamp now).map fun d => decide (d < tolerance)
  | .log l => (b.distance l.time now).map fun d => decide (d < tolerance)
  | _ => some true

/-- The age test of the Wavefront and Prometheus sinks — src/sink/wavefront.rs:643-651, src/sink/prometheus.rs:661-669: whether the
point is kept; `none` is a panic. -/
def ageKeeps (b : Build) (age : Option Nat) (now : Int) (t : Telemetry F) : Option Bool := match age with
  | some a => (b.distance t.timestamp now).map fun d => decide (d ≤ Wavefront.asI64 a)
  | none => some true

/-- The samples a window keeps — src/sink/prometheus.rs:126-147; `none` is a panic. -/
def purgeKeeps (b : Build) (cap : Nat) (now : Int) : List (Telemetry F) → Option (List (Telemetry F))
  | [] => some []
  | s :: rest => match b.distance s.timestamp now with
    | none => none
    | some d => (purgeKeeps b cap now rest).map fun kept => if d > Wavefront.asI64 cap then kept else s :: kept

/-- `Telemetry::within` — src/metric/telemetry.rs:816-829; `none` is a panic. -/
def within (self : Telemetry F) (span : Int) (other : Telemetry F) : Option Ordering :=
  match cmpStr self.name other.name with
  | .eq => match cmpTagmap self.tags other.tags with
    | .eq => (div self.timestamp span).bind fun lhs => (div other.timestamp span).map fun rhs => compare lhs rhs
    | o => some o
  | o => some o

open Wavefront in
/-- `Padding::next` with two points at hand — src/sink/wavefront.rs:249-314; `none` is a panic. -/
def nextTwo (b : Build) (ext : Ext F) (span : Int) (seen : LastSeen) (pc : PadControl) (p : Padding F) (x y : Pad F) :
    Option (Pad F × Padding F) :=
  let gap (p : Padding F) : Option (Pad F × Padding F) :=
    ((b.distance x.timestamp y.timestamp).bind fun d => div d span).map fun d =>
      if d = 0 ∨ d = 1 then (x, { p with emitQ := y :: p.emitQ })
      else
        let subY := y.zeroAt (satAdd y.timestamp (-1))
        let postX := x.zeroAt (satAdd x.timestamp 1)
        (x, { p with emitQ := postX :: subY :: y :: p.emitQ })
  if x.hash ext = y.hash ext then
    if x.skipPad pc then some (x, { p with emitQ := y :: p.emitQ })
    else if x.hash ext ∈ p.flushPadded then gap p
    else match seen (x.hash ext) with
      | none => gap p
      | some ts =>
        if x.timestamp > ts then
          let p := { p with flushPadded := x.hash ext :: p.flushPadded }
          match (b.sub x.timestamp ts).bind fun d => div d span with
          | none => none
          | some d =>
            if d > 1 then
              let subX := x.zeroAt (satAdd x.timestamp (-1))
              let postX := x.zeroAt (satAdd ts 1)
              some (postX, { p with emitQ := subX :: x :: y :: p.emitQ })
            else gap p
        else some (x, { p with emitQ := y :: p.emitQ })
  else some (x, { p with emitQ := y :: p.emitQ })

open Wavefront in
/-- `Padding::next` with one point at hand — src/sink/wavefront.rs:315-339; `none` is a panic. -/
def nextOne (b : Build) (ext : Ext F) (span : Int) (seen : LastSeen) (pc : PadControl) (p : Padding F) (x : Pad F) :
    Option (Pad F × Padding F) :=
  if x.skipPad pc then some (x, p)
  else if x.hash ext ∈ p.flushPadded then some (x, p)
  else match seen (x.hash ext) with
    | none => some (x, p)
    | some ts =>
      if x.timestamp > ts then
        let p := { p with flushPadded := x.hash ext :: p.flushPadded }
        match (b.sub x.timestamp ts).bind fun d => div d span with
        | none => none
        | some d =>
          if d > 1 then
            let subX := x.zeroAt (satAdd x.timestamp (-1))
            let postX := x.zeroAt (satAdd ts 1)
            some (postX, { p with emitQ := subX :: x :: p.emitQ })
          else some (x, p)
      else some (x, p)

open Wavefront in
/-- `Padding` driven until `None` — src/sink/wavefront.rs:203-343: what it yields, `none` being a panic.  The number is fuel, as in
`Wavefront.Padding.take`. -/
def take (b : Build) (ext : Ext F) (span : Int) (seen : LastSeen) (pc : PadControl) : Nat → Padding F → Option (List (Pad F))
  | 0, _ => some []
  | n + 1, p => match p.pull with
    | (none, _) => some []
    | (some x, p) => match p.pull with
      | (none, p) => match nextOne b ext span seen pc p x with
        | none => none
        | some (o, p) => (take b ext span seen pc n p).map (o :: ·)
      | (some y, p) => match nextTwo b ext span seen pc p x y with
        | none => none
        | some (o, p) => (take b ext span seen pc n p).map (o :: ·)

open Wavefront in
/-- `padding(xs, span, last_seen, pad_control)` driven to the end; `none` is a panic — src/sink/wavefront.rs:203-218, src/sink/wavefront.rs:233-341. -/
def padding (b : Build) (ext : Ext F) (pts : List (Telemetry F)) (span : Int) (seen : LastSeen) (pc : PadControl) :
    Option (List (Pad F)) :=
  take b ext span seen pc (5 * pts.length + 1) { orig := pts }

end
end Verif.Machine
