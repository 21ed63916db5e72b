import Verif.Model.Buckets
import Verif.Model.Time
/-!
# The Wavefront sink

Models src/sink/wavefront.rs.  Timestamps are unbounded integers, so the saturating
operations of the padding code are plain addition and subtraction.
-/
namespace Verif

/-- `Value::mean` / `Telemetry::mean` — src/metric/telemetry.rs:188-202, 770-776;
`none` is the `assert!` panic. -/
def Telemetry.mean {F : Type} [F64 F] (t : Telemetry F) : Option F :=
  match t.value with
  | .set _ | .sum _ => some (F64.ofNat 1)
  | .histogram h => match F64.histSum h with
    | some s => if F64.histCount h > 0 then some (F64.div s (F64.ofNat (F64.histCount h))) else none
    | none => some F64.zero
  | .quantiles c _ => some ((F64.ckmsCma c).getD F64.zero)

namespace Wavefront

/-- `PadControl` — src/sink/wavefront.rs:43-58. -/
structure PadControl where
  set : Bool
  sum : Bool
  summarize : Bool
  histogram : Bool
deriving DecidableEq, Repr

/-- What the sink takes from outside: the two 64-bit hashes of a point
(`name_tag_hash`, `hash`), comparison and formatting of `f64` and of integers.  Used at src/sink/wavefront.rs:233-341 and src/sink/wavefront.rs:459-578. -/
structure Ext (F : Type) where
  nameTagHash : Str × TagMap → Nat
  hash : (Str × TagMap) × Kind → Nat
  /-- `f64::partial_cmp` -/
  cmp : F → F → Option Ordering
  /-- `ToString` for `f64`, `i64` and `usize` -/
  showF : F → Str
  showI : Int → Str
  showN : Nat → Str

section
variable {F : Type} [F64 F]

/-- `Pad` — src/sink/wavefront.rs:157-160. -/
inductive Pad (F : Type) [F64 F] where
  | zero (t : Telemetry F) (ts : Int)
  | telem (t : Telemetry F)

/-- `Telemetry::hash` — src/metric/telemetry.rs:844-855: name, tags and kind. -/
def telemHash (ext : Ext F) (t : Telemetry F) : Nat := ext.hash (t.hashInput, t.kind)

/-- `Pad::hash` — src/sink/wavefront.rs:163-167. -/
def Pad.hash (ext : Ext F) : Pad F → Nat
  | .zero t _ | .telem t => telemHash ext t

/-- `Pad::zero_at` — src/sink/wavefront.rs:169-173. -/
def Pad.zeroAt (ts : Int) : Pad F → Pad F
  | .zero t _ | .telem t => .zero t ts

/-- `Pad::skip_pad` — src/sink/wavefront.rs:183-193. -/
def Pad.skipPad (pc : PadControl) : Pad F → Bool
  | .zero _ _ => true
  | .telem t => match t.kind with
    | .histogram => !pc.histogram
    | .set => !pc.set
    | .sum => !pc.sum
    | .summarize => !pc.summarize

/-- `Pad::timestamp` — src/sink/wavefront.rs:195-200. -/
def Pad.timestamp : Pad F → Int
  | .zero _ ts => ts
  | .telem t => t.timestamp

/-- `last_seen: HashMap<u64, i64>` — src/sink/wavefront.rs:73, as its lookup function. -/
abbrev LastSeen := Nat → Option Int

/-- `Padding` — src/sink/wavefront.rs:220-228.  `emitQ` has the top of the stack first;
`last_hash` is never read and is left out. -/
structure Padding (F : Type) [F64 F] where
  orig : List (Telemetry F)
  emitQ : List (Pad F) := []
  flushPadded : List Nat := []

/-- `match self.emit_q.pop() { Some(x) => …, None => self.orig.next() … }`
— src/sink/wavefront.rs:240-243. -/
def Padding.pull (p : Padding F) : Option (Pad F) × Padding F :=
  match p.emitQ with
  | x :: q => (some x, { p with emitQ := q })
  | [] => match p.orig with
    | t :: ts => (some (.telem t), { p with orig := ts })
    | [] => (none, p)

/-- `Padding::next` with two points at hand — src/sink/wavefront.rs:249-314. -/
def Padding.nextTwo (ext : Ext F) (span : Int) (seen : LastSeen) (pc : PadControl)
    (p : Padding F) (x y : Pad F) : Pad F × Padding F :=
  -- src/sink/wavefront.rs:281-310
  let gap (p : Padding F) : Pad F × Padding F :=
    let d := ((x.timestamp - y.timestamp).natAbs : Int).tdiv span
    if d = 0 ∨ d = 1 then (x, { p with emitQ := y :: p.emitQ })
    else
      let subY := y.zeroAt (y.timestamp - 1)
      let postX := x.zeroAt (x.timestamp + 1)
      (x, { p with emitQ := postX :: subY :: y :: p.emitQ })
  if x.hash ext = y.hash ext then
    if x.skipPad pc then (x, { p with emitQ := y :: p.emitQ })
    else if x.hash ext ∈ p.flushPadded then gap p
    else match seen (x.hash ext) with
      | none => gap p
      | some ts =>
        if x.timestamp > ts then
          let p := { p with flushPadded := x.hash ext :: p.flushPadded }
          if (x.timestamp - ts).tdiv span > 1 then
            let subX := x.zeroAt (x.timestamp - 1)
            let postX := x.zeroAt (ts + 1)
            (postX, { p with emitQ := subX :: x :: y :: p.emitQ })
          else gap p
        else (x, { p with emitQ := y :: p.emitQ })
  else (x, { p with emitQ := y :: p.emitQ })

/-- `Padding::next` with one point at hand — src/sink/wavefront.rs:315-339. -/
def Padding.nextOne (ext : Ext F) (span : Int) (seen : LastSeen) (pc : PadControl)
    (p : Padding F) (x : Pad F) : Pad F × Padding F :=
  if x.skipPad pc then (x, p)
  else if x.hash ext ∈ p.flushPadded then (x, p)
  else match seen (x.hash ext) with
    | none => (x, p)
    | some ts =>
      if x.timestamp > ts then
        let p := { p with flushPadded := x.hash ext :: p.flushPadded }
        if (x.timestamp - ts).tdiv span > 1 then
          let subX := x.zeroAt (x.timestamp - 1)
          let postX := x.zeroAt (ts + 1)
          (postX, { p with emitQ := subX :: x :: p.emitQ })
        else (x, p)
      else (x, p)

/-- `Padding::next` — src/sink/wavefront.rs:233-343.  Simplification: the division by
`span = 0` panics in Rust and is 0 here; `Buckets.add` already panics on a zero bin width. -/
def Padding.next (ext : Ext F) (span : Int) (seen : LastSeen) (pc : PadControl)
    (p : Padding F) : Option (Pad F) × Padding F :=
  match p.pull with
  | (none, p) => (none, p)
  | (some x, p) => match p.pull with
    | (none, p) => let (o, p) := p.nextOne ext span seen pc x; (some o, p)
    | (some y, p) => let (o, p) := p.nextTwo ext span seen pc x y; (some o, p)

/-- Drive the iterator until `None`; the first argument is fuel.  The iterator is src/sink/wavefront.rs:233-341. -/
def Padding.take (ext : Ext F) (span : Int) (seen : LastSeen) (pc : PadControl) :
    Nat → Padding F → List (Pad F)
  | 0, _ => []
  | n + 1, p => match p.next ext span seen pc with
    | (none, _) => []
    | (some o, p) => o :: take ext span seen pc n p

/-- `padding(xs, span, last_seen, pad_control)` driven to the end — src/sink/wavefront.rs:203-218.
Each point is emitted once and brings at most four zero points; that the fuel is enough is
`take_eq_padded` in Verif/Lemmas/Wavefront.lean. -/
def padding (ext : Ext F) (pts : List (Telemetry F)) (span : Int) (seen : LastSeen)
    (pc : PadControl) : List (Pad F) :=
  Padding.take ext span seen pc (5 * pts.length + 1) { orig := pts }

/-- The `while size > 1` loop of `binary_search_by` with a comparison that may panic
(`none`); compare `bsearchLoop`.  Used at src/sink/wavefront.rs:345-357. -/
def searchLoop {α : Type} (f : α → Option Ordering) (l : List α) : Nat → Nat → Nat → Option Nat
  | 0, base, _ => some base
  | n + 1, base, size =>
    if size > 1 then
      let half := size / 2
      let mid := base + half
      match l[mid]? with
      | some x => match f x with
        | none => none
        | some o => searchLoop f l n (if o = .gt then base else mid) (size - half)
      | none => some base
    else some base

/-- `binary_search_by` with a comparison that may panic; compare `bsearch`.  Used at src/sink/wavefront.rs:345-357. -/
def search {α : Type} (f : α → Option Ordering) (l : List α) : Option Found :=
  if l.length = 0 then some (.err 0)
  else match searchLoop f l l.length 0 l.length with
    | none => none
    | some base => match l[base]? with
      | some x => match f x with
        | none => none
        | some .eq => some (.ok base)
        | some .lt => some (.err (base + 1))
        | some .gt => some (.err base)
      | none => some (.err 0)

/-- `get_from_cache` — src/sink/wavefront.rs:344-357: the cache afterwards and the text.
`none` is the panic of `partial_cmp(..).unwrap()`.  The first argument is fuel for the
recursion (Rust would overflow its stack when the fuel runs out). -/
def getFromCache {α : Type} (cmp : α → α → Option Ordering) (shw : α → Str) :
    Nat → List (α × Str) → α → Option (List (α × Str) × Str)
  | 0, _, _ => none
  | n + 1, cache, val => match search (fun probe => cmp probe.1 val) cache with
    | none => none
    | some (.ok idx) => match cache[idx]? with
      | some e => some (cache, e.2)
      | none => none
    | some (.err idx) => getFromCache cmp shw n (cache.insertIdx idx (val, shw val)) val

/-- One `push_str` of `fmt_val`: a literal text or the cached text of a number — src/sink/wavefront.rs:459-578. -/
inductive Tok (F : Type) where
  | lit (s : Str)
  | value (x : F)
  | count (n : Nat)
  | time (t : Int)

/-- The three caches of `format_stats` — src/sink/wavefront.rs:390-392. -/
structure Caches (F : Type) where
  time : List (Int × Str) := []
  count : List (Nat × Str) := []
  value : List (F × Str) := []

/-- Execute one `push_str`; `none` is a panic — src/sink/wavefront.rs:459-578. -/
def pushTok (ext : Ext F) (c : Caches F) (stats : Str) : Tok F → Option (Caches F × Str)
  | .lit s => some (c, stats ++ s)
  | .value x => (getFromCache ext.cmp ext.showF 2 c.value x).map fun (v, s) =>
      ({ c with value := v }, stats ++ s)
  | .count n => (getFromCache (fun a b => some (compare a b)) ext.showN 2 c.count n).map
      fun (v, s) => ({ c with count := v }, stats ++ s)
  | .time t => (getFromCache (fun a b => some (compare a b)) ext.showI 2 c.time t).map
      fun (v, s) => ({ c with time := v }, stats ++ s)

/-- Execute several `push_str`s — src/sink/wavefront.rs:459-578. -/
def pushToks (ext : Ext F) (c : Caches F) (stats : Str) : List (Tok F) → Option (Caches F × Str)
  | [] => some (c, stats)
  | t :: ts => match pushTok ext c stats t with
    | none => none
    | some (c, stats) => pushToks ext c stats ts

/-- `fmt_tags` — src/sink/wavefront.rs:141-155. -/
def fmtTags : List (Str × Str) → Str
  | [] => []
  | (k, v) :: rest => k ++ '=' :: v ++ rest.flatMap fun kv => ' ' :: kv.1 ++ '=' :: kv.2

/-- The `push_str` calls of one line: name, value, time, tags — src/sink/wavefront.rs:459-578. -/
def lineToks (name : List (Tok F)) (v : Tok F) (ts : Int) (tagBuf : Str) : List (Tok F) :=
  name ++ [.lit [' '], v, .lit [' '], .time ts, .lit [' '], .lit tagBuf, .lit ['\n']]

/-- The `push_str` calls of a list of quantile lines — src/sink/wavefront.rs:533-549;
`none` is the panic of `query(quant).unwrap()`. -/
def quantileToks (t : Telemetry F) (tagBuf : Str) : List (Str × F) → Option (List (Tok F))
  | [] => some []
  | (stat, quant) :: ps => match t.query quant, quantileToks t tagBuf ps with
    | some q, some rest =>
      some (lineToks [.lit t.name, .lit ['.'], .lit stat] (.value q) t.timestamp tagBuf ++ rest)
    | _, _ => none

/-- `fmt_val` — src/sink/wavefront.rs:459-576, as the sequence of its `push_str` calls. -/
def fmtVal (percentiles : List (Str × F)) (tags : TagMap) (t : Telemetry F) :
    Option (List (Tok F)) :=
  let tagBuf := fmtTags (t.iterTags tags)
  match t.kind with
  | .histogram => match t.bins with
    | some bins => some (bins.flatMap fun b =>
        lineToks [.lit t.name, .lit ['_'], match b.1 with
          | some bnd => .value bnd
          | none => .lit ['p', 'o', 's', '_', 'i', 'n', 'f']]
          (.count b.2) t.timestamp tagBuf)
    | none => some []
  | .sum => match t.sum with
    | some v => some (lineToks [.lit t.name] (.value v) t.timestamp tagBuf)
    | none => some []
  | .set => match t.set with
    | some v => some (lineToks [.lit t.name] (.value v) t.timestamp tagBuf)
    | none => some []
  | .summarize => match quantileToks t tagBuf percentiles, t.mean with
    | some qs, some mean =>
      some (qs ++
        lineToks [.lit t.name, .lit ['.', 'c', 'o', 'u', 'n', 't']] (.count t.count) t.timestamp
          tagBuf ++
        lineToks [.lit t.name, .lit ['.', 'm', 'e', 'a', 'n']] (.value mean) t.timestamp tagBuf)
    | _, _ => none

/-- The point `format_stats` prints for a `Pad` — src/sink/wavefront.rs:407-421, 423-448;
`none` is the panic of `harden().unwrap()`. -/
def Pad.point (now : Int) : Pad F → Option (Telemetry F)
  | .zero t ts => match (t.thaw.setValue F64.zero).harden now with
    | .ok z => some { z with timestamp := ts }
    | .error _ => none
  | .telem t => some t

/-- `Wavefront` — src/sink/wavefront.rs:62-76, without host, port and flush interval.
`connected` is `stream.is_some()`. -/
structure State (F : Type) [F64 F] where
  binWidth : Int
  aggrs : Buckets F
  deliveryAttempts : Nat := 0
  percentiles : List (Str × F)
  stats : Str := []
  ageThreshold : Option Nat
  connected : Bool
  lastSeen : LastSeen := fun _ => none
  padControl : PadControl
  tags : TagMap

/-- The loop of `format_stats` over the pads — src/sink/wavefront.rs:399-450: the caches,
the text, and `tmp_last_seen`.  Simplification: the persisted points added to
`self.aggrs` (lines 418-421) are left out, since line 454 overwrites `self.aggrs`. -/
def formatPads (ext : Ext F) (now : Int) (percentiles : List (Str × F)) (tags : TagMap) :
    List (Pad F) → Caches F → Str → LastSeen → Option (Str × LastSeen)
  | [], _, stats, tmp => some (stats, tmp)
  | pad :: pads, c, stats, tmp =>
    let tmp : LastSeen := fun h => if h = pad.hash ext then some pad.timestamp else tmp h
    match pad.point now with
    | none => none
    | some t => match fmtVal percentiles tags t with
      | none => none
      | some toks => match pushToks ext c stats toks with
        | none => none
        | some (c, stats) => formatPads ext now percentiles tags pads c stats tmp

/-- `format_stats` — src/sink/wavefront.rs:389-457.  `none` is a panic. -/
def State.formatStats (ext : Ext F) (now : Int) (s : State F) : Option (State F) :=
  match s.aggrs.iter with
  | none => none
  | some pts =>
    match formatPads ext now s.percentiles s.tags
      (padding ext pts s.binWidth s.lastSeen s.padControl) {} s.stats (fun _ => none) with
    | none => none
    | some (stats, tmp) =>
      some { s with stats := stats, aggrs := s.aggrs.reset now,
                    lastSeen := fun h => (tmp h).or (s.lastSeen h) }

/-- The outcome of one connection attempt or one `write_all`; a failed write may have sent
some of the text already — src/sink/wavefront.rs:359-384, src/sink/wavefront.rs:608-637. -/
inductive Io where
  | ok
  | fail (sent : Nat)
deriving DecidableEq, Repr

/-- What reached the proxy: a complete write, or the first part of a failed one, and the
delays taken before connection attempts — src/sink/wavefront.rs:608-637. -/
inductive Wire where
  | complete (text : Str)
  | part (text : Str)
  | delay (ms : Nat)
deriving DecidableEq, Repr

/-- The loop of `flush` — src/sink/wavefront.rs:610-636.  `script` lists the outcomes of the
connection attempts and writes; the flag says whether `flush` has returned when the script is
used up.  Simplification: one clock reading for all resets. -/
def State.flushLoop (now : Int) : List Io → State F → List Wire → State F × List Wire × Bool
  | [], s, wire => (s, wire, false)
  | io :: script, s, wire =>
    if s.connected then
      match io with
      | .ok => ({ s with aggrs := s.aggrs.reset now, stats := [], deliveryAttempts := 0 },
          wire ++ [.complete s.stats], true)
      | .fail n =>
        -- `saturating_add` on `u32`
        flushLoop now script
          { s with deliveryAttempts := min (s.deliveryAttempts + 1) (2 ^ 32 - 1), connected := false }
          (wire ++ [.part (s.stats.take n)])
    else
      flushLoop now script { s with connected := io = .ok }
        (wire ++ [.delay (delayMs s.deliveryAttempts)])

/-- `flush` — src/sink/wavefront.rs:608-637 (and `shutdown`, 639-641).  `none` is a panic. -/
def State.flush (ext : Ext F) (now : Int) (script : List Io) (s : State F) :
    Option (State F × List Wire × Bool) :=
  (s.formatStats ext now).map fun s => s.flushLoop now script []

/-- `u64 as i64`.  Used at src/sink/wavefront.rs:645. -/
def asI64 (n : Nat) : Int := if n < 2 ^ 63 then n else (n : Int) - 2 ^ 64

/-- `deliver` — src/sink/wavefront.rs:643-651.  `now` is both `time::now()` and the clock of
`Buckets.add`; `none` is a panic there. -/
def State.deliver (ext : Ext F) (now : Int) (s : State F) (t : Telemetry F) : Option (State F) :=
  let accept := match s.ageThreshold with
    | some age => decide (((t.timestamp - now).natAbs : Int) ≤ asI64 age)
    | none => true
  if accept then (s.aggrs.add ext.nameTagHash now t).map fun a => { s with aggrs := a }
  else some s

/-- `valve_state() == Open` — src/sink/wavefront.rs:653-663. -/
def State.valveOpen (s : State F) : Bool := !decide (s.aggrs.count > 10000)

/-- `init` — src/sink/wavefront.rs:582-602; the host is not modelled. -/
def State.init (binWidth : Int) (percentiles : List (Str × F)) (ageThreshold : Option Nat)
    (connected : Bool) (padControl : PadControl) (tags : TagMap) : State F :=
  { binWidth := binWidth, aggrs := Buckets.new binWidth, percentiles := percentiles,
    ageThreshold := ageThreshold, connected := connected, padControl := padControl, tags := tags }

end
end Wavefront
end Verif
