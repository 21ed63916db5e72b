import Verif.Spec.Federation
import Verif.Props.NetTotals
/-!
# C127 — two processes in a row: native sink to native source
-/
namespace Verif
open Net Topology
open Pipeline (Through Proper notPulse)
open Statsd (Datagram Reading handleDatagrams totalReported)
open Native (Each Arrives BatchArrives SendOk FlushWrites serve maxPayload)
variable {F : Type} [F64 F]

private theorem each_append {α β : Type} {R : α → β → Prop} {as : List α} {bs : List β} {as' : List α} {bs' : List β} (h : Each R as bs)
    (h' : Each R as' bs') : Each R (as ++ as') (bs ++ bs') := by
  induction h with
  | nil => exact h'
  | cons h _ ih => exact .cons h ih

private theorem pointsIn_append (a b : List (Event F)) : pointsIn (a ++ b) = pointsIn a ++ pointsIn b := by
  simp only [pointsIn, List.filterMap_append]

private theorem points_of (ts : List (Telemetry F)) (ls : List LogLine) : pointsIn (ts.map .telemetry ++ ls.map .log) = ts := by
  rw [pointsIn_append]
  have h1 : pointsIn (ts.map .telemetry) = ts := by simp [pointsIn, List.filterMap_map, Function.comp_def]
  have h2 : pointsIn (ls.map (.log : LogLine → Event F)) = [] := by simp [pointsIn, List.filterMap_map, Function.comp_def]
  rw [h1, h2, List.append_nil]

private theorem points_arrive {tags : TagMap} {batches outs : List (List (Event F))} (h : Each (BatchArrives tags) batches outs) :
    Each (Arrives tags) (pointsIn batches.flatten) (pointsIn outs.flatten) := by
  induction h with
  | nil => exact .nil
  | cons h _ ih =>
    obtain ⟨ts, ls, rfl, h1, -⟩ := h
    rw [List.flatten_cons, List.flatten_cons, pointsIn_append, pointsIn_append, points_of]
    exact each_append h1 ih

private theorem arrive_total {tags : TagMap} (n : Str) {ts ts' : List (Telemetry F)} (h : Each (Arrives tags) ts ts') :
    totalNamed n ts' = totalNamed n ts := by
  induction h with
  | nil => rfl
  | @cons t t' ts ts' h _ ih =>
    have hsum : t'.sum = t.sum := by
      have hv := h.value
      cases ht : t.value with
      | set x => rw [ht] at hv; simp only at hv; simp [Telemetry.sum, ht, hv]
      | sum x => rw [ht] at hv; simp only at hv; simp [Telemetry.sum, ht, hv]
      | histogram x => rw [ht] at hv; exact hv.elim
      | quantiles c x =>
        rw [ht] at hv
        obtain ⟨x, xs, -, hv⟩ := hv
        simp [Telemetry.sum, ht, hv]
    simp only [totalNamed] at ih ⊢
    by_cases hn : t.name = n
    · simp only [List.filter_cons, h.name, hn, decide_true, if_true, sumTotal, hsum, ih]
    · simp only [List.filter_cons, h.name, hn, decide_false, Bool.false_eq_true, if_false, ih]

private theorem arrive_mem {tags : TagMap} {ts ts' : List (Telemetry F)} (h : Each (Arrives tags) ts ts') :
    ∀ v ∈ ts', ∃ u ∈ ts, Arrives tags u v := by
  induction h with
  | nil => simp
  | cons h _ ih =>
    intro v hv
    rcases List.mem_cons.1 hv with rfl | hv
    · exact ⟨_, by simp, h⟩
    · obtain ⟨u, hu, h'⟩ := ih v hv
      exact ⟨u, by simp [hu], h'⟩

/-- What the native sink wrote, and what the source at the other end of the connection makes of it. -/
private theorem across (bits : Native.Bits F) (now : Int) (tags : TagMap) (htags : tags.Ok) (log : List (List (Event F) × List Native.Act))
    (hlog : ∀ b ∈ log, ∃ bs, FlushWrites bits tags b.1 bs ∧ b.2.getLast? = some (.write bs))
    (hok : ∀ b ∈ log, ∀ e ∈ b.1, SendOk bits e) (net : List Wire.NetItem) (hc : Carried log net) (fuel : Nat) (hf : (Wire.symsOf net).length < fuel) :
    ∃ outs : List (List (Event F)),
      serve bits now fuel { maxPayloadSize := maxPayload, buffer := { stream := net } } = (outs.flatten, .closed .eof) ∧
      Each (BatchArrives tags) (untilIdle log) outs := by
  obtain ⟨hn, ps, h1, h2, h3⟩ := hc
  refine C55_until_idle_partial bits now tags htags (log.map (·.1)) ps net ?_ ?_ h2 hn h3 fuel hf
  · intro b hb
    obtain ⟨x, hx, rfl⟩ := List.mem_map.1 hb
    exact hok x hx
  · clear h2 h3 hok
    induction h1 with
    | nil => exact .nil
    | cons h _ ih =>
      refine .cons ?_ (ih fun b hb => hlog b (by simp [hb]))
      obtain ⟨bs, g1, g2⟩ := hlog _ List.mem_cons_self
      rw [h, Option.some.injEq, Native.Act.write.injEq] at g2
      rw [g2]; exact g1

/-- **C127 (what arrives).**  Any number of sources feed a node of process A, from which a single chain of filters leads to a native sink; no queue on
the way has been full.  The network carries what the sink wrote to a native source of process B, from where a single chain of filters leads to a sink of B;
again no queue has been full.  The native source has sent nothing but its `Shutdown` since B was signalled.  When both processes have exited, B's sink
has been given what B's filters make of what B received, and what B received from A is, batch by batch, what A's filters made of what A received: all that A's
sources sent before A was signalled, up to the first flush for which A's sink had nothing. -/
theorem C127_arrives
    (c : Config) (hd : Distinct c) (p : Setup F) (hp : SetUp c p) (ls : Nat → Label F) (T t : Nat) (hT : ∀ t' < T, ls t' ≠ .signal)
    (h : (run p ls t).main = .exited) (first : Str) (fs : List Str) (n : Str) (hfun : Funnel c first fs n) (hn : n ∈ c.sinks)
    (hroom : ∀ m ∈ fs ++ [n], (run p ls t).lost m = [])
    (bits : Native.Bits F) (interval : Nat) (os : Nat → List Bool) (connected : Bool) (tags : TagMap) (htags : tags.Ok)
    (hsink : p.sink n = ⟨_, nativeImpl bits interval os, some { state := { connected := connected, tags := tags } }⟩)
    (m r k) (hnode : (run p ls t).nodes n = some (.sink ⟨_, nativeImpl bits interval os, some { state := { connected := connected, tags := tags } }⟩ m r))
    (hst : r.state = some k) (hok : ∀ b ∈ k.log, ∀ e ∈ b.1, SendOk bits e)
    (net : List Wire.NetItem) (hnet : Carried k.log net) (now : Int) (fuel : Nat) (hf : (Wire.symsOf net).length < fuel)
    (c' : Config) (hd' : Distinct c') (p' : Setup F) (hp' : SetUp c' p') (ls' : Nat → Label F) (T' t' : Nat) (hT' : ∀ u < T', ls' u ≠ .signal)
    (h' : (run p' ls' t').main = .exited) (first' : Str) (fs' : List Str) (n' : Str) (hfun' : Funnel c' first' fs' n') (hn' : n' ∈ c'.sinks)
    (hroom' : ∀ m ∈ fs' ++ [n'], (run p' ls' t').lost m = []) (iv : Option Nat) (hiv : ∀ st, (p'.sink n').impl.flushInterval st = iv)
    (i : Nat) (s : Str) (chans : List Str) (hs : p'.wiring.sources[i]? = some (s, chans)) (hfw : Forwards c' s first')
    (hq : sourceSent p' ls' i t' = sourceSent p' ls' i T' ++ [.shutdown])
    (hsrc : sourceSent p' ls' i t' = (serve bits now fuel { maxPayloadSize := maxPayload, buffer := { stream := net } }).1 ++ [.shutdown]) :
    ∃ received out received' out' outs nd', Through (fs.map p.filter) (received.map (·.2)) out ∧ FromSources c p ls first T t received ∧
      k.log.flatMap (·.1) = out.filter Event.isPointOrLine ∧
      Each (BatchArrives tags) (untilIdle k.log) outs ∧ acceptedFrom (.source i) received' = outs.flatten ∧
      FromSources c' p' ls' first' T' t' received' ∧ Through (fs'.map p'.filter) (received'.map (·.2)) out' ∧
      (run p' ls' t').nodes n' = some nd' ∧ nd'.delivered = out'.filter Event.isPayload := by
  obtain ⟨received, out, m1, r1, a1, a2, a3, a4⟩ := C123_several_native c hd p hp ls T t hT h first fs n hfun hn hroom bits interval os connected tags hsink
  rw [a3] at hnode
  simp only [Option.some.injEq, Node.sink.injEq, heq_eq_eq, true_and] at hnode
  obtain ⟨rfl, rfl⟩ := hnode
  obtain ⟨a5, a6⟩ := a4 k hst
  obtain ⟨outs, b1, b2⟩ := across bits now tags htags k.log a6 hok net hnet fuel hf
  obtain ⟨nd', received', out', d1, d2, d3, d4, -⟩ := C93_before_signal c' hd' p' hp' ls' T' t' hT' h' first' fs' n' hfun' hn' hroom' iv hiv
  refine ⟨received, out, received', out', outs, nd', a1, a2, a5, b2, ?_, d4, d2, d1, d3⟩
  have := C93_quiet c' p' ls' first' T' t' received' d4 i s chans hs hfw hq
  rw [hsrc, b1] at this
  exact (List.append_cancel_right this).symm

/-- **C127 (the points of a counter).**  Some source of process A sends points of a counter, and stops before the signal; no other source of A sends points of its
name; all forward straight to a native sink, whose queue has never been full, and which had something to send in every flush but perhaps the last ones.
Then the native source at the other end of the connection gets points of that name whose values add up to exactly those of the points sent. -/
theorem C127_points
    (c : Config) (hd : Distinct c) (p : Setup F) (hp : SetUp c p) (ls : Nat → Label F) (T t : Nat) (hT : ∀ t' < T, ls t' ≠ .signal)
    (h : (run p ls t).main = .exited) (n : Str) (hfun : Funnel c n [] n) (hn : n ∈ c.sinks) (hroom : (run p ls t).lost n = [])
    (i : Nat) (s : Str) (chans : List Str) (hs : p.wiring.sources[i]? = some (s, chans)) (hfw : Forwards c s n)
    (hq : sourceSent p ls i t = sourceSent p ls i T ++ [.shutdown]) (x : Str)
    (hother : ∀ j ≠ i, ∀ v, .telemetry v ∈ sourceSent p ls j t → v.name ≠ x)
    (hsum : ∀ v ∈ pointsIn (sourceSent p ls i t), v.name = x → v.kind = .sum ∧ v.persist = false)
    (bits : Native.Bits F) (interval : Nat) (os : Nat → List Bool) (connected : Bool) (tags : TagMap) (htags : tags.Ok)
    (hsink : p.sink n = ⟨_, nativeImpl bits interval os, some { state := { connected := connected, tags := tags } }⟩)
    (m r k) (hnode : (run p ls t).nodes n = some (.sink ⟨_, nativeImpl bits interval os, some { state := { connected := connected, tags := tags } }⟩ m r))
    (hst : r.state = some k) (hok : ∀ b ∈ k.log, ∀ e ∈ b.1, SendOk bits e) (hidle : IdleLast k.log)
    (net : List Wire.NetItem) (hnet : Carried k.log net) (now : Int) (fuel : Nat) (hf : (Wire.symsOf net).length < fuel) :
    totalNamed x (pointsIn (serve bits now fuel { maxPayloadSize := maxPayload, buffer := { stream := net } }).1) =
      totalNamed x (pointsIn (sourceSent p ls i t)) ∧
    ∀ v ∈ pointsIn (serve bits now fuel { maxPayloadSize := maxPayload, buffer := { stream := net } }).1, v.name = x → v.kind = .sum ∧ v.persist = false := by
  have key := all_of_name c hd p hp ls T t hT h n hfun hn hroom i s chans hs hfw hq x hother (some interval) (by rw [hsink]; intro st; rfl)
  rw [hsink] at key
  obtain ⟨m1, r1, j, b1, b2, b3, b4⟩ := key
  rw [b1] at hnode
  simp only [Option.some.injEq, Node.sink.injEq, heq_eq_eq, true_and] at hnode
  obtain ⟨rfl, rfl⟩ := hnode
  subst b2
  obtain ⟨e1, e2⟩ := C86_native bits interval os connected tags m1 j _ k b3 hst
  obtain ⟨outs, f1, f2⟩ := across bits now tags htags k.log e2 hok net hnet fuel hf
  have hfl : (untilIdle k.log).flatten = k.log.flatMap (·.1) := by
    have : (k.log.map (·.1)).flatten = (untilIdle k.log).flatten ++ ((k.log.map (·.1)).dropWhile fun b => !b.isEmpty).flatten := by
      rw [← List.flatten_append]; simp only [untilIdle, List.takeWhile_append_dropWhile]
    rw [List.flatMap_def, this, List.flatten_eq_nil_iff.2 hidle, List.append_nil]
  have hpts : pointsIn (untilIdle k.log).flatten = pointsIn (untilShutdown (arrivals (((run p ls t).log n).map fun x => some x.2))) := by
    rw [hfl, e1]
    simp only [pointsIn, List.filterMap_filter]
    congr 1
    funext e
    cases e <;> rfl
  have hE := points_arrive f2
  rw [hpts] at hE
  rw [f1]
  constructor
  · rw [arrive_total x hE, totalNamed, b4]; rfl
  · intro v hv hvn
    obtain ⟨u, hu, hA⟩ := arrive_mem hE v hv
    have hun : u.name = x := by rw [← hA.name]; exact hvn
    have : u ∈ (pointsIn (sourceSent p ls i t)).filter fun t => t.name = x := by
      rw [← b4]; exact List.mem_filter.2 ⟨hu, by simpa using hun⟩
    have := hsum u (List.mem_filter.1 this).1 hun
    exact ⟨by rw [hA.kind]; exact this.1, by rw [hA.persist]; exact this.2⟩

/-- **C127 (to a console).**  Clients report a counter to a statsd source of process A, which forwards straight to a native sink; the network carries what it writes to a native
source of process B, which forwards straight to a console sink.  In both processes the source has stopped before the signal, no other source sends points of the
counter's name, and the sink's queue has never been full; A's sink had something to send in every flush but perhaps the last ones.  When both processes have
exited, the values B has printed under the counter's name add up to exactly what the clients reported to A. -/
theorem C127_console [LawfulAdd F]
    (c : Config) (hd : Distinct c) (p : Setup F) (hp : SetUp c p) (ls : Nat → Label F) (T t : Nat) (hT : ∀ t' < T, ls t' ≠ .signal)
    (h : (run p ls t).main = .exited) (n : Str) (hfun : Funnel c n [] n) (hn : n ∈ c.sinks) (hroom : (run p ls t).lost n = [])
    (i : Nat) (s : Str) (chans : List Str) (hs : p.wiring.sources[i]? = some (s, chans)) (hfw : Forwards c s n)
    (hq : sourceSent p ls i t = sourceSent p ls i T ++ [.shutdown]) (x : Str)
    (hother : ∀ j ≠ i, ∀ v, .telemetry v ∈ sourceSent p ls j t → v.name ≠ x)
    (cfg : Statsd.Config F) (hu : cfg.Usable) (ha : cfg.AsciiNumbers) (packets : List (Datagram × List Reading))
    (hcar : ∀ p ∈ packets, Statsd.Carries cfg p.1 p.2) (hc : ∀ p ∈ packets, ∀ r ∈ p.2, r.name = x → r.ty = .counter)
    (hsrc : pointsIn (sourceSent p ls i t) = (handleDatagrams cfg (packets.map Prod.fst) []).1)
    (bits : Native.Bits F) (interval : Nat) (os : Nat → List Bool) (connected : Bool) (tags : TagMap) (htags : tags.Ok)
    (hsink : p.sink n = ⟨_, nativeImpl bits interval os, some { state := { connected := connected, tags := tags } }⟩)
    (m r k) (hnode : (run p ls t).nodes n = some (.sink ⟨_, nativeImpl bits interval os, some { state := { connected := connected, tags := tags } }⟩ m r))
    (hst : r.state = some k) (hok : ∀ b ∈ k.log, ∀ e ∈ b.1, SendOk bits e) (hidle : IdleLast k.log)
    (net : List Wire.NetItem) (hnet : Carried k.log net) (now : Int) (fuel : Nat) (hf : (Wire.symsOf net).length < fuel)
    (c' : Config) (hd' : Distinct c') (p' : Setup F) (hp' : SetUp c' p') (ls' : Nat → Label F) (T' t' : Nat) (hT' : ∀ u < T', ls' u ≠ .signal)
    (h' : (run p' ls' t').main = .exited) (n' : Str) (hfun' : Funnel c' n' [] n') (hn' : n' ∈ c'.sinks) (hroom' : (run p' ls' t').lost n' = [])
    (i' : Nat) (s' : Str) (chans' : List Str) (hs' : p'.wiring.sources[i']? = some (s', chans')) (hfw' : Forwards c' s' n')
    (hq' : sourceSent p' ls' i' t' = sourceSent p' ls' i' T' ++ [.shutdown])
    (hother' : ∀ j ≠ i', ∀ v, .telemetry v ∈ sourceSent p' ls' j t' → v.name ≠ x)
    (hsrc' : pointsIn (sourceSent p' ls' i' t') = pointsIn (serve bits now fuel { maxPayloadSize := maxPayload, buffer := { stream := net } }).1)
    (ext : Console.Ext F) (interval' : Nat) (clock : Nat → Int) (stamps : Nat → Str × Str) (w : Int) (hw : w ≠ 0) (tags' : TagMap)
    (hsep : Separates ext.nameTagHash (pointsIn (((run p' ls' t').log n').map (·.2))))
    (hsink' : p'.sink n' = ⟨_, consoleImpl ext interval' clock stamps, some { state := Console.init w tags' }⟩) :
    ∃ m r, (run p' ls' t').nodes n' = some (.sink ⟨_, consoleImpl ext interval' clock stamps, some { state := Console.init w tags' }⟩ m r) ∧
      ∀ h, r.state = some h → ∃ flushed : List (List (Telemetry F)), h.log.length = flushed.length ∧
        (∀ (i : Nat) pts, flushed[i]? = some pts → ∃ k ls text, h.log[i]? = some (ls, text) ∧ IsConsoleText ext tags' (stamps k) ls pts text) ∧
        (∀ p ∈ flushed.flatten, p.name = x → p.kind = .sum) ∧
        totalNamed x flushed.flatten = totalReported cfg x (packets.flatMap Prod.snd) := by
  obtain ⟨sent, s1, s2, s3⟩ := C112_source cfg hu ha x packets hcar hc
  obtain ⟨g1, g2⟩ := C127_points c hd p hp ls T t hT h n hfun hn hroom i s chans hs hfw hq x hother (by rw [hsrc, s1]; exact s2) bits interval os connected
    tags htags hsink m r k hnode hst hok hidle net hnet now fuel hf
  rw [hsrc, s1, s3, ← hsrc'] at g1
  rw [← hsrc'] at g2
  rw [← g1]
  exact C125_console_points c' hd' p' hp' ls' T' t' hT' h' n' hfun' hn' hroom' i' s' chans' hs' hfw' hq' x hother' g2 ext interval' clock stamps w hw tags' hsep hsink'

/-- **C127 (to Wavefront).**  The same when B's sink is a Wavefront sink, if no point of the counter is further off B's clock than the sink allows. -/
theorem C127_wavefront [LawfulAdd F]
    (c : Config) (hd : Distinct c) (p : Setup F) (hp : SetUp c p) (ls : Nat → Label F) (T t : Nat) (hT : ∀ t' < T, ls t' ≠ .signal)
    (h : (run p ls t).main = .exited) (n : Str) (hfun : Funnel c n [] n) (hn : n ∈ c.sinks) (hroom : (run p ls t).lost n = [])
    (i : Nat) (s : Str) (chans : List Str) (hs : p.wiring.sources[i]? = some (s, chans)) (hfw : Forwards c s n)
    (hq : sourceSent p ls i t = sourceSent p ls i T ++ [.shutdown]) (x : Str)
    (hother : ∀ j ≠ i, ∀ v, .telemetry v ∈ sourceSent p ls j t → v.name ≠ x)
    (cfg : Statsd.Config F) (hu : cfg.Usable) (ha : cfg.AsciiNumbers) (packets : List (Datagram × List Reading))
    (hcar : ∀ p ∈ packets, Statsd.Carries cfg p.1 p.2) (hc : ∀ p ∈ packets, ∀ r ∈ p.2, r.name = x → r.ty = .counter)
    (hsrc : pointsIn (sourceSent p ls i t) = (handleDatagrams cfg (packets.map Prod.fst) []).1)
    (bits : Native.Bits F) (interval : Nat) (os : Nat → List Bool) (connected : Bool) (tags : TagMap) (htags : tags.Ok)
    (hsink : p.sink n = ⟨_, nativeImpl bits interval os, some { state := { connected := connected, tags := tags } }⟩)
    (m r k) (hnode : (run p ls t).nodes n = some (.sink ⟨_, nativeImpl bits interval os, some { state := { connected := connected, tags := tags } }⟩ m r))
    (hst : r.state = some k) (hok : ∀ b ∈ k.log, ∀ e ∈ b.1, SendOk bits e) (hidle : IdleLast k.log)
    (net : List Wire.NetItem) (hnet : Carried k.log net) (now : Int) (fuel : Nat) (hf : (Wire.symsOf net).length < fuel)
    (c' : Config) (hd' : Distinct c') (p' : Setup F) (hp' : SetUp c' p') (ls' : Nat → Label F) (T' t' : Nat) (hT' : ∀ u < T', ls' u ≠ .signal)
    (h' : (run p' ls' t').main = .exited) (n' : Str) (hfun' : Funnel c' n' [] n') (hn' : n' ∈ c'.sinks) (hroom' : (run p' ls' t').lost n' = [])
    (i' : Nat) (s' : Str) (chans' : List Str) (hs' : p'.wiring.sources[i']? = some (s', chans')) (hfw' : Forwards c' s' n')
    (hq' : sourceSent p' ls' i' t' = sourceSent p' ls' i' T' ++ [.shutdown])
    (hother' : ∀ j ≠ i', ∀ v, .telemetry v ∈ sourceSent p' ls' j t' → v.name ≠ x)
    (hsrc' : pointsIn (sourceSent p' ls' i' t') = pointsIn (serve bits now fuel { maxPayloadSize := maxPayload, buffer := { stream := net } }).1)
    (ext : Wavefront.Ext F) (interval' : Nat) (clock : Nat → Int) (os' : Nat → List Wavefront.Io) (w : Int) (hw : w ≠ 0)
    (ps : List (Str × F)) (age : Option Nat) (connected' : Bool) (pc : Wavefront.PadControl) (tags' : TagMap)
    (hage : ∀ a, age = some a → a < 2 ^ 63)
    (hsep : Separates ext.nameTagHash (pointsIn (((run p' ls' t').log n').map (·.2))))
    (hyoung : ∀ v ∈ pointsIn (sourceSent p' ls' i' t'), v.name = x → ∀ j, youngEnough age (clock j, v) = true)
    (hsink' : p'.sink n' = ⟨_, wavefrontImpl ext interval' clock os', some { state := Wavefront.State.init w ps age connected' pc tags' }⟩) :
    ∃ m r, (run p' ls' t').nodes n' =
        some (.sink ⟨_, wavefrontImpl ext interval' clock os', some { state := Wavefront.State.init w ps age connected' pc tags' }⟩ m r) ∧
      ∀ h, r.state = some h → ∃ shown : List (List (Telemetry F)), h.log.length = shown.length ∧
        (∀ (i : Nat) pts, shown[i]? = some pts → ∃ W text, h.log[i]? = some (W ++ [.complete text]) ∧
          (∀ e ∈ W, ∃ n, e = .part (text.take n) ∨ e = .delay n) ∧
          ∀ vals, Wavefront.Ordered ext vals → (∀ t ∈ pts, ∀ x, Wavefront.printed ps t x → vals x) →
            text = (pts.map (Wavefront.pointText ext ps tags')).flatten) ∧
        (∀ p ∈ shown.flatten, p.name = x → p.kind = .sum) ∧
        totalNamed x shown.flatten = totalReported cfg x (packets.flatMap Prod.snd) := by
  obtain ⟨sent, s1, s2, s3⟩ := C112_source cfg hu ha x packets hcar hc
  obtain ⟨g1, g2⟩ := C127_points c hd p hp ls T t hT h n hfun hn hroom i s chans hs hfw hq x hother (by rw [hsrc, s1]; exact s2) bits interval os connected
    tags htags hsink m r k hnode hst hok hidle net hnet now fuel hf
  rw [hsrc, s1, s3, ← hsrc'] at g1
  rw [← hsrc'] at g2
  rw [← g1]
  exact C125_wavefront_points c' hd' p' hp' ls' T' t' hT' h' n' hfun' hn' hroom' i' s' chans' hs' hfw' hq' x hother' g2 ext interval' clock os' w hw ps age
    connected' pc tags' hage hsep hyoung hsink'

/-! ## An example: statsd to native, native to console -/

private def near : Config := ⟨[['k']], [], [], [(['a'], [['k']])]⟩

private def nearSetup : Setup Int where
  wiring := ⟨[(['k'], [['a']])], [], [(['a'], [['k']])], [['k']]⟩
  filter _ := ⟨_, delayProcess, 10⟩
  sink _ := ⟨_, nativeImpl intBits 1 (fun _ => [true, true]), some { state := { connected := false, tags := [] } }⟩
  stopOrder := [0]
  joinOrder := [['k']]

/-- two packets: a counter beside a gauge, then the counter again, twice -/
private def packets : List (Datagram × List Reading) :=
  [(⟨some "a:2|c\nx:5|g\n".toList, 7⟩, [⟨['a'], ['2'], .counter, none⟩, ⟨['x'], ['5'], .gauge, none⟩]),
   (⟨some "a:3|c\na:4|c".toList, 8⟩, [⟨['a'], ['3'], .counter, none⟩, ⟨['a'], ['4'], .counter, none⟩])]

private def batch1 : List (Event Int) := [.telemetry ⟨['a'], .sum 2, false, none, 7, none, none⟩, .telemetry ⟨['x'], .set 5, true, none, 7, none, none⟩]
private def batch2 : List (Event Int) := [.telemetry ⟨['a'], .sum 3, false, none, 8, none, none⟩, .telemetry ⟨['a'], .sum 4, false, none, 8, none, none⟩]

/-- A flush after each packet, so that there is nothing left to flush at the end. -/
private def nearRota : List (Label Int) := batch1.map (.emit 0) ++ [.pulse 1] ++ batch2.map (.emit 0) ++ [.pulse 2, .signal, .main, .main, .stop 0, .main, .main] ++
  List.replicate 24 (.act ['k'] 0) ++ [.main, .main, .main, .main]

private def nearLabels (t : Nat) : Label Int := nearRota[t]?.getD .main

private def body (b : List (Event Int)) : Bytes := (Native.payloadOf intBits [] b).write

/-- What the other end sees: the second batch comes later, and then the empty one. -/
private def net : List Wire.NetItem := [.data (Wire.frame (body batch1)), .wouldBlock, .data (Wire.frame (body batch2)), .data (Wire.frame [])]

private def ext : Console.Ext Int := { consoleExt with nameTagHash := fun x : Str × TagMap => (x.1.head?.getD 'a').toNat }

private def farSetup : Setup Int where
  wiring := ⟨[(['k'], [['b']])], [], [(['b'], [['k']])], [['k']]⟩
  filter _ := ⟨_, delayProcess, 10⟩
  sink _ := ⟨_, consoleImpl ext 1 (fun _ => 9) (fun _ => (['1'], ['2'])), some { state := Console.init 1 [] }⟩
  stopOrder := [0]
  joinOrder := [['k']]

private def far : Config := ⟨[['k']], [], [], [(['b'], [['k']])]⟩

private def farRota : List (Label Int) := batch1.map (.emit 0) ++ batch2.map (.emit 0) ++ [.signal, .main, .main, .stop 0, .main, .main] ++
  List.replicate 20 (.act ['k'] 0) ++ [.main, .main, .main, .main]

private def farLabels (t : Nat) : Label Int := farRota[t]?.getD .main

private theorem feeds (s : Char) : Funnel ⟨[['k']], [], [], [([s], [['k']])]⟩ ['k'] [] ['k'] := by
  refine .sources (.inl (by simp)) ?_
  rintro u ⟨fs, h1, h2⟩
  simp only [List.nil_append, List.mem_singleton, Prod.mk.injEq] at h1
  obtain ⟨rfl, rfl⟩ := h1
  simp

private theorem bytes_only (p : Bytes) : ∀ x ∈ p.map Wire.Sym.byte, x = .block ∨ ∃ b, x = .byte b := by
  intro x hx
  obtain ⟨b, -, rfl⟩ := List.mem_map.1 hx
  exact .inr ⟨b, rfl⟩

private theorem bytes_of (p : Bytes) : (p.map Wire.Sym.byte).filterMap Wire.Sym.byte? = p := by
  induction p with
  | nil => rfl
  | cons b p ih =>
    rw [List.map_cons, List.filterMap_cons_some (f := Wire.Sym.byte?) (b := b) rfl, ih]

private theorem net_framed : Wire.Framed [body batch1, body batch2, []] (Wire.symsOf net) := by
  have h3 : Wire.Framed [[]] ((Wire.be 4 0).map .byte ++ [] ++ []) := .frame [] [] rfl (by simp) .done
  have h2 := Wire.Framed.frame (body batch2) ((body batch2).map .byte) (bytes_of _) (bytes_only _) h3
  have h1 := Wire.Framed.frame (body batch1) ((body batch1).map .byte) (bytes_of _) (bytes_only _) (.block h2)
  have : Wire.symsOf net = (Wire.be 4 (body batch1).length).map .byte ++ (body batch1).map .byte ++
      (.block :: ((Wire.be 4 (body batch2).length).map .byte ++ (body batch2).map .byte ++ ((Wire.be 4 0).map .byte ++ [] ++ []))) := by
    simp [Wire.symsOf, net, Wire.NetItem.syms, Wire.frame]
  rw [this]; exact h1

/-- All hypotheses of `C127_console` together. -/
example : Distinct near ∧ SetUp near nearSetup ∧ (∀ t' < 6, nearLabels t' ≠ .signal) ∧ (run nearSetup nearLabels 50).main = .exited ∧ Funnel near ['k'] [] ['k'] ∧
    ['k'] ∈ near.sinks ∧ (run nearSetup nearLabels 50).lost ['k'] = [] ∧ nearSetup.wiring.sources[0]? = some (['a'], [['k']]) ∧ Forwards near ['a'] ['k'] ∧
    sourceSent nearSetup nearLabels 0 50 = sourceSent nearSetup nearLabels 0 6 ++ [.shutdown] ∧
    (∀ p ∈ packets, Statsd.Carries demo p.1 p.2) ∧ (∀ p ∈ packets, ∀ r ∈ p.2, r.name = ['a'] → r.ty = .counter) ∧
    pointsIn (sourceSent nearSetup nearLabels 0 50) = (handleDatagrams demo (packets.map Prod.fst) []).1 ∧
    (∃ m r k, (run nearSetup nearLabels 50).nodes ['k'] =
        some (.sink ⟨_, nativeImpl intBits 1 (fun _ => [true, true]), some { state := { connected := false, tags := [] } }⟩ m r) ∧
      r.state = some k ∧ (∀ b ∈ k.log, ∀ e ∈ b.1, SendOk intBits e) ∧ IdleLast k.log ∧ Carried k.log net) ∧
    Distinct far ∧ SetUp far farSetup ∧ (∀ u < 4, farLabels u ≠ .signal) ∧ (run farSetup farLabels 50).main = .exited ∧ Funnel far ['k'] [] ['k'] ∧
    (run farSetup farLabels 50).lost ['k'] = [] ∧ farSetup.wiring.sources[0]? = some (['b'], [['k']]) ∧ Forwards far ['b'] ['k'] ∧
    sourceSent farSetup farLabels 0 50 = sourceSent farSetup farLabels 0 4 ++ [.shutdown] ∧
    pointsIn (sourceSent farSetup farLabels 0 50) = pointsIn (serve intBits 0 1000 { maxPayloadSize := maxPayload, buffer := { stream := net } }).1 ∧
    (Wire.symsOf net).length < 1000 ∧
    Separates ext.nameTagHash (pointsIn (((run farSetup farLabels 50).log ['k']).map (·.2))) ∧
    totalReported demo ['a'] (packets.flatMap Prod.snd) = 9 := by
  have hlog : ∃ m r k, (run nearSetup nearLabels 50).nodes ['k'] =
        some (.sink ⟨_, nativeImpl intBits 1 (fun _ => [true, true]), some { state := { connected := false, tags := [] } }⟩ m r) ∧
      r.state = some k ∧ k.log = [(batch1, [.delay 0, .connect, .write (Wire.frame (body batch1))]), (batch2, [.write (Wire.frame (body batch2))]),
        ([], [.write (Wire.frame [])])] := ⟨_, _, _, rfl, rfl, by decide +kernel⟩
  obtain ⟨m, r, k, h1, h2, h3⟩ := hlog
  refine ⟨by decide, ⟨rfl, by decide, by decide, fun n hn => absurd hn (by simp [near])⟩, fun t' ht' => ?_, by decide +kernel, feeds 'a', by decide,
    by decide +kernel, rfl, ⟨[['k']], by decide, by decide⟩, by decide +kernel, ?_, by decide, by decide +kernel, ⟨m, r, k, h1, h2, ?_, ?_, ?_⟩,
    by decide, ⟨rfl, by decide, by decide, fun n hn => absurd hn (by simp [far])⟩, fun t' ht' => ?_, by decide +kernel, feeds 'b', by decide +kernel, rfl,
    ⟨[['k']], by decide, by decide⟩, by decide +kernel, by decide +kernel, by decide +kernel, by unfold Separates; decide +kernel, by decide +kernel⟩
  · have : t' = 0 ∨ t' = 1 ∨ t' = 2 ∨ t' = 3 ∨ t' = 4 ∨ t' = 5 := by omega
    rcases this with rfl | rfl | rfl | rfl | rfl | rfl <;> intro h <;> cases h
  · intro p hp
    simp only [packets, List.mem_cons, List.not_mem_nil, or_false] at hp
    rcases hp with rfl | rfl
    · refine ⟨by simp, ?_, _, rfl, by decide⟩
      intro r hr
      simp only [List.mem_cons, List.not_mem_nil, or_false] at hr
      rcases hr with rfl | rfl <;> exact ⟨by decide, by decide, by decide, by decide, by simp⟩
    · refine ⟨by simp, ?_, _, rfl, by decide⟩
      intro r hr
      simp only [List.mem_cons, List.not_mem_nil, or_false] at hr
      rcases hr with rfl | rfl <;> exact ⟨by decide, by decide, by decide, by decide, by simp⟩
  · rw [h3]
    intro b hb e he
    simp only [List.mem_cons, List.not_mem_nil, or_false] at hb
    rcases hb with rfl | rfl | rfl
    · simp only [batch1, List.mem_cons, List.not_mem_nil, or_false] at he
      rcases he with rfl | rfl <;> exact ⟨by simp, ⟨by decide, by decide⟩, by decide, by decide, by decide, by decide⟩
    · simp only [batch2, List.mem_cons, List.not_mem_nil, or_false] at he
      rcases he with rfl | rfl <;> exact ⟨by simp, ⟨by decide, by decide⟩, by decide, by decide, by decide, by decide⟩
    · cases he
  · rw [h3]
    simp [IdleLast, batch1, batch2]
  · rw [h3]
    refine ⟨?_, _, .cons rfl (.cons rfl (.cons rfl .nil)), by decide +kernel, net_framed⟩
    intro bs hbs
    simp only [net, List.mem_cons, Wire.NetItem.data.injEq, List.not_mem_nil, or_false, reduceCtorEq, false_or] at hbs
    rcases hbs with rfl | rfl | rfl <;> decide +kernel
  · have : t' = 0 ∨ t' = 1 ∨ t' = 2 ∨ t' = 3 := by omega
    rcases this with rfl | rfl | rfl | rfl <;> intro h <;> cases h

end Verif
