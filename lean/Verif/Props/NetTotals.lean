import Verif.Props.NetSeveral
import Verif.Props.WavefrontTotals
/-!
# C125 — counters add up, from the clients to what the process has written when it ends
-/
namespace Verif
open Net Topology
open Pipeline (Through Proper notPulse)
open Statsd (Datagram Reading handleDatagrams totalReported)
variable {F : Type} [F64 F]

private theorem named_from {i : Nat} {n : Str} : ∀ {received : List (Sender × Event F)},
    (∀ x ∈ received, ∀ v, x.2 = .telemetry v → v.name = n → x.1 = .source i) →
    (pointsIn (received.map (·.2))).filter (fun t => t.name = n) = (pointsIn (acceptedFrom (.source i) received)).filter (fun t => t.name = n)
  | [], _ => rfl
  | (x, e) :: received, h => by
    have ih := named_from fun y hy => h y (List.mem_cons_of_mem _ hy)
    have hx := h _ List.mem_cons_self
    rw [show acceptedFrom (.source i) ((x, e) :: received) = acceptedFrom (.source i) [(x, e)] ++ acceptedFrom (.source i) received from
      acceptedFrom_append _ [(x, e)] received]
    rw [List.map_cons, show pointsIn (e :: received.map (·.2)) = pointsIn [e] ++ pointsIn (received.map (·.2)) by
        rw [← List.singleton_append]; simp only [pointsIn, List.filterMap_append],
      show pointsIn (acceptedFrom (.source i) [(x, e)] ++ acceptedFrom (.source i) received) =
        pointsIn (acceptedFrom (.source i) [(x, e)]) ++ pointsIn (acceptedFrom (.source i) received) by simp only [pointsIn, List.filterMap_append],
      List.filter_append, List.filter_append, ih]
    congr 1
    by_cases hxi : x = .source i
    · simp [acceptedFrom, hxi]
    · have : (x == Sender.source i) = false := by simpa using hxi
      simp only [acceptedFrom, List.filter_cons, this, Bool.false_eq_true, if_false, List.filter_nil, List.map_nil]
      cases e with
      | telemetry v =>
        have : v.name ≠ n := fun hn => hxi (hx v rfl hn)
        simp [pointsIn, this]
      | _ => rfl

/-- What the sink's own loop has gone through when the process has exited: of the points of a name that only source `i` sends, exactly those the
source sent. -/
theorem all_of_name (c : Config) (hd : Distinct c) (p : Setup F) (hp : SetUp c p) (ls : Nat → Label F) (T t : Nat)
    (hT : ∀ t' < T, ls t' ≠ .signal) (h : (run p ls t).main = .exited) (k : Str) (hfun : Funnel c k [] k) (hk : k ∈ c.sinks)
    (hroom : (run p ls t).lost k = []) (i : Nat) (s : Str) (chans : List Str) (hs : p.wiring.sources[i]? = some (s, chans))
    (hf : Forwards c s k) (hq : sourceSent p ls i t = sourceSent p ls i T ++ [.shutdown]) (n : Str)
    (hother : ∀ j ≠ i, ∀ v, .telemetry v ∈ sourceSent p ls j t → v.name ≠ n)
    (iv : Option Nat) (hiv : ∀ st, (p.sink k).impl.flushInterval st = iv) :
    ∃ m r j, (run p ls t).nodes k = some (.sink (p.sink k) m r) ∧
      r = SinkRun.steps (p.sink k).impl m j { state := (p.sink k).start, queue := ((run p ls t).log k).map (fun x => some x.2) } ∧ r.returned = true ∧
      (pointsIn (untilShutdown (arrivals (((run p ls t).log k).map (fun x => some x.2))))).filter (fun t => t.name = n) =
        (pointsIn (sourceSent p ls i t)).filter fun t => t.name = n := by
  obtain ⟨nd, received, out, a1, a2, a3, a4, -⟩ := C93_before_signal c hd p hp ls T t hT h k [] k hfun hk
    (fun m hm => by obtain rfl : m = k := by simpa using hm
                    exact hroom) iv hiv
  obtain ⟨m, r, j, b1, b2⟩ := C123_alone c hd p hp ls t k hk
  obtain ⟨nd', c1, c2⟩ := (C92_orderly c hd p hp ls t h).2.2 k (.inl hk)
  have hr : r.returned = true := by
    rw [b1, Option.some.injEq] at c1
    rw [← c1] at c2
    exact c2
  refine ⟨m, r, j, b1, b2, hr, ?_⟩
  rw [b1, Option.some.injEq] at a1
  rw [← a1] at a3
  simp only [Node.delivered] at a3
  rw [b2] at hr a3
  have e1 := delivered_at_return _ iv hiv _ _ _ _ hr
  cases a2
  rw [← pointsIn_payload, ← e1, a3, pointsIn_payload, named_from (i := i), C93_quiet c p ls k T t received a4 i s chans hs hf hq]
  · simp [pointsIn]
  · intro x hx v hv hn
    obtain ⟨x, e⟩ := x
    simp only at hv
    subst hv
    have hsrc := (a4.1 _ hx).2
    cases x with
    | source j =>
      obtain ⟨s', ch', g1, g2⟩ := hsrc
      by_cases hj : j = i
      · rw [hj]
      · refine absurd hn (hother j hj v ?_)
        exact (a4.2 j s' ch' g1 g2).2.subset (List.mem_map.2 ⟨_, List.mem_filter.2 ⟨hx, by simp⟩, rfl⟩)
    | filter f => exact hsrc.elim
    | timer => cases hsrc

theorem separates_prefix {hash : Str × TagMap → Nat} {log : List (Sender × Event F)}
    (h : Separates hash (pointsIn (log.map (·.2)))) : Separates hash (pointsIn (untilShutdown (arrivals (log.map fun x => some x.2)))) := by
  have hsub : ∀ v ∈ pointsIn (untilShutdown (arrivals (log.map fun x => some x.2))), v ∈ pointsIn (log.map (·.2)) := by
    have : arrivals (log.map fun x => some x.2) = log.map (·.2) := by simp [arrivals, List.filterMap_map]
    rw [this]
    exact ((List.takeWhile_sublist _).filterMap _).subset
  exact fun a ha b hb => h a (hsub a ha) b (hsub b hb)

/-- **C125 (console, any source).**  Some source sends points of a counter, and stops before the signal; no other source sends points of its name.  All sources
forward straight to a console sink, whose queue has never been full.  When the process has exited, the values printed under the counter's name, over all
flushes, add up to exactly the values of the points. -/
theorem C125_console_points [LawfulAdd F] (c : Config) (hd : Distinct c) (p : Setup F) (hp : SetUp c p) (ls : Nat → Label F) (T t : Nat)
    (hT : ∀ t' < T, ls t' ≠ .signal) (h : (run p ls t).main = .exited) (k : Str) (hfun : Funnel c k [] k) (hk : k ∈ c.sinks)
    (hroom : (run p ls t).lost k = []) (i : Nat) (s : Str) (chans : List Str) (hs : p.wiring.sources[i]? = some (s, chans))
    (hf : Forwards c s k) (hq : sourceSent p ls i t = sourceSent p ls i T ++ [.shutdown]) (n : Str)
    (hother : ∀ j ≠ i, ∀ v, .telemetry v ∈ sourceSent p ls j t → v.name ≠ n)
    (hsum : ∀ v ∈ pointsIn (sourceSent p ls i t), v.name = n → v.kind = .sum ∧ v.persist = false)
    (ext : Console.Ext F) (interval : Nat) (clock : Nat → Int) (stamps : Nat → Str × Str) (w : Int) (hw : w ≠ 0) (tags : TagMap)
    (hsep : Separates ext.nameTagHash (pointsIn (((run p ls t).log k).map (·.2))))
    (hsink : p.sink k = ⟨_, consoleImpl ext interval clock stamps, some { state := Console.init w tags }⟩) :
    ∃ m r, (run p ls t).nodes k = some (.sink ⟨_, consoleImpl ext interval clock stamps, some { state := Console.init w tags }⟩ m r) ∧
      ∀ h, r.state = some h → ∃ flushed : List (List (Telemetry F)), h.log.length = flushed.length ∧
        (∀ (i : Nat) pts, flushed[i]? = some pts → ∃ k ls text, h.log[i]? = some (ls, text) ∧ IsConsoleText ext tags (stamps k) ls pts text) ∧
        (∀ p ∈ flushed.flatten, p.name = n → p.kind = .sum) ∧
        totalNamed n flushed.flatten = totalNamed n (pointsIn (sourceSent p ls i t)) := by
  have key := all_of_name c hd p hp ls T t hT h k hfun hk hroom i s chans hs hf hq n hother (some interval) (by rw [hsink]; intro st; rfl)
  rw [hsink] at key
  obtain ⟨m, r, j, b1, b2, b3, b4⟩ := key
  subst b2
  refine ⟨m, _, b1, fun h hh => ?_⟩
  exact C112_console n _ hsum ext interval clock stamps w hw tags m j _ h
    (by rw [b4]) (separates_prefix hsep) b3 hh

/-- **C125 (console).**  A statsd source and any other sources forward straight to a console sink, and the sink's queue has never been full.  Clients report a
counter, and stop before the signal; no other source sends points of its name.  When the process has exited, the values printed under the
counter's name, over all flushes, add up to exactly what the clients reported. -/
theorem C125_console [LawfulAdd F] (c : Config) (hd : Distinct c) (p : Setup F) (hp : SetUp c p) (ls : Nat → Label F) (T t : Nat)
    (hT : ∀ t' < T, ls t' ≠ .signal) (h : (run p ls t).main = .exited) (k : Str) (hfun : Funnel c k [] k) (hk : k ∈ c.sinks)
    (hroom : (run p ls t).lost k = []) (i : Nat) (s : Str) (chans : List Str) (hs : p.wiring.sources[i]? = some (s, chans))
    (hf : Forwards c s k) (hq : sourceSent p ls i t = sourceSent p ls i T ++ [.shutdown]) (n : Str)
    (hother : ∀ j ≠ i, ∀ v, .telemetry v ∈ sourceSent p ls j t → v.name ≠ n)
    (cfg : Statsd.Config F) (hu : cfg.Usable) (ha : cfg.AsciiNumbers) (packets : List (Datagram × List Reading))
    (hcar : ∀ p ∈ packets, Statsd.Carries cfg p.1 p.2) (hc : ∀ p ∈ packets, ∀ r ∈ p.2, r.name = n → r.ty = .counter)
    (hsrc : pointsIn (sourceSent p ls i t) = (handleDatagrams cfg (packets.map Prod.fst) []).1)
    (ext : Console.Ext F) (interval : Nat) (clock : Nat → Int) (stamps : Nat → Str × Str) (w : Int) (hw : w ≠ 0) (tags : TagMap)
    (hsep : Separates ext.nameTagHash (pointsIn (((run p ls t).log k).map (·.2))))
    (hsink : p.sink k = ⟨_, consoleImpl ext interval clock stamps, some { state := Console.init w tags }⟩) :
    ∃ m r, (run p ls t).nodes k = some (.sink ⟨_, consoleImpl ext interval clock stamps, some { state := Console.init w tags }⟩ m r) ∧
      ∀ h, r.state = some h → ∃ flushed : List (List (Telemetry F)), h.log.length = flushed.length ∧
        (∀ (i : Nat) pts, flushed[i]? = some pts → ∃ k ls text, h.log[i]? = some (ls, text) ∧ IsConsoleText ext tags (stamps k) ls pts text) ∧
        (∀ p ∈ flushed.flatten, p.name = n → p.kind = .sum) ∧
        totalNamed n flushed.flatten = totalReported cfg n (packets.flatMap Prod.snd) := by
  obtain ⟨sent, s1, s2, s3⟩ := C112_source cfg hu ha n packets hcar hc
  replace hsrc : pointsIn (sourceSent p ls i t) = sent := by rw [hsrc, s1]
  rw [← s3, ← hsrc]
  exact C125_console_points c hd p hp ls T t hT h k hfun hk hroom i s chans hs hf hq n hother (by rw [hsrc]; exact s2) ext interval clock stamps w hw tags hsep hsink

/-- **C125 (Wavefront, any source).**  The same for the Wavefront sink. -/
theorem C125_wavefront_points [LawfulAdd F] (c : Config) (hd : Distinct c) (p : Setup F) (hp : SetUp c p) (ls : Nat → Label F) (T t : Nat)
    (hT : ∀ t' < T, ls t' ≠ .signal) (h : (run p ls t).main = .exited) (k : Str) (hfun : Funnel c k [] k) (hk : k ∈ c.sinks)
    (hroom : (run p ls t).lost k = []) (i : Nat) (s : Str) (chans : List Str) (hs : p.wiring.sources[i]? = some (s, chans))
    (hf : Forwards c s k) (hq : sourceSent p ls i t = sourceSent p ls i T ++ [.shutdown]) (n : Str)
    (hother : ∀ j ≠ i, ∀ v, .telemetry v ∈ sourceSent p ls j t → v.name ≠ n)
    (hsum : ∀ v ∈ pointsIn (sourceSent p ls i t), v.name = n → v.kind = .sum ∧ v.persist = false)
    (ext : Wavefront.Ext F) (interval : Nat) (clock : Nat → Int) (os : Nat → List Wavefront.Io) (w : Int) (hw : w ≠ 0)
    (ps : List (Str × F)) (age : Option Nat) (connected : Bool) (pc : Wavefront.PadControl) (tags : TagMap)
    (hage : ∀ a, age = some a → a < 2 ^ 63)
    (hsep : Separates ext.nameTagHash (pointsIn (((run p ls t).log k).map (·.2))))
    (hyoung : ∀ v ∈ pointsIn (sourceSent p ls i t), v.name = n → ∀ j, youngEnough age (clock j, v) = true)
    (hsink : p.sink k = ⟨_, wavefrontImpl ext interval clock os, some { state := Wavefront.State.init w ps age connected pc tags }⟩) :
    ∃ m r, (run p ls t).nodes k = some (.sink ⟨_, wavefrontImpl ext interval clock os, some { state := Wavefront.State.init w ps age connected pc tags }⟩ m r) ∧
      ∀ h, r.state = some h → ∃ shown : List (List (Telemetry F)), h.log.length = shown.length ∧
        (∀ (i : Nat) pts, shown[i]? = some pts → ∃ W text, h.log[i]? = some (W ++ [.complete text]) ∧
          (∀ e ∈ W, ∃ n, e = .part (text.take n) ∨ e = .delay n) ∧
          ∀ vals, Wavefront.Ordered ext vals → (∀ t ∈ pts, ∀ x, Wavefront.printed ps t x → vals x) →
            text = (pts.map (Wavefront.pointText ext ps tags)).flatten) ∧
        (∀ p ∈ shown.flatten, p.name = n → p.kind = .sum) ∧
        totalNamed n shown.flatten = totalNamed n (pointsIn (sourceSent p ls i t)) := by
  have key := all_of_name c hd p hp ls T t hT h k hfun hk hroom i s chans hs hf hq n hother (some interval) (by rw [hsink]; intro st; rfl)
  rw [hsink] at key
  obtain ⟨m, r, j, b1, b2, b3, b4⟩ := key
  subst b2
  refine ⟨m, _, b1, fun h hh => ?_⟩
  refine C112_wavefront n _ hsum ext interval clock os w hw ps age connected pc tags hage m j _ h
    (by rw [b4]) (separates_prefix hsep) b3 hh ?_
  intro v hv hn l _
  have : v ∈ (pointsIn (sourceSent p ls i t)).filter fun t => t.name = n := by
    rw [← b4]; exact List.mem_filter.2 ⟨hv, by simpa using hn⟩
  exact hyoung v (List.mem_filter.1 this).1 hn l

/-- **C125 (Wavefront).**  The same for the Wavefront sink, if no point of the counter is further off the sink's clock than the sink allows: the values
written under the counter's name, over all flushes, padding included, add up to exactly what the clients reported. -/
theorem C125_wavefront [LawfulAdd F] (c : Config) (hd : Distinct c) (p : Setup F) (hp : SetUp c p) (ls : Nat → Label F) (T t : Nat)
    (hT : ∀ t' < T, ls t' ≠ .signal) (h : (run p ls t).main = .exited) (k : Str) (hfun : Funnel c k [] k) (hk : k ∈ c.sinks)
    (hroom : (run p ls t).lost k = []) (i : Nat) (s : Str) (chans : List Str) (hs : p.wiring.sources[i]? = some (s, chans))
    (hf : Forwards c s k) (hq : sourceSent p ls i t = sourceSent p ls i T ++ [.shutdown]) (n : Str)
    (hother : ∀ j ≠ i, ∀ v, .telemetry v ∈ sourceSent p ls j t → v.name ≠ n)
    (cfg : Statsd.Config F) (hu : cfg.Usable) (ha : cfg.AsciiNumbers) (packets : List (Datagram × List Reading))
    (hcar : ∀ p ∈ packets, Statsd.Carries cfg p.1 p.2) (hc : ∀ p ∈ packets, ∀ r ∈ p.2, r.name = n → r.ty = .counter)
    (hsrc : pointsIn (sourceSent p ls i t) = (handleDatagrams cfg (packets.map Prod.fst) []).1)
    (ext : Wavefront.Ext F) (interval : Nat) (clock : Nat → Int) (os : Nat → List Wavefront.Io) (w : Int) (hw : w ≠ 0)
    (ps : List (Str × F)) (age : Option Nat) (connected : Bool) (pc : Wavefront.PadControl) (tags : TagMap)
    (hage : ∀ a, age = some a → a < 2 ^ 63)
    (hsep : Separates ext.nameTagHash (pointsIn (((run p ls t).log k).map (·.2))))
    (hyoung : ∀ v ∈ pointsIn (sourceSent p ls i t), v.name = n → ∀ j, youngEnough age (clock j, v) = true)
    (hsink : p.sink k = ⟨_, wavefrontImpl ext interval clock os, some { state := Wavefront.State.init w ps age connected pc tags }⟩) :
    ∃ m r, (run p ls t).nodes k = some (.sink ⟨_, wavefrontImpl ext interval clock os, some { state := Wavefront.State.init w ps age connected pc tags }⟩ m r) ∧
      ∀ h, r.state = some h → ∃ shown : List (List (Telemetry F)), h.log.length = shown.length ∧
        (∀ (i : Nat) pts, shown[i]? = some pts → ∃ W text, h.log[i]? = some (W ++ [.complete text]) ∧
          (∀ e ∈ W, ∃ n, e = .part (text.take n) ∨ e = .delay n) ∧
          ∀ vals, Wavefront.Ordered ext vals → (∀ t ∈ pts, ∀ x, Wavefront.printed ps t x → vals x) →
            text = (pts.map (Wavefront.pointText ext ps tags)).flatten) ∧
        (∀ p ∈ shown.flatten, p.name = n → p.kind = .sum) ∧
        totalNamed n shown.flatten = totalReported cfg n (packets.flatMap Prod.snd) := by
  obtain ⟨sent, s1, s2, s3⟩ := C112_source cfg hu ha n packets hcar hc
  replace hsrc : pointsIn (sourceSent p ls i t) = sent := by rw [hsrc, s1]
  rw [← s3, ← hsrc]
  exact C125_wavefront_points c hd p hp ls T t hT h k hfun hk hroom i s chans hs hf hq n hother (by rw [hsrc]; exact s2) ext interval clock os w hw ps age connected pc tags hage hsep hyoung hsink

/-- **C125 (InfluxDB, any source).**  The same for the InfluxDB sink. -/
theorem C125_influxdb_points [LawfulAdd F] (c : Config) (hd : Distinct c) (p : Setup F) (hp : SetUp c p) (ls : Nat → Label F) (T t : Nat)
    (hT : ∀ t' < T, ls t' ≠ .signal) (h : (run p ls t).main = .exited) (k : Str) (hfun : Funnel c k [] k) (hk : k ∈ c.sinks)
    (hroom : (run p ls t).lost k = []) (i : Nat) (s : Str) (chans : List Str) (hs : p.wiring.sources[i]? = some (s, chans))
    (hf : Forwards c s k) (hq : sourceSent p ls i t = sourceSent p ls i T ++ [.shutdown]) (n : Str)
    (hother : ∀ j ≠ i, ∀ v, .telemetry v ∈ sourceSent p ls j t → v.name ≠ n)
    (hsum : ∀ v ∈ pointsIn (sourceSent p ls i t), v.name = n → v.kind = .sum ∧ v.persist = false)
    (ext : Wavefront.Ext F) (interval : Nat) (os : Nat → List Influx.Outcome) (tags : TagMap)
    (hsink : p.sink k = ⟨_, influxImpl ext interval os, some { state := Influx.init tags }⟩) :
    ∃ m r, (run p ls t).nodes k = some (.sink ⟨_, influxImpl ext interval os, some { state := Influx.init tags }⟩ m r) ∧
      ∀ h, r.state = some h →
        (∀ b ∈ h.log, ∃ text, Influx.formatStats ext tags b.1 = some text ∧ b.2.getLast? = some (.post text)) ∧
        (∀ p ∈ h.log.flatMap (·.1), p.name = n → p.kind = .sum) ∧
        totalNamed n (h.log.flatMap (·.1)) = totalNamed n (pointsIn (sourceSent p ls i t)) := by
  have key := all_of_name c hd p hp ls T t hT h k hfun hk hroom i s chans hs hf hq n hother (some interval) (by rw [hsink]; intro st; rfl)
  rw [hsink] at key
  obtain ⟨m, r, j, b1, b2, b3, b4⟩ := key
  subst b2
  refine ⟨m, _, b1, fun h hh => ?_⟩
  exact C112_influxdb n _ hsum ext interval os tags m j _ h (by rw [b4]) b3 hh

/-- **C125 (InfluxDB).**  The same for the InfluxDB sink: the values posted under the counter's name, over all flushes, add up to exactly what the clients
reported. -/
theorem C125_influxdb [LawfulAdd F] (c : Config) (hd : Distinct c) (p : Setup F) (hp : SetUp c p) (ls : Nat → Label F) (T t : Nat)
    (hT : ∀ t' < T, ls t' ≠ .signal) (h : (run p ls t).main = .exited) (k : Str) (hfun : Funnel c k [] k) (hk : k ∈ c.sinks)
    (hroom : (run p ls t).lost k = []) (i : Nat) (s : Str) (chans : List Str) (hs : p.wiring.sources[i]? = some (s, chans))
    (hf : Forwards c s k) (hq : sourceSent p ls i t = sourceSent p ls i T ++ [.shutdown]) (n : Str)
    (hother : ∀ j ≠ i, ∀ v, .telemetry v ∈ sourceSent p ls j t → v.name ≠ n)
    (cfg : Statsd.Config F) (hu : cfg.Usable) (ha : cfg.AsciiNumbers) (packets : List (Datagram × List Reading))
    (hcar : ∀ p ∈ packets, Statsd.Carries cfg p.1 p.2) (hc : ∀ p ∈ packets, ∀ r ∈ p.2, r.name = n → r.ty = .counter)
    (hsrc : pointsIn (sourceSent p ls i t) = (handleDatagrams cfg (packets.map Prod.fst) []).1)
    (ext : Wavefront.Ext F) (interval : Nat) (os : Nat → List Influx.Outcome) (tags : TagMap)
    (hsink : p.sink k = ⟨_, influxImpl ext interval os, some { state := Influx.init tags }⟩) :
    ∃ m r, (run p ls t).nodes k = some (.sink ⟨_, influxImpl ext interval os, some { state := Influx.init tags }⟩ m r) ∧
      ∀ h, r.state = some h →
        (∀ b ∈ h.log, ∃ text, Influx.formatStats ext tags b.1 = some text ∧ b.2.getLast? = some (.post text)) ∧
        (∀ p ∈ h.log.flatMap (·.1), p.name = n → p.kind = .sum) ∧
        totalNamed n (h.log.flatMap (·.1)) = totalReported cfg n (packets.flatMap Prod.snd) := by
  obtain ⟨sent, s1, s2, s3⟩ := C112_source cfg hu ha n packets hcar hc
  replace hsrc : pointsIn (sourceSent p ls i t) = sent := by rw [hsrc, s1]
  rw [← s3, ← hsrc]
  exact C125_influxdb_points c hd p hp ls T t hT h k hfun hk hroom i s chans hs hf hq n hother (by rw [hsrc]; exact s2) ext interval os tags hsink

/-! ## An example: two sources and a console -/

private def two : Config := ⟨[['k']], [], [], [(['a'], [['k']]), (['b'], [['k']])]⟩

private def ext : Console.Ext Int := { consoleExt with nameTagHash := fun x : Str × TagMap => (x.1.head?.getD 'a').toNat }

private def twoSetup : Setup Int where
  wiring := ⟨[(['k'], [['a'], ['b']])], [], [(['a'], [['k']]), (['b'], [['k']])], [['k']]⟩
  filter _ := ⟨_, delayProcess, 10⟩
  sink _ := ⟨_, consoleImpl ext 1 (fun _ => 9) (fun _ => (['1'], ['2'])), some { state := Console.init 1 [] }⟩
  stopOrder := [1, 0]
  joinOrder := [['k']]

/-- two packets: a counter beside a gauge, then the counter again, twice -/
private def packets : List (Datagram × List Reading) :=
  [(⟨some "a:2|c\nx:5|g\n".toList, 7⟩, [⟨['a'], ['2'], .counter, none⟩, ⟨['x'], ['5'], .gauge, none⟩]),
   (⟨some "a:3|c\na:4|c".toList, 8⟩, [⟨['a'], ['3'], .counter, none⟩, ⟨['a'], ['4'], .counter, none⟩])]

private def points : List (Label Int) := (handleDatagrams demo (packets.map Prod.fst) []).1.map fun v => .emit 0 (.telemetry v)

/-- The points, a point and a pulse of the timer between them; then the signal; the other source still sends, and is the first to return. -/
private def twoRota : List (Label Int) := points.take 3 ++ [.emit 1 (.telemetry ⟨['b', 'b'], .sum 1, false, none, 8, none, none⟩), .pulse 1] ++ points.drop 3 ++
  [.signal, .main, .main, .emit 1 (.telemetry ⟨['b', 'b'], .sum 2, false, none, 8, none, none⟩), .stop 1, .main, .main, .stop 0, .main, .main,
  .act ['k'] 0, .act ['k'] 0, .act ['k'] 0, .act ['k'] 0, .act ['k'] 0, .act ['k'] 0, .act ['k'] 0, .act ['k'] 0, .act ['k'] 0, .act ['k'] 0,
  .act ['k'] 0, .act ['k'] 0, .act ['k'] 0, .act ['k'] 0, .act ['k'] 0, .act ['k'] 0, .act ['k'] 0, .act ['k'] 0, .act ['k'] 0, .act ['k'] 0, .main, .main, .main, .main]

private def twoLabels (t : Nat) : Label Int := twoRota[t]?.getD .main

example : Distinct two ∧ SetUp two twoSetup ∧ (∀ t' < 6, twoLabels t' ≠ .signal) ∧ (run twoSetup twoLabels 45).main = .exited ∧ Funnel two ['k'] [] ['k'] ∧
    ['k'] ∈ two.sinks ∧ (run twoSetup twoLabels 45).lost ['k'] = [] ∧ twoSetup.wiring.sources[0]? = some (['a'], [['k']]) ∧ Forwards two ['a'] ['k'] ∧
    sourceSent twoSetup twoLabels 0 45 = sourceSent twoSetup twoLabels 0 6 ++ [.shutdown] ∧
    pointsIn (sourceSent twoSetup twoLabels 1 45) = [⟨['b', 'b'], .sum 1, false, none, 8, none, none⟩, ⟨['b', 'b'], .sum 2, false, none, 8, none, none⟩] ∧
    (∀ p ∈ packets, Statsd.Carries demo p.1 p.2) ∧ (∀ p ∈ packets, ∀ r ∈ p.2, r.name = ['a'] → r.ty = .counter) ∧
    pointsIn (sourceSent twoSetup twoLabels 0 45) = (handleDatagrams demo (packets.map Prod.fst) []).1 ∧
    Separates ext.nameTagHash (pointsIn (((run twoSetup twoLabels 45).log ['k']).map (·.2))) ∧
    totalReported demo ['a'] (packets.flatMap Prod.snd) = 9 := by
  refine ⟨by decide, ⟨rfl, by decide, by decide, ?_⟩, fun t' ht' => ?_, by decide +kernel, ?_, by decide, by decide +kernel, rfl, ⟨[['k']], by decide, by decide⟩,
    by decide +kernel, by decide +kernel, ?_, by decide, by decide +kernel, by unfold Separates; decide +kernel, by decide +kernel⟩
  · intro n hn; exact absurd hn (by simp [two])
  · have : t' = 0 ∨ t' = 1 ∨ t' = 2 ∨ t' = 3 ∨ t' = 4 ∨ t' = 5 := by omega
    rcases this with rfl | rfl | rfl | rfl | rfl | rfl <;> intro h <;> cases h
  · refine .sources (.inl (by decide)) ?_
    rintro u ⟨fs, h1, h2⟩
    simp only [two, List.nil_append, List.mem_cons, Prod.mk.injEq, List.not_mem_nil, or_false] at h1
    rcases h1 with ⟨rfl, rfl⟩ | ⟨rfl, rfl⟩ <;> decide
  · intro p hp
    simp only [packets, List.mem_cons, List.not_mem_nil, or_false] at hp
    rcases hp with rfl | rfl
    · refine ⟨by simp, ?_, _, rfl, by decide⟩
      intro r hr
      simp only [List.mem_cons, List.not_mem_nil, or_false] at hr
      rcases hr with rfl | rfl <;> exact ⟨by decide, by decide, by decide, by decide, by simp⟩
    · refine ⟨by simp, ?_, _, rfl, by decide⟩
      intro r hr
      simp only [List.mem_cons, List.not_mem_nil, or_false] at hr
      rcases hr with rfl | rfl <;> exact ⟨by decide, by decide, by decide, by decide, by simp⟩

end Verif
