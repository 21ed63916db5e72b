import Verif.Lemmas.Counters
import Verif.Lemmas.Wire
import Verif.Lemmas.Native
import Verif.Props.Avro
/-!
# C100, sources: what is reported about the components is what happened
-/
namespace Verif
open Internal Counters
variable {F : Type} [F64 F]

private theorem statsd_full (cfg : Statsd.Config F) (now : Int) : ∀ (ls : List Str)
    (r r' : List (Telemetry F)), r ≠ [] → r' ≠ [] →
    (Statsd.parseLines cfg now ls r).1 = (Statsd.parseLines cfg now ls r').1 := by
  intro ls
  induction ls with
  | nil => intro r r' h h'; simp [Statsd.parseLines, h, h']
  | cons l ls ih =>
    intro r r' h h'
    simp only [Statsd.parseLines]
    split
    · rfl
    · rfl
    · exact ih _ _ (by simp) (by simp)

/-- With at least one line, what is left over from an earlier packet does not change the verdict. -/
private theorem statsd_alone (cfg : Statsd.Config F) (now : Int) (val : Str) (hv : val ≠ [])
    (r : List (Telemetry F)) :
    (Statsd.parseStatsd cfg now val r).1 = (Statsd.parseStatsd cfg now val []).1 := by
  have hl : Statsd.lines val ≠ [] := by
    cases val with
    | nil => exact absurd rfl hv
    | cons c cs =>
      simp only [Statsd.lines, Statsd.splitTerminator, ne_eq, List.map_eq_nil_iff]
      split
      · simp
      · split <;> simp
  simp only [Statsd.parseStatsd]
  cases h : Statsd.lines val with
  | nil => exact absurd h hl
  | cons l ls =>
    simp only [Statsd.parseLines]
    split
    · rfl
    · rfl
    · exact statsd_full cfg now ls _ _ (by simp) (by simp)

private theorem statsd_adds (cfg : Statsd.Config F) : ∀ (ds : List Statsd.Datagram) (ms : List (Telemetry F)),
    (Statsd.handleDatagrams cfg ds ms).2 = true → (∀ d ∈ ds, d.text ≠ some []) →
    addedTo "STATSD_GOOD_PACKET" (statsdAdds cfg ds ms) = ds.countP (packetIs cfg .accepted) ∧
    addedTo "STATSD_BAD_PACKET" (statsdAdds cfg ds ms) = ds.countP (packetIs cfg .rejected) := by
  intro ds
  induction ds with
  | nil => intro ms _ _; exact ⟨rfl, rfl⟩
  | cons d ds ih =>
    intro ms h hne
    have hds : ∀ d ∈ ds, d.text ≠ some [] := fun d hd => hne d (List.mem_cons_of_mem _ hd)
    simp only [Statsd.handleDatagrams] at h
    simp only [statsdAdds, List.countP_cons]
    cases ht : d.text with
    | none =>
      simp only [ht] at h
      simpa [packetIs, ht] using ih ms h hds
    | some val =>
      have hv : val ≠ [] := fun e => hne d (List.mem_cons_self ..) (by rw [ht, e])
      have ha := statsd_alone cfg d.now val hv ms
      simp only [ht] at h
      rcases hp : Statsd.parseStatsd cfg d.now val ms with ⟨v, ms'⟩
      rw [hp] at ha
      simp only [hp] at h
      cases v with
      | accepted =>
        obtain ⟨i1, i2⟩ := ih [] h hds
        simp [addedTo_cons, packetIs, ht, hp, ← ha, i1, i2, Nat.add_comm]
      | rejected =>
        obtain ⟨i1, i2⟩ := ih ms' h hds
        simp [addedTo_cons, packetIs, ht, hp, ← ha, i1, i2, Nat.add_comm]
      | panicked => simp at h

/-- **C100, statsd.**  The datagrams that parse are counted as packets and those that do not as bad packets,
once each.  Missing: datagrams that are not UTF-8 (`C100_statsd_utf8_false`) and empty ones
(`C100_statsd_empty_false`). -/
theorem C100_statsd_partial (cfg : Statsd.Config F) (ds : List Statsd.Datagram)
    (h : (Statsd.handleDatagrams cfg ds []).2 = true) (hne : ∀ d ∈ ds, d.text ≠ some []) :
    under "cernan.statsd.packet" (statsdAdds cfg ds []) = ds.countP (packetIs cfg .accepted) ∧
    under "cernan.statsd.bad_packet" (statsdAdds cfg ds []) = ds.countP (packetIs cfg .rejected) := by
  rw [under_at 5 "STATSD_GOOD_PACKET" rfl, under_at 6 "STATSD_BAD_PACKET" rfl]
  exact statsd_adds cfg ds [] h hne

/-- Two packets that parse around one that does not. -/
example :
    let cfg : Statsd.Config Int := ⟨[], 0, fun s => if s = ['1'] then some 1 else none⟩
    let ds : List Statsd.Datagram := [⟨some "a:1|c".toList, 0⟩, ⟨some "a:1|c\nb".toList, 0⟩, ⟨some "c:1|g".toList, 0⟩]
    (Statsd.handleDatagrams cfg ds []).2 = true ∧ (∀ d ∈ ds, d.text ≠ some []) ∧
    ds.countP (packetIs cfg .accepted) = 2 ∧ ds.countP (packetIs cfg .rejected) = 1 := by decide +kernel

/-- C100 does not hold of datagrams that are not UTF-8: they are counted under no name. -/
theorem C100_statsd_utf8_false (cfg : Statsd.Config F) (now : Int) (n : Nat) (name : String) :
    under name (statsdAdds cfg (List.replicate n ⟨none, now⟩) []) = 0 := by
  have : statsdAdds cfg (List.replicate n ⟨none, now⟩) [] = [] := by
    induction n with
    | zero => rfl
    | succ n ih => simpa [List.replicate_succ, statsdAdds] using ih
  rw [this]
  exact under_nil name

/-- C100 does not hold of empty datagrams: one is a bad packet on its own, but a good one after a packet
whose second line was bad. -/
theorem C100_statsd_empty_false :
    ∃ (cfg : Statsd.Config Int) (a : Str), (Statsd.parseStatsd cfg 0 a []).1 = .rejected ∧
      (Statsd.parseStatsd cfg 0 [] []).1 = .rejected ∧
      (Statsd.handleDatagrams cfg [⟨some a, 0⟩, ⟨some [], 0⟩] []).2 = true ∧
      under "cernan.statsd.packet" (statsdAdds cfg [⟨some a, 0⟩, ⟨some [], 0⟩] []) = 1 := by
  refine ⟨⟨[], 0, fun s => if s = ['1'] then some 1 else none⟩, "a:1|c\nb".toList, ?_, ?_, ?_, ?_⟩ <;> decide +kernel

private theorem graphite_full (ext : Graphite.Ext F) (now : Int) : ∀ (n : Nat) (ws : List Str), ws.length ≤ n →
    ∀ (r r' : List (Telemetry F)), r ≠ [] → r' ≠ [] →
    (Graphite.parseWords ext now ws r).1 = (Graphite.parseWords ext now ws r').1 := by
  intro n
  induction n with
  | zero =>
    intro ws hw r r' h h'
    have : ws = [] := List.length_eq_zero_iff.1 (by omega)
    subst this
    simp [Graphite.parseWords, h, h']
  | succ n ih =>
    intro ws hw r r' h h'
    match ws, hw with
    | [], _ => simp [Graphite.parseWords, h, h']
    | [a], _ => simp [Graphite.parseWords]
    | [a, b], _ => simp [Graphite.parseWords]
    | a :: b :: c :: ws, hw =>
      simp only [Graphite.parseWords]
      split
      · rfl
      · split
        · rfl
        · split
          · exact ih ws (by simp at hw; omega) _ _ (by simp) (by simp)
          · rfl

private theorem graphite_alone (ext : Graphite.Ext F) (now : Int) (l : Str)
    (hl : Graphite.splitWhitespace ext.isSpace l ≠ []) (r : List (Telemetry F)) :
    (Graphite.parseGraphite ext now l r).1 = (Graphite.parseGraphite ext now l []).1 := by
  simp only [Graphite.parseGraphite]
  generalize Graphite.splitWhitespace ext.isSpace l = ws at hl
  match ws, hl with
  | [], hl => exact absurd rfl hl
  | [a], _ => simp [Graphite.parseWords]
  | [a, b], _ => simp [Graphite.parseWords]
  | a :: b :: c :: ws, _ =>
    simp only [Graphite.parseWords]
    split
    · rfl
    · split
      · rfl
      · split
        · exact graphite_full ext now _ ws (Nat.le_refl _) _ _ (by simp) (by simp)
        · rfl

private theorem graphite_adds (ext : Graphite.Ext F) (now : Int) : ∀ (ls : List Str) (res : List (Telemetry F)),
    (Graphite.handleLines ext now ls res).isSome → (∀ l ∈ ls, Graphite.splitWhitespace ext.isSpace l ≠ []) →
    addedTo "GRAPHITE_GOOD_PACKET" (graphiteAdds ext now ls res) = ls.countP (lineIs ext now .accepted) ∧
    addedTo "GRAPHITE_TELEM" (graphiteAdds ext now ls res) = ls.countP (lineIs ext now .accepted) ∧
    addedTo "GRAPHITE_BAD_PACKET" (graphiteAdds ext now ls res) = ls.countP (lineIs ext now .rejected) := by
  intro ls
  induction ls with
  | nil => intro ms _ _; exact ⟨rfl, rfl, rfl⟩
  | cons l ls ih =>
    intro res h hne
    have hls : ∀ l ∈ ls, Graphite.splitWhitespace ext.isSpace l ≠ [] := fun d hd => hne d (List.mem_cons_of_mem _ hd)
    simp only [Graphite.handleLines] at h
    simp only [graphiteAdds, List.countP_cons]
    have ha := graphite_alone ext now l (hne l (List.mem_cons_self ..)) res
    rcases hp : Graphite.parseGraphite ext now l res with ⟨v, ms'⟩
    rw [hp] at ha
    simp only [hp] at h
    cases v with
    | accepted =>
      obtain ⟨i1, i2, i3⟩ := ih [] (by simpa using h) hls
      simp [addedTo_cons, lineIs, hp, ← ha, i1, i2, i3, Nat.add_comm]
    | rejected =>
      obtain ⟨i1, i2, i3⟩ := ih ms' h hls
      simp [addedTo_cons, lineIs, hp, ← ha, i1, i2, i3, Nat.add_comm]
    | panicked => simp at h

/-- **C100, graphite.**  The lines that parse are counted as packets and those that do not as bad packets, once
each.  Missing: blank lines, the points received (`C100_graphite_telemetry_false`) and the peers
(`C100_never_false`). -/
theorem C100_graphite_partial (ext : Graphite.Ext F) (now : Int) (ls : List Str)
    (h : (Graphite.handleLines ext now ls []).isSome)
    (hne : ∀ l ∈ ls, Graphite.splitWhitespace ext.isSpace l ≠ []) :
    under "cernan.graphite.packet" (graphiteAdds ext now ls []) = ls.countP (lineIs ext now .accepted) ∧
    under "cernan.graphite.bad_packet" (graphiteAdds ext now ls []) = ls.countP (lineIs ext now .rejected) := by
  rw [under_at 2 "GRAPHITE_GOOD_PACKET" rfl, under_at 4 "GRAPHITE_BAD_PACKET" rfl]
  obtain ⟨h1, _, h3⟩ := graphite_adds ext now ls [] h hne
  exact ⟨h1, h3⟩

/-- Two lines that parse and one that does not. -/
example :
    let ext : Graphite.Ext Int := ⟨fun s => if s = ['1'] then some 1 else none, fun _ => some 1, fun c => c = ' '⟩
    let ls := ["a 1 1".toList, "a b 1".toList, "c 1 1 d 1 1".toList]
    (Graphite.handleLines ext 0 ls []).isSome ∧ (∀ l ∈ ls, Graphite.splitWhitespace ext.isSpace l ≠ []) ∧
    ls.countP (lineIs ext 0 .accepted) = 2 ∧ ls.countP (lineIs ext 0 .rejected) = 1 := by decide +kernel

/-- C100 does not hold of `cernan.graphite.telemetry.received`: it counts lines, not points. -/
theorem C100_graphite_telemetry_false :
    ∃ (ext : Graphite.Ext Int) (l : Str),
      (Graphite.handleLines ext 0 [l] []).map (fun r => r.1.map (·.name)) = some ["a".toList, "b".toList] ∧
      under "cernan.graphite.telemetry.received" (graphiteAdds ext 0 [l] []) = 1 := by
  refine ⟨⟨fun _ => some 1, fun _ => some 1, fun c => c = ' '⟩, "a 1 1 b 1 1".toList, ?_, ?_⟩ <;> decide +kernel

private theorem native_adds (bits : Native.Bits F) (now : Int) (fuel : Nat) : ∀ (r : Wire.Reader) (ps : List Bytes),
    r.drain fuel = (ps, .eof) → (∀ p ∈ ps, Native.handlePayload bits now p ≠ .panic) →
    addedTo "NATIVE_PAYLOAD_SUCCESS_SUM" (nativeAdds bits now fuel r) = (ps.takeWhile isPayload).length ∧
    addedTo "NATIVE_PAYLOAD_PARSE_FAILURE_SUM" (nativeAdds bits now fuel r) = if ps.all isPayload then 0 else 1 := by
  induction fuel with
  | zero => intro r ps h; simp [Wire.Reader.drain] at h
  | succ fuel ih =>
    intro r ps h he
    simp only [Wire.Reader.drain] at h
    simp only [nativeAdds]
    rcases hr : r.read with ⟨res, r'⟩
    rw [hr] at h
    cases res with
    | ok p =>
      simp only [] at h ⊢
      rcases hd : Wire.Reader.drain fuel r' with ⟨ps', e⟩
      rw [hd] at h
      simp only [Prod.mk.injEq] at h
      obtain ⟨rfl, rfl⟩ := h
      obtain ⟨i1, i2⟩ := ih r' ps' hd fun q hq => he q (List.mem_cons_of_mem _ hq)
      cases hp : Proto.Payload.parse p with
      | none =>
        have : Native.handlePayload bits now p = .reject := by simp only [Native.handlePayload, hp]
        have hb : isPayload p = false := by simp [isPayload, hp]
        simp [this, addedTo, hb]
      | some q =>
        have hb : isPayload p = true := by simp [isPayload, hp]
        cases hq : Native.handlePayload bits now p with
        | panic => exact absurd hq (he p (List.mem_cons_self ..))
        | reject =>
          simp only [Native.handlePayload, hp] at hq
          split at hq <;> cases hq
        | events es =>
          simp only [addedTo_cons, i1, i2]
          simp [hb, Nat.add_comm]
    | error e =>
      cases e with
      | wouldBlock => exact ih r' ps h he
      | eof =>
        simp only [Prod.mk.injEq] at h
        obtain ⟨rfl, -⟩ := h
        simp [addedTo]
      | io => simp at h
      | protocol => simp at h
      | lengthTooLarge => simp at h

/-- **C100, native source.**  Of the payloads a peer sends, however they are cut up, those before the first that
is not a payload are counted as successes, and that one, which ends the connection, as a failure.  Missing:
connections that end for another reason (`C100_native_lost_false`). -/
theorem C100_native_partial (bits : Native.Bits F) (now : Int) (ps : List Bytes) (net : List Wire.NetItem)
    (hp : ∀ p ∈ ps, p ≠ [] ∧ p.length ≤ Native.maxPayload)
    (hn : Wire.NonEmptyReads net) (hs : Wire.Framed ps (Wire.symsOf net))
    (hk : ∀ p ∈ ps, Native.handlePayload bits now p ≠ .panic) (fuel : Nat)
    (hf : (Wire.symsOf net).length < fuel) :
    let xs := nativeAdds bits now fuel { maxPayloadSize := Native.maxPayload, buffer := { stream := net } }
    under "cernan.native.payload.success" xs = (ps.takeWhile isPayload).length ∧
    under "cernan.native.payload.parse.failure" xs = if ps.all isPayload then 0 else 1 := by
  intro xs
  rw [under_at 7 "NATIVE_PAYLOAD_SUCCESS_SUM" rfl, under_at 8 "NATIVE_PAYLOAD_PARSE_FAILURE_SUM" rfl]
  exact native_adds bits now fuel _ ps ((Wire.drain_ok fuel).1 _ ps (Wire.symsOf net)
    ⟨rfl, rfl, rfl, by simp [Wire.BufReader.syms], hn⟩ hs
    (fun p hpm => ⟨(hp p hpm).1, (hp p hpm).2, by
      have := (hp p hpm).2; simp only [Native.maxPayload] at this; omega⟩) hf) hk

/-- A payload, and bytes that are none; then another payload that is not reached. -/
example : ∃ net : List Wire.NetItem,
    Wire.NonEmptyReads net ∧ Wire.Framed [[18, 0], [255], [18, 0]] (Wire.symsOf net) ∧
    ([[18, 0], [255], [18, 0]] : List Bytes).map isPayload = [true, false, true] := by
  refine ⟨[.data [0, 0, 0, 2, 18], .data [0], .data [0, 0, 0, 1, 255, 0, 0, 0, 2, 18, 0]], ?_, ?_, ?_⟩
  · intro bs hb
    simp at hb
    rcases hb with rfl | rfl | rfl <;> simp
  · refine .frame [18, 0] [.byte 18, .byte 0] rfl (by simp) ?_
    refine .frame [255] [.byte 255] rfl (by simp) ?_
    exact .frame [18, 0] [.byte 18, .byte 0] rfl (by simp) .done
  · decide +kernel

/-- C100 does not hold of a payload announced too large: the connection is lost and nothing is counted. -/
theorem C100_native_lost_false (bits : Native.Bits F) (now : Int) (fuel : Nat) (name : String) :
    let r : Wire.Reader := { maxPayloadSize := Native.maxPayload, buffer := { stream := [.data [255, 255, 255, 255]] } }
    Native.serve bits now (fuel + 1) r = ([], .closed .lengthTooLarge) ∧
    under name (nativeAdds bits now (fuel + 1) r) = 0 := by
  intro r
  have hr : r.read.1 = .error .lengthTooLarge := by decide +kernel
  rcases h : r.read with ⟨x, r'⟩
  rw [h] at hr
  subst hr
  refine ⟨by simp only [Native.serve, h], ?_⟩
  simp only [nativeAdds, h]
  exact under_nil name

/-- **C100, Avro.**  The frames before the one that ends a connection are counted as successes, an invalid frame
as a parse failure and a failed read as a read failure; the end of the stream and the shutdown are not counted. -/
theorem C100_avro (avroOk : Bytes → Bool) (cid : Nat) (fs : List Avro.Frame) (items post : List Avro.Item)
    (stop : Avro.Item) (hi : Avro.quiet items = Avro.readsOf fs ++ stop :: post)
    (hf : ∀ f ∈ fs, f.Fits ∧ avroOk f.body = true)
    (hstop : stop = .system ∨ (∃ e, e ≠ .wouldBlock ∧ stop = .read (.error e)) ∨
      (∃ g : Avro.Frame, g.Fits ∧ avroOk g.body = false ∧ stop = .read (.ok g.encode))) :
    let xs := avroAdds (Avro.Conn.run avroOk { connectionId := cid } items)
    under "cernan.avro.payload.success" xs = fs.length ∧
    under "cernan.avro.payload.parse.failure" xs = (if stop.isPayload then 1 else 0) ∧
    under "cernan.avro.payload.io.failure" xs = (if stop.isFailure then 1 else 0) := by
  intro xs
  rw [under_at 9 "AVRO_PAYLOAD_SUCCESS_SUM" rfl, under_at 10 "AVRO_PAYLOAD_PARSE_FAILURE_SUM" rfl,
    under_at 11 "AVRO_PAYLOAD_IO_FAILURE_SUM" rfl]
  obtain ⟨-, -, h1, -, h2, h3⟩ := C33_stops_at_invalid avroOk cid fs items post stop hi hf hstop
  simp only [xs, avroAdds, addedTo_cons, addedTo_nil, h1, h2, h3]
  simp

private def Rest (a : String) : Prop :=
  a ≠ "GRAPHITE_NEW_PEER" ∧ a ≠ "ELASTIC_ERROR_UNKNOWN" ∧ a ≠ "WAVEFRONT_AGGR_SET"

private instance (a : String) : Decidable (Rest a) := by unfold Rest; infer_instance

private def Only (xs : Adds) : Prop := ∀ x ∈ xs, Rest x.1

private theorem only_nil : Only [] := by simp [Only]
private theorem only_cons (a : String) (n : Nat) (xs : Adds) (ha : Rest a) (h : Only xs) : Only ((a, n) :: xs) := by
  intro x hx
  rcases List.mem_cons.1 hx with rfl | hx
  · exact ha
  · exact h x hx
private theorem only_append (xs ys : Adds) (h : Only xs) (h' : Only ys) : Only (xs ++ ys) := by
  intro x hx
  rcases List.mem_append.1 hx with hx | hx
  · exact h x hx
  · exact h' x hx
private theorem only_flatMap {α : Type} (f : α → Adds) (l : List α) (h : ∀ a, Only (f a)) : Only (l.flatMap f) := by
  intro x hx
  obtain ⟨a, _, hx⟩ := List.mem_flatMap.1 hx
  exact h a x hx
private theorem only_one (a : String) (n : Nat) (ha : Rest a) : Only [(a, n)] := only_cons _ _ _ ha only_nil

private theorem only_influx : ∀ (os : List Influx.Outcome) (a : Nat), Only (influxAdds a os) := by
  intro os
  induction os with
  | nil => intro a; exact only_nil
  | cons o os ih =>
    intro a
    simp only [influxAdds]
    refine only_cons _ _ _ (by decide) ?_
    split
    · exact only_one _ _ (by decide)
    · exact only_cons _ _ _ (by decide) (ih _)
    · exact only_cons _ _ _ (by decide) (ih _)
    · exact ih _
    · exact ih _

private theorem only_loop : ∀ (os : List Wavefront.Io) (c : Bool), Only (wavefrontLoopAdds os c) := by
  intro os
  induction os with
  | nil => intro a; exact only_nil
  | cons o os ih =>
    intro c
    simp only [wavefrontLoopAdds]
    split
    · split
      · exact only_one _ _ (by decide)
      · exact only_cons _ _ _ (by decide) (ih _)
    · exact only_cons _ _ _ (by decide) (ih _)

private theorem only_statsd (cfg : Statsd.Config F) : ∀ (ds : List Statsd.Datagram) (ms : List (Telemetry F)),
    Only (statsdAdds cfg ds ms) := by
  intro ds
  induction ds with
  | nil => intro ms; exact only_nil
  | cons d ds ih =>
    intro ms
    simp only [statsdAdds]
    split
    · exact ih _
    · split
      · exact only_cons _ _ _ (by decide) (ih _)
      · exact only_cons _ _ _ (by decide) (ih _)
      · exact only_nil

private theorem only_graphite (ext : Graphite.Ext F) (now : Int) : ∀ (ls : List Str) (ms : List (Telemetry F)),
    Only (graphiteAdds ext now ls ms) := by
  intro ds
  induction ds with
  | nil => intro ms; exact only_nil
  | cons d ds ih =>
    intro ms
    simp only [graphiteAdds]
    split
    · exact only_cons _ _ _ (by decide) (only_cons _ _ _ (by decide) (ih _))
    · exact only_cons _ _ _ (by decide) (ih _)
    · exact only_nil

private theorem only_native (bits : Native.Bits F) (now : Int) : ∀ (fuel : Nat) (r : Wire.Reader),
    Only (nativeAdds bits now fuel r) := by
  intro fuel
  induction fuel with
  | zero => intro r; exact only_nil
  | succ fuel ih =>
    intro r
    simp only [nativeAdds]
    split
    · split
      · exact only_nil
      · exact only_one _ _ (by decide)
      · exact only_cons _ _ _ (by decide) (ih _)
    · exact ih _
    · exact only_nil

/-- C100 does not hold of these: no call of any component ever counts under them. -/
theorem C100_never_false (c : Call F) :
    under "cernan.graphite.new_peer" c.adds = 0 ∧
    under "cernan.sinks.elasticsearch.error.unknown" c.adds = 0 ∧
    under "cernan.sinks.wavefront.aggregation.set" c.adds = 0 := by
  rw [under_at 1 "GRAPHITE_NEW_PEER" rfl, under_at 16 "ELASTIC_ERROR_UNKNOWN" rfl, under_at 33 "WAVEFRONT_AGGR_SET" rfl]
  have key : Only c.adds := by
    cases c with
    | delay now tol e =>
      cases e <;> simp only [Call.adds, delayAdds]
      case telemetry => split <;> exact only_one _ _ (by decide)
      case log => split <;> exact only_one _ _ (by decide)
      all_goals exact only_nil
    | json x s e =>
      cases e <;> simp only [Call.adds, jsonAdds]
      case log =>
        refine only_append _ _ ?_ (only_one _ _ (by decide))
        generalize (if s.parseLine = true then x.parse _ else none) = o
        split
        · exact only_one _ _ (by decide)
        · exact only_nil
      all_goals exact only_nil
    | influx a os => exact only_influx os a
    | wavefront ext s pts script =>
      refine only_append _ _ (only_flatMap _ _ ?_) (only_loop _ _)
      intro p
      cases p with
      | zero => exact only_nil
      | telem t =>
        simp only [padAdds]
        split
        · exact only_one _ _ (by decide)
        · exact only_one _ _ (by decide)
        · exact only_one _ _ (by decide)
        · exact only_cons _ _ _ (by decide) (only_one _ _ (by decide))
    | valve s =>
      simp only [Call.adds, wavefrontValveAdds]
      split <;> exact only_one _ _ (by decide)
    | elastic a =>
      cases a with
      | sendError => exact only_nil
      | client => exact only_one _ _ (by decide)
      | api e => cases e <;> exact only_one _ _ (by decide)
      | bulk items =>
        refine only_cons _ _ _ (by decide) (only_flatMap _ _ ?_)
        rintro ⟨⟨ok, id⟩, act⟩
        cases ok
        · cases act <;> exact only_cons _ _ _ (by decide) (only_one _ _ (by simp only; decide))
        · exact only_one _ _ (by decide)
    | statsd cfg ds => exact only_statsd cfg ds []
    | graphite ext now ls => exact only_graphite ext now ls []
    | native bits now fuel r => exact only_native bits now fuel r
    | avro c =>
      exact only_cons _ _ _ (by decide) (only_cons _ _ _ (by decide) (only_one _ _ (by decide)))
    | kafka k =>
      exact only_cons _ _ _ (by decide) (only_cons _ _ _ (by decide) (only_cons _ _ _ (by decide) (only_one _ _ (by decide))))
    | send cs es => exact only_one _ _ (by decide)
    | prometheus a b c d =>
      cases a
      · exact only_nil
      · refine only_cons _ _ _ (by decide) ?_
        cases c
        · exact only_nil
        · cases d <;> exact only_one _ _ (by decide)
  exact ⟨addedTo_none _ _ fun x hx => (key x hx).1, addedTo_none _ _ fun x hx => (key x hx).2.1,
    addedTo_none _ _ fun x hx => (key x hx).2.2⟩

end Verif
