import Verif.Lemmas.Totals
import Verif.Props.SinkImpls
import Verif.Props.Statsd
/-!
# C86 and C112: what the console prints, and counters from a statsd packet to the console
-/
namespace Verif
section
variable {F : Type} [F64 F]

/-- The console between calls. -/
private structure ConBetween (ext : Console.Ext F) (clock : Nat → Int) (stamps : Nat → Str × Str) (w : Int) (tags : TagMap)
    (hist : List (BucketOp F)) (flushed : List (List (Telemetry F))) (h : Hosted (Console.State F) (List LogLine × Str))
    (d : List (Event F)) : Prop where
  tags_eq : h.state.tags = tags
  points : addedPoints hist = pointsIn d
  lines : h.log.flatMap (·.1) ++ h.state.buffer = linesIn d
  times : opTimes hist = (List.range h.calls).map clock
  store : runBucket ext.nameTagHash (Buckets.new w) hist = some h.state.aggrs
  snaps : flushSnaps ext.nameTagHash (Buckets.new w) hist = some flushed
  len : h.log.length = flushed.length
  texts : ∀ (i : Nat) pts, flushed[i]? = some pts → ∃ k ls text, h.log[i]? = some (ls, text) ∧
    IsConsoleText ext tags (stamps k) ls pts text

private theorem con_flush (ext : Console.Ext F) (interval : Nat) (clock : Nat → Int) (stamps : Nat → Str × Str) (w : Int)
    (tags : TagMap) (hist : List (BucketOp F)) (flushed : List (List (Telemetry F)))
    (g h : Hosted (Console.State F) (List LogLine × Str)) (d : List (Event F))
    (hb : ConBetween ext clock stamps w tags hist flushed g d)
    (he : (consoleImpl ext interval clock stamps).flush (some g) = some h) :
    ∃ pts, ConBetween ext clock stamps w tags (hist ++ [.reset (clock g.calls)]) (flushed ++ [pts]) h d ∧ h.state.buffer = [] := by
  simp only [consoleImpl, Option.bind_some, Option.map_eq_some_iff] at he
  obtain ⟨⟨s', text⟩, h1, rfl⟩ := he
  simp only [Console.flush] at h1
  split at h1
  · rename_i lines pts hl hi
    simp only [Option.some.injEq, Prod.mk.injEq] at h1
    obtain ⟨rfl, h1⟩ := h1
    refine ⟨pts, ⟨hb.tags_eq, ?_, ?_, ?_, ?_, ?_, by simp [hb.len], ?_⟩, rfl⟩
    · rw [addedPoints_append, hb.points]; simp [addedPoints]
    · simp only [List.flatMap_append, List.flatMap_cons, List.flatMap_nil, List.append_nil]
      exact hb.lines
    · rw [opTimes_append, hb.times, List.range_succ, List.map_append]; rfl
    · rw [runBucket_append', hb.store]; rfl
    · exact flushSnaps_append _ _ _ _ _ _ [pts] hb.snaps hb.store (by simp [flushSnaps, hi])
    · intro i p hp
      by_cases hlt : i < flushed.length
      · rw [List.getElem?_append_left hlt] at hp
        obtain ⟨k, ls, t, e1, e2⟩ := hb.texts i p hp
        refine ⟨k, ls, t, ?_, e2⟩
        rw [List.getElem?_append_left (by rw [hb.len]; exact hlt)]
        exact e1
      · have hie : i = flushed.length := by
          have := (List.getElem?_eq_some_iff.1 hp).1
          simp at this; omega
        subst hie
        simp only [List.getElem?_concat_length, Option.some.injEq] at hp
        subst hp
        refine ⟨g.calls, g.state.buffer, text, by simp [← hb.len], ?_⟩
        rw [hb.tags_eq] at hl
        obtain ⟨parts, q1, q2⟩ := printLines_each ext tags _ _ hl
        refine ⟨parts, q1, ?_⟩
        rw [← h1, collect_fold, ← q2]
        simp only [List.nil_append]
  · simp at h1

/-- **C86, console.**  When the sink has returned, its store has taken in exactly the points that arrived before the first `Shutdown`, in
their order and each at the next reading of the clock, with one reset at each flush; the lines of the flushes are exactly those that
arrived; and each flush printed its lines and everything the store held just before its reset, nothing else. -/
theorem C86_console_texts (ext : Console.Ext F) (interval : Nat) (clock : Nat → Int)
    (stamps : Nat → Str × Str) (w : Int) (tags : TagMap)
    (sources n : Nat) (recv : List (Option (Event F))) (h)
    (hret : (SinkRun.steps (consoleImpl ext interval clock stamps) sources n
      { state := some { state := Console.init w tags }, queue := recv }).returned = true)
    (hs : (SinkRun.steps (consoleImpl ext interval clock stamps) sources n
      { state := some { state := Console.init w tags }, queue := recv }).state = some h) :
    ∃ hist now flushed, addedPoints (hist ++ [.reset now]) = pointsIn (untilShutdown (arrivals recv)) ∧
      h.log.flatMap (·.1) = linesIn (untilShutdown (arrivals recv)) ∧
      opTimes (hist ++ [.reset now]) = (List.range h.calls).map clock ∧
      flushSnaps ext.nameTagHash (Buckets.new w) (hist ++ [.reset now]) = some flushed ∧
      h.log.length = flushed.length ∧
      ∀ (i : Nat) pts, flushed[i]? = some pts → ∃ k ls text, h.log[i]? = some (ls, text) ∧
        IsConsoleText ext tags (stamps k) ls pts text := by
  have hind := SinkRun.induction (consoleImpl ext interval clock stamps)
    (fun s d => ∀ h, s = some h → ∃ hist flushed, ConBetween ext clock stamps w tags hist flushed h d)
    (fun s d => ∀ h, s = some h → ∃ hist now flushed, ConBetween ext clock stamps w tags (hist ++ [.reset now]) flushed h d ∧
      h.state.buffer = [])
    ?_ ?_ ?_ ?_ ?_ sources n (some { state := Console.init w tags }) ?_ recv
  · obtain ⟨hist, now, flushed, hb, hbuf⟩ := hind.2 hret h hs
    have hd := delivered_at_return (consoleImpl ext interval clock stamps) (some interval) (fun _ => rfl) sources n _ recv hret
    refine ⟨hist, now, flushed, ?_, ?_, hb.times, hb.snaps, hb.len, hb.texts⟩
    · rw [hb.points, hd, pointsIn_payload]
    · have := hb.lines
      rw [hbuf, List.append_nil, hd, linesIn_payload] at this
      exact this
  · intro s d t hP _ h he
    simp only [consoleImpl, Option.bind_eq_some_iff, Option.map_eq_some_iff, Console.deliver] at he
    obtain ⟨g, rfl, s', ⟨a, ha, rfl⟩, rfl⟩ := he
    obtain ⟨hist, flushed, hb⟩ := hP g rfl
    refine ⟨hist ++ [.add (clock g.calls) t], flushed, hb.tags_eq, ?_, ?_, ?_, ?_, ?_, hb.len, hb.texts⟩
    · rw [addedPoints_append, hb.points]; simp [addedPoints, pointsIn, List.filterMap_append]
    · have := hb.lines
      simp only [linesIn] at this ⊢; rw [List.filterMap_append, this]; simp
    · rw [opTimes_append, hb.times, List.range_succ, List.map_append]; rfl
    · rw [runBucket_append', hb.store]; simp [runBucket, ha]
    · have := flushSnaps_append ext.nameTagHash [.add (clock g.calls) t] _ _ _ _ [] hb.snaps hb.store
        (by simp [flushSnaps, ha])
      simpa using this
  · intro s d t hP _ h he
    simp only [consoleImpl, Option.map_eq_some_iff] at he
    obtain ⟨g, rfl, rfl⟩ := he
    obtain ⟨hist, flushed, hb⟩ := hP g rfl
    refine ⟨hist, flushed, hb.tags_eq, ?_, ?_, hb.times, hb.store, hb.snaps, hb.len, hb.texts⟩
    · rw [hb.points]; simp [pointsIn, List.filterMap_append]
    · have := hb.lines
      simp only [linesIn] at this ⊢
      rw [List.filterMap_append, ← this]
      simp [Console.deliverLine]
  · intro s d t hP _ h he
    obtain ⟨hist, flushed, hb⟩ := hP h he
    refine ⟨hist, flushed, hb.tags_eq, ?_, ?_, hb.times, hb.store, hb.snaps, hb.len, hb.texts⟩
    · rw [hb.points]; simp [pointsIn, List.filterMap_append]
    · have := hb.lines
      simp only [linesIn] at this ⊢; rw [List.filterMap_append, this]; simp
  · intro s d hP h he
    cases s with
    | none => simp [consoleImpl] at he
    | some g =>
      obtain ⟨hist, flushed, hb⟩ := hP g rfl
      obtain ⟨pts, hb', _⟩ := con_flush ext interval clock stamps w tags hist flushed g h d hb he
      exact ⟨_, _, hb'⟩
  · intro s d hP _ h he
    cases s with
    | none => simp [consoleImpl] at he
    | some g =>
      obtain ⟨hist, flushed, hb⟩ := hP g rfl
      obtain ⟨pts, hb', e⟩ := con_flush ext interval clock stamps w tags hist flushed g h d hb he
      exact ⟨_, _, _, hb', e⟩
  · intro h he
    simp only [Option.some.injEq] at he
    subst he
    exact ⟨[], [], rfl, rfl, rfl, rfl, rfl, rfl, rfl, by simp⟩

/-! ## C112 -/

/-- **C112** (the store) For every history of additions and resets whose series the hash distinguishes, whatever else is in it: if the
points of a name are all counters, what the flushes show under that name and what the store still holds of it add up to exactly what was
added under it. -/
theorem C112_store_by_name [LawfulAdd F] (hash : Str × TagMap → Nat) (w : Int) (hw : w ≠ 0) (ops : List (BucketOp F))
    (hsep : Separates hash (addedPoints ops)) (n : Str)
    (hc : ∀ v ∈ addedPoints ops, v.name = n → v.kind = .sum ∧ v.persist = false) :
    ∃ snaps b left, flushSnaps hash (Buckets.new w) ops = some snaps ∧ runBucket hash (Buckets.new w) ops = some b ∧
      b.iter = some left ∧ (∀ p ∈ snaps.flatten, p.name = n → p.kind = .sum) ∧
      F64.add (totalNamed n snaps.flatten) (totalNamed n left) = totalNamed n (addedPoints ops) := by
  obtain ⟨snaps, b, h1, h2, h3, h4, -, h6⟩ := flushed_total hash (Buckets.seriesOf (addedPoints ops)) w hw
    (Buckets.separates_inj hsep) n ops (Buckets.new w) (Buckets.Inv.new ..) (by simp [CountersNamed, Buckets.new])
    (fun v hv => ⟨v, hv, rfl⟩) hc
  refine ⟨snaps, b, _, h1, h2, h3, fun p hp hn => (h4 p hp hn).1, ?_⟩
  rw [h6]
  simp [Buckets.new, totalNamed, sumTotal, LawfulAdd.zero_add]

end

open Statsd
section
variable {F : Type} [F64 F]

private theorem readings_points (cfg : Config F) (now : Int) (hu : cfg.Usable) (ha : cfg.AsciiNumbers) (rs : List Reading)
    (hv : ∀ r ∈ rs, r.Valid cfg) : ∃ pts : List (Telemetry F), rs.map (·.point cfg now) = pts.map some := by
  induction rs with
  | nil => exact ⟨[], rfl⟩
  | cons r rs ih =>
    obtain ⟨pts, h⟩ := ih (fun x hx => hv x (by simp [hx]))
    obtain ⟨t, ht, -⟩ := (C40_line cfg now hu ha r.text).1 r (hv r (by simp)) rfl
    exact ⟨t :: pts, by simp [h, ht]⟩

private theorem points_total [LawfulAdd F] (cfg : Config F) (now : Int) (n : Str) : ∀ (rs : List Reading) (pts : List (Telemetry F)),
    rs.map (·.point cfg now) = pts.map some → (∀ r ∈ rs, r.name = n → r.ty = .counter) →
    CountersNamed n pts ∧ totalNamed n pts = totalReported cfg n rs := by
  intro rs
  induction rs with
  | nil => intro pts h _; cases pts with
    | nil => exact ⟨by simp [CountersNamed], rfl⟩
    | cons => simp at h
  | cons r rs ih =>
    intro pts h hc
    cases pts with
    | nil => simp at h
    | cons t pts =>
      simp only [List.map_cons, List.cons.injEq] at h
      obtain ⟨i1, i2⟩ := ih pts h.2 (fun x hx => hc x (by simp [hx]))
      have hp := h.1
      simp only [Reading.point, Option.bind_eq_some_iff, Option.map_eq_some_iff] at hp
      obtain ⟨v, hv, value, hval, rfl⟩ := hp
      by_cases hn : r.name = n
      · have hty := hc r (by simp) hn
        simp only [Reading.pointValue, hty, Option.some.injEq] at hval
        subst hval
        constructor
        · intro p hp hpn
          rcases List.mem_cons.1 hp with rfl | hp
          · exact ⟨rfl, by simp [hty]⟩
          · exact i1 p hp hpn
        · rw [totalNamed_cons, i2, totalNamed_one n _ v hn rfl]
          simp [totalReported, hv, hn]
      · constructor
        · intro p hp hpn
          rcases List.mem_cons.1 hp with rfl | hp
          · exact absurd hpn hn
          · exact i1 p hp hpn
        · rw [totalNamed_cons, i2, totalNamed_other n _ hn, LawfulAdd.zero_add]
          simp [totalReported, hv, hn]

private theorem totalReported_append [LawfulAdd F] (cfg : Config F) (n : Str) (a b : List Reading) :
    totalReported cfg n (a ++ b) = F64.add (totalReported cfg n a) (totalReported cfg n b) := by
  induction a with
  | nil => simp [totalReported, LawfulAdd.zero_add]
  | cons r a ih =>
    simp only [List.cons_append, totalReported, ih]
    split
    · split
      · rw [LawfulAdd.add_assoc]
      · rfl
    · rfl

/-- **C112** (the source) Of packets that carry readings, the source sends points of which those of a name reported as a counter
add up to exactly what the packets report under it. -/
theorem C112_source [LawfulAdd F] (cfg : Config F) (hu : cfg.Usable) (ha : cfg.AsciiNumbers) (n : Str) :
    ∀ (packets : List (Datagram × List Reading)), (∀ p ∈ packets, Carries cfg p.1 p.2) →
    (∀ p ∈ packets, ∀ r ∈ p.2, r.name = n → r.ty = .counter) →
    ∃ sent, handleDatagrams cfg (packets.map Prod.fst) [] = (sent, true) ∧
      (∀ t ∈ sent, t.name = n → t.kind = .sum ∧ t.persist = false) ∧
      totalNamed n sent = totalReported cfg n (packets.flatMap Prod.snd) := by
  intro packets
  induction packets with
  | nil => intro _ _; exact ⟨[], rfl, by simp, rfl⟩
  | cons p packets ih =>
    intro hcar hc
    obtain ⟨d, rs⟩ := p
    obtain ⟨sent, s1, s2, s3⟩ := ih (fun q hq => hcar q (by simp [hq])) (fun q hq => hc q (by simp [hq]))
    obtain ⟨hne, hval, text, ht, hl⟩ := hcar (d, rs) (by simp)
    have ht : d.text = some text := ht
    obtain ⟨pts, hp⟩ := readings_points cfg d.now hu ha rs hval
    have hacc := (C40_packet cfg d.now hu ha text pts).2 ⟨rs, hne, hval, hl, hp⟩
    obtain ⟨t1, t2⟩ := points_total cfg d.now n rs pts hp (hc (d, rs) (by simp))
    refine ⟨pts ++ sent, ?_, ?_, ?_⟩
    · simp only [List.map_cons, handleDatagrams, ht, hacc, s1]
    · intro t h hn
      rcases List.mem_append.1 h with h | h
      · exact t1 t h hn
      · exact s2 t h hn
    · rw [totalNamed_append, t2, s3, List.flatMap_cons, totalReported_append]

/-- **C112 (console)** The console receives, among points of other names, with flush pulses at any time, points of a counter, in any order, until
`Shutdown`.  Then the values it has printed under the counter's name, over all its flushes, add up to exactly the values of the points. -/
theorem C112_console [LawfulAdd F] (n : Str) (sent : List (Telemetry F))
    (s2 : ∀ t ∈ sent, t.name = n → t.kind = .sum ∧ t.persist = false)
    (ext : Console.Ext F) (interval : Nat) (clock : Nat → Int) (stamps : Nat → Str × Str) (w : Int) (hw : w ≠ 0) (tags : TagMap)
    (sources steps : Nat) (recv : List (Option (Event F))) (h)
    (hq : ((pointsIn (untilShutdown (arrivals recv))).filter fun t => t.name = n).Perm
      (sent.filter fun t => t.name = n))
    (hsep : Separates ext.nameTagHash (pointsIn (untilShutdown (arrivals recv))))
    (hret : (SinkRun.steps (consoleImpl ext interval clock stamps) sources steps
      { state := some { state := Console.init w tags }, queue := recv }).returned = true)
    (hs : (SinkRun.steps (consoleImpl ext interval clock stamps) sources steps
      { state := some { state := Console.init w tags }, queue := recv }).state = some h) :
    ∃ flushed : List (List (Telemetry F)), h.log.length = flushed.length ∧
      (∀ (i : Nat) pts, flushed[i]? = some pts → ∃ k ls text, h.log[i]? = some (ls, text) ∧
        IsConsoleText ext tags (stamps k) ls pts text) ∧
      (∀ p ∈ flushed.flatten, p.name = n → p.kind = .sum) ∧
      totalNamed n flushed.flatten = totalNamed n sent := by
  obtain ⟨hist, now, flushed, c1, -, -, c2, c3, c4⟩ :=
    C86_console_texts ext interval clock stamps w tags sources steps recv h hret hs
  have hcn : CountersNamed n (addedPoints (hist ++ [.reset now])) := by
    rw [c1]
    intro p hp hn
    have : p ∈ sent.filter fun t => t.name = n := hq.subset (by simp [hp, hn])
    exact s2 p (List.mem_filter.1 this).1 hn
  have hca : CountersNamed n (addedPoints hist) := by
    intro p hp; exact hcn p (by rw [addedPoints_append]; simp [hp])
  obtain ⟨snaps, b, e1, e2, e3, e4, e5, e6⟩ := flushed_total ext.nameTagHash
    (Buckets.seriesOf (addedPoints hist)) w hw
    (Buckets.separates_inj (fun a ha b hb => hsep a (by rw [← c1, addedPoints_append]; simp [ha]) b
      (by rw [← c1, addedPoints_append]; simp [hb]))) n hist (Buckets.new w) (Buckets.Inv.new ..)
    (by simp [CountersNamed, Buckets.new]) (fun v hv => ⟨v, hv, rfl⟩) hca
  have hfl : flushed = snaps ++ [b.values.flatten] := by
    have := flushSnaps_append ext.nameTagHash [.reset now] hist _ b snaps [b.values.flatten] e1 e2 (by simp [flushSnaps, e3])
    rw [this] at c2
    exact (Option.some.inj c2).symm
  refine ⟨flushed, c3, c4, ?_, ?_⟩
  · intro p hp hn
    rw [hfl] at hp
    simp only [List.flatten_append, List.flatten_cons, List.flatten_nil, List.append_nil, List.mem_append] at hp
    rcases hp with hp | hp
    · exact (e4 p hp hn).1
    · exact (e5 p hp hn).1
  · rw [hfl]
    simp only [List.flatten_append, List.flatten_cons, List.flatten_nil, List.append_nil]
    rw [totalNamed_append, e6]
    have hp := totalNamed_perm n hq
    simp only [totalNamed, List.filter_filter, Bool.and_self] at hp
    have h0 : addedPoints hist = pointsIn (untilShutdown (arrivals recv)) := by
      rw [← c1, addedPoints_append]; simp [addedPoints]
    simp only [totalNamed, Buckets.new, List.flatten_nil, List.filter_nil, sumTotal, LawfulAdd.zero_add, h0]
    exact hp

/-- **C112** Clients report a counter in any packets, any of which may also report other things.  The console receives, among points of
other names from anywhere, with flush pulses at any time, the points the source sent, until `Shutdown`.  Then the values it has printed
under the counter's name, over all its flushes, add up to exactly what the clients reported: nothing is lost, nothing is printed twice. -/
theorem C112_statsd_to_console [LawfulAdd F] (cfg : Config F) (hu : cfg.Usable) (ha : cfg.AsciiNumbers) (n : Str)
    (packets : List (Datagram × List Reading)) (hcar : ∀ p ∈ packets, Carries cfg p.1 p.2)
    (hc : ∀ p ∈ packets, ∀ r ∈ p.2, r.name = n → r.ty = .counter)
    (ext : Console.Ext F) (interval : Nat) (clock : Nat → Int) (stamps : Nat → Str × Str) (w : Int) (hw : w ≠ 0) (tags : TagMap)
    (sources steps : Nat) (recv : List (Option (Event F))) (h)
    (hq : ((pointsIn (untilShutdown (arrivals recv))).filter fun t => t.name = n).Perm
      ((handleDatagrams cfg (packets.map Prod.fst) []).1.filter fun t => t.name = n))
    (hsep : Separates ext.nameTagHash (pointsIn (untilShutdown (arrivals recv))))
    (hret : (SinkRun.steps (consoleImpl ext interval clock stamps) sources steps
      { state := some { state := Console.init w tags }, queue := recv }).returned = true)
    (hs : (SinkRun.steps (consoleImpl ext interval clock stamps) sources steps
      { state := some { state := Console.init w tags }, queue := recv }).state = some h) :
    ∃ flushed : List (List (Telemetry F)), h.log.length = flushed.length ∧
      (∀ (i : Nat) pts, flushed[i]? = some pts → ∃ k ls text, h.log[i]? = some (ls, text) ∧
        IsConsoleText ext tags (stamps k) ls pts text) ∧
      (∀ p ∈ flushed.flatten, p.name = n → p.kind = .sum) ∧
      totalNamed n flushed.flatten = totalReported cfg n (packets.flatMap Prod.snd) := by
  obtain ⟨sent, s1, s2, s3⟩ := C112_source cfg hu ha n packets hcar hc
  rw [s1] at hq
  rw [← s3]
  exact C112_console n sent s2 ext interval clock stamps w hw tags sources steps recv h hq hsep hret hs

end

/-- two packets: a counter beside a gauge, then the counter again and a sampled one, across a flush -/
private def packets : List (Datagram × List Reading) :=
  [(⟨some "a:2|c\nx:5|g\n".toList, 7⟩, [⟨['a'], ['2'], .counter, none⟩, ⟨['x'], ['5'], .gauge, none⟩]),
   (⟨some "a:3|c\na:4|c|@1".toList, 8⟩, [⟨['a'], ['3'], .counter, none⟩, ⟨['a'], ['4'], .counter, some (true, ['1'])⟩])]

private def queue : List (Option (Event Int)) :=
  let pts := (handleDatagrams demo (packets.map Prod.fst) []).1
  (pts.take 2).map (fun t => some (.telemetry t)) ++ [some (.timerFlush 1)] ++ (pts.drop 2).map (fun t => some (.telemetry t)) ++
    [some (.telemetry ⟨['b', 'b'], .sum 1, false, none, 8, none, none⟩), none, some .shutdown]

example : demo.Usable ∧ demo.AsciiNumbers ∧ (∀ p ∈ packets, Carries demo p.1 p.2) ∧
    (∀ p ∈ packets, ∀ r ∈ p.2, r.name = ['a'] → r.ty = .counter) ∧
    ((pointsIn (untilShutdown (arrivals queue))).filter fun t => t.name = ['a']) =
      (handleDatagrams demo (packets.map Prod.fst) []).1.filter (fun t => t.name = ['a']) ∧
    Separates (fun x : Str × TagMap => (x.1.head?.getD 'a').toNat) (pointsIn (untilShutdown (arrivals queue))) ∧
    totalReported demo ['a'] (packets.flatMap Prod.snd) = 9 ∧
    let r := SinkRun.steps (consoleImpl { consoleExt with nameTagHash := fun x : Str × TagMap => (x.1.head?.getD 'a').toNat } 1 (fun _ => 9)
      (fun _ => (['1'], ['2']))) 1 30 { state := some { state := Console.init 1 [] }, queue := queue }
    r.returned = true ∧ (r.state.map fun h => h.log.map fun b => String.ofList b.2) =
      some ["Flushing lines: 1\nFlushing metrics: 2\n  sums:\n    a(7): 2\n  sets:\n    x(7): 5\n  summaries:\n  histograms:\n",
        "Flushing lines: 1\nFlushing metrics: 2\n  sums:\n    a(8): 7\n    bb(8): 1\n  sets:\n    x(9): 5\n  summaries:\n  histograms:\n"] := by
  refine ⟨⟨by decide, by decide⟩, demo_ascii, ?_, by decide, by decide +kernel, by unfold Separates; decide +kernel, by decide +kernel, by decide +kernel⟩
  intro p hp
  simp only [packets, List.mem_cons, List.not_mem_nil, or_false] at hp
  rcases hp with rfl | rfl
  · refine ⟨by simp, ?_, _, rfl, by decide⟩
    intro r hr
    simp only [List.mem_cons, List.not_mem_nil, or_false] at hr
    rcases hr with rfl | rfl <;> exact ⟨by decide, by decide, by decide, by decide, by simp⟩
  · refine ⟨by simp, ?_, _, rfl, by decide⟩
    intro r hr
    simp only [List.mem_cons, List.not_mem_nil, or_false] at hr
    rcases hr with rfl | rfl
    · exact ⟨by decide, by decide, by decide, by decide, by simp⟩
    · refine ⟨by decide, by decide, by decide, by decide, ?_⟩
      intro bar rate h
      simp only [Option.some.injEq, Prod.mk.injEq] at h
      rw [← h.2]; decide

end Verif
