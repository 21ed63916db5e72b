import Verif.Lemmas.Native
import Verif.Lemmas.NativeWrite
import Verif.Props.Influxdb
import Verif.Props.Wire
/-!
# Native protocol, sink and source: C55, C79, C80, C81, C82
-/
namespace Verif
open Proto Native

/-! ## C79: messages survive encoding -/

/-- A payload is read back as it was written.  Missing: payloads with a point whose number of
samples is not a `GoodCount` (`C79_rejected_false`). -/
theorem C79_round_trip_partial (p : Payload) (hv : p.Valid)
    (hg : ∀ x ∈ p.points, GoodCount x.samples.length) :
    Payload.parse p.write = some p ∧ p.write.length = p.computeSize := by
  refine ⟨Payload.parse_write p hv hg, ?_⟩
  have h := Payload.write_length p hv.2.2
  have hz : (p.points.countP fun x => decide (¬ GoodCount x.samples.length)) = 0 := by
    rw [List.countP_eq_zero]; intro y hy; simp [hg y hy]
  omega

/-- The size announced for a payload is short by exactly one byte for each point whose number of
samples is not a `GoodCount`. -/
theorem C79_size_partial (p : Payload) (hl : p.write.length < 4294967296) :
    p.write.length =
      p.computeSize + p.points.countP (fun x => decide (¬ GoodCount x.samples.length)) :=
  Payload.write_length p hl

/-- Disagreement: one point with 16 samples, for example, spoils the whole payload: what the
announced size delimits cannot be read. -/
theorem C79_rejected_false (p : Payload) (hv : p.Valid)
    (hs : ∀ x ∈ p.points, x.timestampMs.isSome ∧ x.binBounds = [])
    (hb : ∃ x ∈ p.points, ¬ GoodCount x.samples.length) :
    Payload.parse (p.write.take p.computeSize) = none :=
  Payload.parse_bad p hv hs hb

/-- **C79.**  Fields of kinds unknown to this version, before and after the known ones, are passed over: in a payload, in a point
and in a line.  Groups, which protocol buffers have abandoned, are not among them. -/
theorem C79_unknown_fields (xs ys : List (Nat × Extra)) (hv : ∀ x ∈ xs ++ ys, x.2.Valid) (hf : ∀ x ∈ xs ++ ys, 7 < x.1 ∧ x.1 < 536870912) :
    (∀ p : Payload, p.Valid → (∀ x ∈ p.points, GoodCount x.samples.length) →
      Payload.parse (writeExtras xs ++ p.write ++ writeExtras ys) = some p) ∧
    (∀ p : Point, p.Valid → ∀ body, body = writeExtras xs ++ p.write ++ writeExtras ys → body.length < 4294967296 →
      Payload.parse (putTag 2 2 ++ (varint body.length ++ body)) = some { points := [p] }) ∧
    (∀ l : Proto.Line, l.Valid → ∀ body, body = writeExtras xs ++ l.write ++ writeExtras ys → body.length < 4294967296 →
      Payload.parse (putTag 3 2 ++ (varint body.length ++ body)) = some { lines := [l] }) := by
  refine ⟨fun p hp hg => ?_, fun p hp body hb hl => ?_, fun l hp body hb hl => ?_⟩
  · exact Payload.parse_extras p hp hg xs ys fun x hx => ⟨by have := hf x hx; omega, (hf x hx).2, by have := hf x hx; omega, by have := hf x hx; omega, hv x hx⟩
  · refine Payload.parse_point body p ?_ hl
    subst hb
    refine Point.read_extras p hp ?_ xs ys fun x hx => ⟨(hf x hx).1, (hf x hx).2, hv x hx⟩
    simp only [List.length_append] at hl; omega
  · refine Payload.parse_line body l ?_ hl
    subst hb
    refine Line.read_extras l hp ?_ xs ys fun x hx => ⟨by have := hf x hx; omega, (hf x hx).2, hv x hx⟩
    simp only [List.length_append] at hl; omega

/-- **C79.**  Other writers may pack numbers where this one does not and the other way round: samples one by one, before the rest of a
point, and bin bounds in one packed field after it, are read all the same, in order. -/
theorem C79_packing (p : Point) (hv : p.Valid) (ds bs : List UInt64) (body : Bytes)
    (hb : body = (ds.flatMap fun v => putTag 2 1 ++ leBytes 8 v.toNat) ++ p.write ++
      (putTag 7 2 ++ (varint (bs.length * 8) ++ bs.flatMap fun v => leBytes 8 v.toNat)))
    (hl : body.length < 4294967296) :
    Payload.parse (putTag 2 2 ++ (varint body.length ++ body)) =
      some { points := [{ p with samples := ds ++ p.samples, binBounds := p.binBounds ++ bs }] } := by
  refine Payload.parse_point body _ ?_ hl
  subst hb
  simp only [List.length_append, doubles_length] at hl
  exact Point.read_other p hv (by omega) ds bs (by omega)

example : Payload.parse [18, 19, 17, 0, 0, 0, 0, 0, 0, 240, 63, 58, 8, 0, 0, 0, 0, 0, 0, 0, 64] =
    some { points := [{ samples := [4607182418800017408], binBounds := [4611686018427387904] }] } := by decide +kernel

/-- All four forms, around the payload of the demonstration below. -/
example : ∀ x ∈ [(8, Extra.number 300), (9, .eight (List.replicate 8 1)), (15, .text [1, 2, 3]), (536870911, .four [0, 0, 0, 1])],
    x.2.Valid ∧ 7 < x.1 ∧ x.1 < 536870912 := by
  intro x hx
  simp only [List.mem_cons, List.not_mem_nil, or_false] at hx
  rcases hx with rfl | rfl | rfl | rfl <;> simp [Extra.Valid]

/-- A payload with a point, a line, tags and non-ASCII text. -/
def protoDemo : Payload :=
  { points := [{ name := some "a.b".toList, samples := [1, 2], persisted := some true
                 method := some .sum, metadata := [("k".toList, "é".toList)]
                 timestampMs := some (-5000) }]
    lines := [{ path := some "/x".toList, value := some "hi".toList, timestampMs := some 7000 }] }

example : protoDemo.Valid ∧ ∀ x ∈ protoDemo.points, GoodCount x.samples.length := by
  refine ⟨⟨?_, ?_, by decide⟩, by decide⟩
  · intro x hx
    simp only [protoDemo, List.mem_singleton] at hx
    subst hx
    exact ⟨by simp [TagMap.Ok], by decide⟩
  · intro x hx
    simp only [protoDemo, List.mem_singleton] at hx
    subst hx
    exact ⟨by simp [TagMap.Ok], by decide⟩

/-- A payload with 16 samples. -/
def protoBad : Payload :=
  { points := [{ name := some "a".toList, samples := List.replicate 16 0, timestampMs := some 0 }] }

set_option maxRecDepth 8000 in
example : protoBad.Valid ∧ (∀ x ∈ protoBad.points, x.timestampMs.isSome ∧ x.binBounds = []) ∧
    ∃ x ∈ protoBad.points, ¬ GoodCount x.samples.length := by
  refine ⟨⟨?_, by simp [protoBad], by decide⟩, by decide, by decide⟩
  intro x hx
  simp only [protoBad, List.mem_singleton] at hx
  subst hx
  exact ⟨by simp [TagMap.Ok], by decide⟩

example : GoodCount 15 ∧ ¬ GoodCount 16 ∧ ¬ GoodCount 127 ∧ GoodCount 128 := by decide

/-! ## C81: times -/

/-- Milliseconds become whole seconds, truncated towards zero; a time in seconds survives the
trip through the sink and the source.  Missing: times beyond 70000 years (`C81_extreme_false`). -/
theorem C81_seconds_partial :
    (∀ ms : Int, -2251799813685248 ≤ ms → ms ≤ 2251799813685248 →
      milliToSec ms = ms.tdiv 1000) ∧
    (∀ t, TimeOk t → milliToSec (mulI64 t 1000) = t) :=
  ⟨fun ms h1 h2 => milliToSec_eq ms (by omega), milliToSec_mul⟩

example : milliToSec 1999 = 1 ∧ milliToSec (-1999) = -1 ∧ milliToSec 1509999999999 = 1509999999 := by
  decide

/-- Disagreement: near the end of the range of milliseconds a time is off by a second or more, and
a time in seconds beyond that range arrives as another one. -/
theorem C81_extreme_false :
    milliToSec 9223372036854775807 ≠ (9223372036854775807 : Int).tdiv 1000 ∧
    milliToSec (mulI64 9223372036854776 1000) < 0 := by
  decide +kernel

/-- The arithmetic of the source is that of doubles: a result is rounded to the double nearest to it, in a tie to the one that is an even
multiple of the gap between the two. -/
theorem C81_rounding (p : Nat) : IsDouble (round53 p) ∧ ∀ d, IsDouble d →
    ((round53 p : Int) - p).natAbs ≤ ((d : Int) - p).natAbs ∧
    (((round53 p : Int) - p).natAbs = ((d : Int) - p).natAbs → d ≠ round53 p → ∃ m, round53 p = 2 * m * ((d : Int) - round53 p).natAbs) := by
  by_cases hp : p < 9007199254740992
  · have e : round53 p = p := by simp only [round53, if_pos hp]
    rw [e]
    refine ⟨⟨p, 0, hp, by simp⟩, fun d _ => ⟨by omega, fun h hd => ?_⟩⟩
    omega
  · have hlog : 53 ≤ p.log2 := (Nat.le_log2 (by omega)).2 (by omega)
    have h1 : 2 ^ p.log2 ≤ p := (Nat.le_log2 (by omega)).1 (Nat.le_refl _)
    have h2 : p < 2 ^ (p.log2 + 1) := (Nat.log2_lt (by omega)).1 (Nat.lt_succ_self _)
    obtain ⟨e, he⟩ : ∃ e, p.log2 = e + 52 := ⟨p.log2 - 52, by omega⟩
    have hdm : p = 2 ^ e * (p / 2 ^ e) + p % 2 ^ e := (Nat.div_add_mod p (2 ^ e)).symm
    have hr : p % 2 ^ e < 2 ^ e := Nat.mod_lt _ (Nat.pow_pos (by decide))
    have hq1 : 2 ^ 52 ≤ p / 2 ^ e := by
      rw [Nat.le_div_iff_mul_le (Nat.pow_pos (by decide)), ← Nat.pow_add]
      rw [Nat.add_comm 52 e, ← he]; exact h1
    have hq2 : p / 2 ^ e < 2 ^ 53 := by
      rw [Nat.div_lt_iff_lt_mul (Nat.pow_pos (by decide)), ← Nat.pow_add]
      rw [show 53 + e = p.log2 + 1 by omega]; exact h2
    have gap : ∀ d, IsDouble d → d ≤ p / 2 ^ e * 2 ^ e ∨ (p / 2 ^ e + 1) * 2 ^ e ≤ d := by
      rintro d ⟨m, k, hm, rfl⟩
      by_cases hk : e ≤ k
      · obtain ⟨j, rfl⟩ := Nat.exists_eq_add_of_le hk
        rw [Nat.add_comm e j, Nat.pow_add, ← Nat.mul_assoc]
        rcases Nat.lt_or_ge (p / 2 ^ e) (m * 2 ^ j) with h | h
        · exact .inr (Nat.mul_le_mul_right _ h)
        · exact .inl (Nat.mul_le_mul_right _ h)
      · left
        obtain ⟨j, rfl⟩ : ∃ j, e = k + (j + 1) := ⟨e - k - 1, by omega⟩
        have : m * 2 ^ k ≤ 2 ^ 53 * 2 ^ k := Nat.mul_le_mul_right _ (by omega)
        refine Nat.le_trans this ?_
        have : 2 ^ 53 * 2 ^ k ≤ 2 ^ 52 * 2 ^ (k + (j + 1)) := by
          rw [← Nat.pow_add, ← Nat.pow_add]
          exact Nat.pow_le_pow_right (by decide) (by omega)
        exact Nat.le_trans this (Nat.mul_le_mul_right _ hq1)
    have hE : p.log2 - 52 = e := by omega
    simp only [round53, if_neg hp, hE]
    generalize p / 2 ^ e = q at *
    generalize p % 2 ^ e = r at *
    have hcomm : 2 ^ e * q = q * 2 ^ e := Nat.mul_comm ..
    have hsucc : (q + 1) * 2 ^ e = q * 2 ^ e + 2 ^ e := Nat.succ_mul ..
    generalize hpe : 2 ^ e = g at *
    have hg : 0 < g := hpe ▸ Nat.pow_pos (by decide)
    by_cases hup : 2 * r > g ∨ (2 * r = g ∧ q % 2 = 1)
    · rw [if_pos hup]
      refine ⟨?_, fun d hd => ?_⟩
      · by_cases hmax : q + 1 < 2 ^ 53
        · exact ⟨q + 1, e, hmax, by rw [hpe]⟩
        · refine ⟨1, 53 + e, by decide, ?_⟩
          rw [show q + 1 = 2 ^ 53 by omega, ← hpe, ← Nat.pow_add, Nat.one_mul]
      · rcases gap d hd with h | h
        · refine ⟨by omega, fun ht hne => ⟨(q + 1) / 2, ?_⟩⟩
          have hd' : d = q * g := by omega
          rw [show ((d : Int) - ((q + 1) * g : Nat)).natAbs = g by omega, show 2 * ((q + 1) / 2) = q + 1 by omega]
        · exact ⟨by omega, fun ht hne => False.elim (by omega)⟩
    · rw [if_neg hup]
      refine ⟨⟨q, e, hq2, by rw [hpe]⟩, fun d hd => ?_⟩
      rcases gap d hd with h | h
      · exact ⟨by omega, fun ht hne => False.elim (by omega)⟩
      · refine ⟨by omega, fun ht hne => ⟨q / 2, ?_⟩⟩
        have hd' : d = (q + 1) * g := by omega
        rw [show ((d : Int) - (q * g : Nat)).natAbs = g by omega, show 2 * (q / 2) = q by omega]

example : round53 9007199254740993 = 9007199254740992 ∧ round53 9007199254740995 = 9007199254740996 ∧ round53 18014398509481987 = 18014398509481988 := by
  decide +kernel

section
variable {F : Type} [F64 F]

/-! ## C55: sink and source agree -/

/-- Every sendable batch is written as one frame: its length, then its body. -/
theorem C55_framed_partial (bits : Bits F) (tags : TagMap) (hd : tags.Ok) (batch : List (Event F))
    (h : ∀ e ∈ batch, SendOk bits e)
    (hl : ∀ bs, FlushWrites bits tags batch bs → bs.length < 4294967296) :
    ∃ p, FlushWrites bits tags batch (Wire.frame p) ∧
      ∀ now, ∃ out, handlePayload bits now p = .events out ∧ BatchArrives tags batch out := by
  have hl' : (payloadOf bits tags batch).write.length < 4294967296 := by
    have := hl _ (flush_wire bits tags batch)
    simp only [wire, List.length_append] at this
    omega
  refine ⟨(payloadOf bits tags batch).write, ?_, fun now => handlePayload_ok bits now tags hd batch h hl'⟩
  rw [← wire_frame _ hl' (fun x hx => by
    obtain ⟨t, ht, rfl⟩ := mem_points bits tags batch x hx
    have := (h _ ht).2.2.2.2.1
    simpa [pointOf] using this)]
  exact flush_wire bits tags batch

private theorem flushWrites_frame (bits : Bits F) (tags : TagMap) (batch : List (Event F)) (p : Bytes)
    (h : FlushWrites bits tags batch (Wire.frame p)) : p = (payloadOf bits tags batch).write := by
  simp only [FlushWrites, flush_wire, Prod.mk.injEq, List.cons.injEq, Act.write.injEq, and_true] at h
  have h' := congrArg (List.drop 4) h
  simpa [wire, Wire.frame, be32, Wire.be] using h'.symm

/-- Batches flushed by the native sink, however the network cuts them up, reach the source's
channel: every batch in order, its points first and then its lines, each with its name, kind,
persistence, second, samples and tags, and the sink's default tags where it has none of its own.
Missing: histograms (`C55_histogram_false`), points whose number of samples is not a `GoodCount`
(`C55_sample_count_false`), empty batches (`C55_idle_false`), payloads over a mebibyte, and the
fields of log lines (`C55_log_fields_false`). -/
theorem C55_round_trip_partial (bits : Bits F) (now : Int) (tags : TagMap) (hd : tags.Ok)
    (batches : List (List (Event F))) (ps : List Bytes) (net : List Wire.NetItem)
    (hb : ∀ b ∈ batches, b ≠ [] ∧ ∀ e ∈ b, SendOk bits e)
    (hw : Each (fun b p => FlushWrites bits tags b (Wire.frame p)) batches ps)
    (hp : ∀ p ∈ ps, p.length ≤ maxPayload)
    (hn : Wire.NonEmptyReads net) (hs : Wire.Framed ps (Wire.symsOf net)) (fuel : Nat)
    (hf : (Wire.symsOf net).length < fuel) :
    ∃ outs : List (List (Event F)),
      serve bits now fuel { maxPayloadSize := maxPayload, buffer := { stream := net } } =
        (outs.flatten, .closed .eof) ∧
      Each (BatchArrives tags) batches outs := by
  have key : ∀ (batches : List (List (Event F))) (ps : List Bytes),
      (∀ b ∈ batches, b ≠ [] ∧ ∀ e ∈ b, SendOk bits e) →
      Each (fun b p => FlushWrites bits tags b (Wire.frame p)) batches ps →
      (∀ p ∈ ps, p.length ≤ maxPayload) →
      (∀ p ∈ ps, p ≠ []) ∧ ∃ outs : List (List (Event F)),
        Each (fun p es => handlePayload bits now p = .events es) ps outs ∧
        Each (BatchArrives tags) batches outs := by
    intro batches ps hb hw
    induction hw with
    | nil => intro _; exact ⟨by simp, [], .nil, .nil⟩
    | @cons b p bs ps hbp _ ih =>
      intro hp
      obtain ⟨h1, outs, h2, h3⟩ := ih (fun x hx => hb x (by simp [hx])) fun x hx => hp x (by simp [hx])
      obtain ⟨hne, hok⟩ := hb b (by simp)
      have hpl := hp p (by simp)
      have hpe := flushWrites_frame bits tags b p hbp
      subst hpe
      obtain ⟨out, e1, e2⟩ := handlePayload_ok bits now tags hd b hok (by simp only [maxPayload] at hpl; omega)
      refine ⟨?_, out :: outs, .cons e1 h2, .cons e2 h3⟩
      intro p hp
      rcases List.mem_cons.1 hp with rfl | hp
      · intro hnil
        rw [hnil] at e1
        have hE : handlePayload bits now [] = .events [] := rfl
        rw [hE, Handled.events.injEq] at e1
        subst e1
        obtain ⟨ts, ls, q1, q2, q3⟩ := e2
        have hts : ts = [] := by
          cases ts with
          | nil => rfl
          | cons => simp at q1
        have hls : ls = [] := by
          cases ls with
          | nil => rfl
          | cons => simp at q1
        subst hts hls
        cases b with
        | nil => exact hne rfl
        | cons e b =>
          have he := hok e (by simp)
          cases e with
          | telemetry t => simp only [telemetries, List.filterMap_cons] at q2; cases q2
          | log l => simp only [logs, List.filterMap_cons] at q3; cases q3
          | timerFlush i => exact he
          | shutdown => exact he
          | raw r => exact he
      · exact h1 p hp
  obtain ⟨h1, outs, h2, h3⟩ := key batches ps hb hw hp
  refine ⟨outs, ?_, h3⟩
  refine serve_drain bits now fuel _ ps outs ?_ h2
  exact (Wire.drain_ok fuel).1 _ ps (Wire.symsOf net)
    ⟨rfl, rfl, rfl, by simp [Wire.BufReader.syms], hn⟩ hs
    (fun p hpm => ⟨h1 p hpm, hp p hpm, by have := hp p hpm; simp only [maxPayload] at this; omega⟩) hf

/-- **C55 (idle flushes).**  The same when some flushes had nothing to send: the batches before the first of these arrive, and the rest is lost, since the
frame of an empty batch passes for the end of the stream. -/
theorem C55_until_idle_partial (bits : Bits F) (now : Int) (tags : TagMap) (hd : tags.Ok)
    (batches : List (List (Event F))) (ps : List Bytes) (net : List Wire.NetItem)
    (hb : ∀ b ∈ batches, ∀ e ∈ b, SendOk bits e)
    (hw : Each (fun b p => FlushWrites bits tags b (Wire.frame p)) batches ps)
    (hp : ∀ p ∈ ps, p.length ≤ maxPayload)
    (hn : Wire.NonEmptyReads net) (hs : Wire.Framed ps (Wire.symsOf net)) (fuel : Nat)
    (hf : (Wire.symsOf net).length < fuel) :
    ∃ outs : List (List (Event F)),
      serve bits now fuel { maxPayloadSize := maxPayload, buffer := { stream := net } } =
        (outs.flatten, .closed .eof) ∧
      Each (BatchArrives tags) (batches.takeWhile fun b => !b.isEmpty) outs := by
  have key : ∀ (batches : List (List (Event F))) (ps : List Bytes),
      (∀ b ∈ batches, ∀ e ∈ b, SendOk bits e) →
      Each (fun b p => FlushWrites bits tags b (Wire.frame p)) batches ps →
      (∀ p ∈ ps, p.length ≤ maxPayload) →
      ∃ outs : List (List (Event F)),
        Each (fun p es => handlePayload bits now p = .events es) (ps.takeWhile fun p => !p.isEmpty) outs ∧
        Each (BatchArrives tags) (batches.takeWhile fun b => !b.isEmpty) outs := by
    intro batches ps hb hw
    induction hw with
    | nil => intro _; exact ⟨[], .nil, .nil⟩
    | @cons b p bs ps hbp _ ih =>
      intro hp
      obtain ⟨outs, h2, h3⟩ := ih (fun x hx => hb x (by simp [hx])) fun x hx => hp x (by simp [hx])
      have hok := hb b (by simp)
      have hpl := hp p (by simp)
      have hpe := flushWrites_frame bits tags b p hbp
      subst hpe
      cases b with
      | nil => exact ⟨[], .nil, .nil⟩
      | cons e b =>
        obtain ⟨out, e1, e2⟩ := handlePayload_ok bits now tags hd (e :: b) hok (by simp only [maxPayload] at hpl; omega)
        have hne : (payloadOf bits tags (e :: b)).write ≠ [] := by
          intro hnil
          rw [hnil] at e1
          have hE : handlePayload bits now [] = .events [] := rfl
          rw [hE, Handled.events.injEq] at e1
          subst e1
          obtain ⟨ts, ls, q1, q2, q3⟩ := e2
          obtain ⟨hts, hls⟩ := List.append_eq_nil_iff.1 q1.symm
          rw [List.map_eq_nil_iff] at hts hls
          subst hts hls
          have he := hok e (by simp)
          cases e with
          | telemetry t => simp only [telemetries, List.filterMap_cons] at q2; cases q2
          | log l => simp only [logs, List.filterMap_cons] at q3; cases q3
          | timerFlush i => exact he
          | shutdown => exact he
          | raw r => exact he
        have hie : (payloadOf bits tags (e :: b)).write.isEmpty = false := by simpa using hne
        rw [List.takeWhile_cons, hie, List.takeWhile_cons]
        exact ⟨out :: outs, .cons e1 h2, .cons e2 h3⟩
  obtain ⟨outs, h2, h3⟩ := key batches ps hb hw hp
  refine ⟨outs, ?_, h3⟩
  refine serve_drain bits now fuel _ _ outs ?_ h2
  rw [C34_exact_partial maxPayload net hn fuel hf]
  exact Wire.decode_framed maxPayload hs fun p hpm => ⟨hp p hpm, by have := hp p hpm; simp only [maxPayload] at this; omega⟩

/-- Disagreement: a batch with one point of, say, 16 samples is lost as a whole and the source drops
the connection, whatever else the batch holds and whatever follows it. -/
theorem C55_sample_count_false (bits : Bits F) (now : Int) (tags : TagMap) (hd : tags.Ok)
    (batch : List (Event F)) (ht : ∀ e ∈ batch, TagsOk e) (bs : Bytes)
    (hb : ∃ t, .telemetry t ∈ batch ∧ ¬ GoodCount t.samples.length)
    (hw : FlushWrites bits tags batch bs) (hl : bs.length ≤ maxPayload)
    (net : List Wire.NetItem) (hn : Wire.NonEmptyReads net) (t : List Wire.Sym)
    (hs : Wire.symsOf net = bs.map .byte ++ t) (fuel : Nat) (hf : bs.length < fuel) :
    serve bits now fuel { maxPayloadSize := maxPayload, buffer := { stream := net } } =
      ([], .rejected) := by
  simp only [FlushWrites, flush_wire, Prod.mk.injEq, List.cons.injEq, Act.write.injEq, and_true] at hw
  subst hw
  have hlw : (payloadOf bits tags batch).write.length + 4 ≤ maxPayload := by
    have h4 : ∀ v, (be32 v).length = 4 := fun v => rfl
    simp only [wire, List.length_append, h4] at hl
    omega
  have hl' : (payloadOf bits tags batch).write.length < 4294967296 := by
    simp only [maxPayload] at hlw; omega
  have hv := payloadOf_valid bits tags hd batch ht hl'
  obtain ⟨tb, htb, hbad⟩ := hb
  have hbadp : ∃ x ∈ (payloadOf bits tags batch).points, ¬ GoodCount x.samples.length := by
    refine ⟨pointOf bits tags tb, ?_, by simpa [pointOf] using hbad⟩
    simp only [payloadOf, List.mem_filterMap]
    exact ⟨_, htb, rfl⟩
  have hrej := Payload.parse_bad (payloadOf bits tags batch) hv (fun x hx => by
    obtain ⟨t, _, rfl⟩ := mem_points bits tags batch x hx
    exact ⟨rfl, rfl⟩) hbadp
  have hlen := Payload.write_length (payloadOf bits tags batch) hl'
  generalize hp : payloadOf bits tags batch = p at *
  have htl : (p.write.take p.computeSize).length = p.computeSize := by
    rw [List.length_take]; omega
  have hsplit : p.write = p.write.take p.computeSize ++ p.write.drop p.computeSize :=
    (List.take_append_drop _ _).symm
  refine serve_reject bits now _ (p.write.take p.computeSize)
    ((p.write.drop p.computeSize).map .byte ++ t) ?_ ?_ ?_ ?_ ?_ fuel ?_
  · refine ⟨rfl, rfl, rfl, ?_, hn⟩
    simp only [Wire.BufReader.syms, List.map_nil, List.nil_append]
    rw [hs, wire, be32_eq, htl]
    conv => lhs; rw [hsplit]
    simp only [List.map_append, List.append_assoc]
  · intro hnil
    rw [hnil] at hrej
    exact absurd hrej (by decide)
  · rw [htl]; show _ ≤ maxPayload; omega
  · rw [htl]; omega
  · simp only [handlePayload, hrej]
  · rw [htl]
    simp only [wire, List.length_append] at hf
    omega

/-- Disagreement: a batch that takes more than the source's limit of 1 MiB is lost as a whole — the source
ends the connection at its length — and nothing keeps the sink from writing one: a log line is enough. -/
theorem C55_oversized_false (bits : Bits F) (now : Int) (tags : TagMap) :
    (∀ (batch : List (Event F)) (bs : Bytes), FlushWrites bits tags batch bs →
      (∀ t, .telemetry t ∈ batch → GoodCount t.samples.length) →
      maxPayload + 4 < bs.length → bs.length < 4294967296 →
      ∀ (net : List Wire.NetItem), Wire.NonEmptyReads net →
      ∀ (t : List Wire.Sym), Wire.symsOf net = bs.map .byte ++ t →
      ∀ fuel, serve bits now (fuel + 1) { maxPayloadSize := maxPayload, buffer := { stream := net } } =
        ([], .closed .lengthTooLarge)) ∧
    (∀ (batch : List (Event F)) (bs : Bytes), FlushWrites bits tags batch bs →
      ∀ l, .log l ∈ batch → maxPayload ≤ l.value.length → maxPayload + 4 < bs.length) := by
  constructor
  · intro batch bs hw hg hm hl net hn t hs fuel
    simp only [FlushWrites, flush_wire, Prod.mk.injEq, List.cons.injEq, Act.write.injEq, and_true] at hw
    subst hw
    have h4 : ∀ v, (be32 v).length = 4 := fun v => rfl
    have hgp : ∀ x ∈ (payloadOf bits tags batch).points, GoodCount x.samples.length := fun x hx => by
      obtain ⟨t, ht, rfl⟩ := mem_points bits tags batch x hx
      simpa [pointOf] using hg t ht
    have hlw : (payloadOf bits tags batch).write.length < 4294967296 := by
      simp only [wire, List.length_append, h4] at hl; omega
    have hmw : maxPayload < (payloadOf bits tags batch).write.length := by
      simp only [wire, List.length_append, h4] at hm; omega
    rw [wire_frame _ hlw hgp, Wire.frame, List.map_append, List.append_assoc] at hs
    obtain ⟨r', e, _⟩ := C35_oversized_rejected { maxPayloadSize := maxPayload, buffer := { stream := net } }
      (payloadOf bits tags batch).write.length _ rfl hlw hn (by simpa using hs) hmw
    simp only [serve, e]
  · intro batch bs hw l hlb hlen
    simp only [FlushWrites, flush_wire, Prod.mk.injEq, List.cons.injEq, Act.write.injEq, and_true] at hw
    subst hw
    have h4 : ∀ v, (be32 v).length = 4 := fun v => rfl
    have hu : ∀ x : Str, x.length ≤ (utf8 x).length := by
      intro x
      induction x with
      | nil => simp [utf8]
      | cons c x ih =>
        have hc : 0 < (String.utf8EncodeChar c).length := by simp only [String.length_utf8EncodeChar]; exact Char.utf8Size_pos c
        simp only [utf8, List.flatMap_cons, List.length_append, List.length_cons] at ih ⊢
        omega
    have hmem : lineOf tags l ∈ (payloadOf bits tags batch).lines := by
      simp only [payloadOf, List.mem_filterMap]
      exact ⟨_, hlb, rfl⟩
    have hline : l.value.length + 1 ≤ (lineOf tags l).write.length := by
      have := hu l.value
      have h8 : (varint (2 * 8 + 2)).length = 1 := by decide
      simp only [Proto.Line.write, lineOf, putOpt, putStr, putTag, List.length_append, h8]
      omega
    have hle : (lineOf tags l).write.length ≤ (payloadOf bits tags batch).write.length := by
      obtain ⟨a, b, hab⟩ := List.append_of_mem hmem
      simp only [Payload.write, hab, List.flatMap_append, List.flatMap_cons, List.length_append]
      omega
    simp only [wire, List.length_append, h4]
    omega

-- Such a batch.
example (bits : Bits Int) : ∃ l : LogLine, maxPayload ≤ l.value.length ∧
    ∃ bs, FlushWrites bits [] [Event.log (F := Int) l] bs ∧ maxPayload + 4 < bs.length :=
  ⟨LogLine.new 0 "/var/log/a".toList (List.replicate maxPayload 'x'), by simp [LogLine.new],
    _, flush_wire bits [] _,
    (C55_oversized_false (F := Int) bits 0 []).2 _ _ (flush_wire bits [] _) _ (List.mem_singleton.2 rfl)
      (by simp [LogLine.new])⟩

/-- Disagreement: flushing with nothing buffered writes a frame of length zero, after which the
source takes nothing more from that connection, whatever is sent. -/
theorem C55_idle_false (bits : Bits F) (now : Int) (tags : TagMap) (bs : Bytes)
    (hw : FlushWrites bits tags [] bs)
    (net : List Wire.NetItem) (hn : Wire.NonEmptyReads net) (t : List Wire.Sym)
    (hs : Wire.symsOf net = bs.map .byte ++ t) (fuel : Nat) :
    bs = [0, 0, 0, 0] ∧
    (serve bits now fuel { maxPayloadSize := maxPayload, buffer := { stream := net } }).1 = [] := by
  simp only [FlushWrites, flush_wire, Prod.mk.injEq, List.cons.injEq, Act.write.injEq, and_true] at hw
  have hbs : wire (payloadOf bits tags ([] : List (Event F))) = [0, 0, 0, 0] := by
    show wire ({} : Payload) = _
    decide
  rw [hbs] at hw
  subst hw
  refine ⟨rfl, ?_⟩
  have hbt : Wire.Between { maxPayloadSize := maxPayload, buffer := { stream := net } }
      ((Wire.be 4 0).map .byte ++ t) := by
    refine ⟨rfl, rfl, rfl, ?_, hn⟩
    simp only [Wire.BufReader.syms, List.map_nil, List.nil_append]
    rw [hs]; rfl
  obtain ⟨b', e1, e2, e3⟩ := Wire.read_between_length _ 0 _ hbt (by omega)
  cases fuel with
  | zero => rfl
  | succ fuel =>
    have hrr : Wire.Reader.read { maxPayloadSize := maxPayload, buffer := { stream := net } } =
        Wire.Reader.read { maxPayloadSize := maxPayload, buffer := b', payloadSize := some 0 } := by
      simp only [Wire.Reader.read, e1]; rfl
    have hs : serve bits now (fuel + 1) { maxPayloadSize := maxPayload, buffer := { stream := net } } =
        serve bits now (fuel + 1) { maxPayloadSize := maxPayload, buffer := b', payloadSize := some 0 } := by
      simp only [serve, hrr]
    rw [hs]
    exact serve_empty bits now _ _ rfl rfl

/-- Disagreement: the fields of a log line never reach the source. -/
theorem C55_log_fields_false (bits : Bits F) (now : Int) (tags : TagMap) (l : LogLine)
    (fields : List (Str × Str)) :
    payloadOf bits tags [Event.log { l with fields := fields }] = payloadOf bits tags [.log l] ∧
    ∀ l', (logOf now l').fields = [] := by
  refine ⟨rfl, fun l' => ?_⟩
  simp only [logOf, foldl_logtags, LogLine.new]

/-! ## C80: delivery -/

/-- Whatever the network does, a flush writes only the bytes of its batch, and it ends exactly
when a write has succeeded; the batch leaves the buffer once and for all. -/
theorem C80_flush (bits : Bits F) (s : Sink F) (os : List Bool) (bs : Bytes)
    (hw : FlushWrites bits s.tags s.buffer bs) :
    ∃ s' acts done, s.flush bits os = (s', acts, done) ∧ s'.buffer = [] ∧ s'.tags = s.tags ∧
      (∀ x ∈ acts, x = .write bs ∨ x = .connect ∨ ∃ n, n ≤ 512 ∧ x = .delay n) ∧
      (done = true → acts.getLast? = some (.write bs) ∧ s'.connected = true) := by
  simp only [FlushWrites, flush_wire, Prod.mk.injEq, List.cons.injEq, Act.write.injEq, and_true] at hw
  have key : ∀ (os : List Bool) (c : Bool) (a : Nat),
      (∀ x ∈ (flushLoop bs c a os).2.2.1,
        x = .write bs ∨ x = .connect ∨ ∃ n, n ≤ 512 ∧ x = .delay n) ∧
      ((flushLoop bs c a os).2.2.2 = true →
        (flushLoop bs c a os).2.2.1.getLast? = some (.write bs) ∧ (flushLoop bs c a os).1 = true) := by
    intro os
    induction os with
    | nil => intro c a; cases c <;> simp [flushLoop]
    | cons o os ih =>
      intro c a
      cases c with
      | true =>
        cases o with
        | true => simp [flushLoop]
        | false =>
          obtain ⟨h1, h2⟩ := ih false (satSucc a)
          simp only [flushLoop]
          refine ⟨fun x hx => ?_, fun hd => ⟨?_, (h2 hd).2⟩⟩
          · rcases List.mem_cons.1 hx with rfl | hx
            · exact Or.inl rfl
            · exact h1 x hx
          · rw [List.getLast?_cons, (h2 hd).1]; rfl
      | false =>
        obtain ⟨h1, h2⟩ := ih o a
        simp only [flushLoop]
        refine ⟨fun x hx => ?_, fun hd => ⟨?_, (h2 hd).2⟩⟩
        · rcases List.mem_cons.1 hx with rfl | hx
          · exact Or.inr (Or.inr ⟨_, C56_backoff_partial.2.1 a, rfl⟩)
          · rcases List.mem_cons.1 hx with rfl | hx
            · exact Or.inr (Or.inl rfl)
            · exact h1 x hx
        · rw [List.getLast?_cons, List.getLast?_cons, (h2 hd).1]; rfl
  obtain ⟨h1, h2⟩ := key os s.connected s.attempts
  refine ⟨_, _, _, rfl, rfl, rfl, ?_, ?_⟩
  · rw [hw]; exact h1
  · rw [hw]; exact h2

/-- **C80, one attempt, partial.**  An attempt never panics; when the socket accepts everything, it is taken for a success, and the
socket has got exactly the bytes of the batch, provided that protobuf passes on what it holds when its stream is dropped; an attempt is
taken for a failure only if the socket has failed; and of a batch taken for written the socket has accepted, in order, all but
16 KiB at most.  Missing: those last 16 KiB (`C80_unnoticed_false`). -/
theorem C80_attempt_partial (flushes : Bool) (sock : Native.Socket) (head : Bytes) (pieces : List Bytes) (hh : head.length = 4) :
    ∃ ok sent, attempt flushes sock head pieces = some (ok, sent) ∧
      ((∀ n, sock n = none) → ok = true ∧ (flushes = true → sent = head ++ pieces.flatten)) ∧
      (ok = false → ∃ n k, sock n = some k) ∧
      (ok = true → ∃ done, done <+: sent ∧ done <+: head ++ pieces.flatten ∧ (head ++ pieces.flatten).length ≤ done.length + 16384) := by
  have h0 : ({} : Attempt).codedWrite sock head = (true, { coded := head }) := by
    simp only [Attempt.codedWrite, if_pos (show ([] : Bytes).length + head.length ≤ BUF by rw [hh]; decide), List.nil_append]
  rcases hw : ({ coded := head } : Attempt).codedWrites sock pieces with ⟨ok, a⟩
  refine ⟨ok, (a.drop flushes sock).sent, by simp only [attempt, h0, hw], ?_, ?_, ?_⟩
  · intro hs
    obtain rfl : sock = fun _ => none := funext hs
    have := codedWrites_good pieces { coded := head }
    rw [hw] at this
    simp only at this
    subst this
    refine ⟨rfl, fun hf => ?_⟩
    subst hf
    rw [drop_good, (codedWrites_ok pieces hw).1]
    simp [Attempt.all]
  · intro ho
    subst ho
    refine Classical.byContradiction fun hn => ?_
    obtain rfl : sock = fun _ => none := funext fun n => by
      cases hk : sock n with
      | none => rfl
      | some k => exact absurd ⟨n, k, hk⟩ hn
    have := codedWrites_good pieces { coded := head }
    rw [hw] at this
    cases this
  · intro ho
    subst ho
    obtain ⟨h1, h2, h3⟩ := codedWrites_ok pieces hw
    have h2 := h2 (by simp only [hh]; decide)
    have h3 := h3 (by simp)
    refine ⟨a.sent, drop_sent flushes sock a, ?_, ?_⟩
    · have : head ++ pieces.flatten = a.sent ++ (a.buf ++ a.coded) := by
        have : a.all = head ++ pieces.flatten := by rw [h1]; simp [Attempt.all]
        rw [← this]; simp [Attempt.all]
      rw [this]; exact List.prefix_append _ _
    · have : (head ++ pieces.flatten).length = a.all.length := by rw [h1]; simp [Attempt.all]
      rw [this]
      simp only [Attempt.all, List.length_append, BUF] at h2 h3 ⊢
      omega

/-- **C80 is false of the code.**  A batch of up to 8 KiB on the wire is taken for written whatever the socket does: over a dead
connection the socket gets none of it, and the flush ends, with the batch gone and the connection kept. -/
theorem C80_unnoticed_false (bits : Bits F) (s : Sink F) (hc : s.connected = true) (head bs : Bytes) (pieces : List Bytes)
    (hw : FlushWrites bits s.tags s.buffer bs) (hb : bs = head ++ pieces.flatten) (hl : bs.length ≤ 8192)
    (flushes : Bool) (sock : Native.Socket) (hd : ∀ n, sock n = some 0) :
    ∃ ok, attempt flushes sock head pieces = some (ok, []) ∧ s.flush bits [ok] = ({ s with buffer := [] }, [.write bs], true) := by
  refine ⟨true, ?_, ?_⟩
  · have hl' : head.length + pieces.flatten.length ≤ BUF := by rw [hb] at hl; simpa [BUF] using hl
    have h0 : ({} : Attempt).codedWrite sock head = (true, { coded := head }) := by
      simp only [Attempt.codedWrite, if_pos (show ([] : Bytes).length + head.length ≤ BUF by simp only [List.length_nil]; omega), List.nil_append]
    simp only [attempt, h0, codedWrites_small sock pieces { coded := head } hl', drop_small flushes sock _ (show (head ++ pieces.flatten).length ≤ BUF by simpa using hl'), hd]
    simp
  · simp only [FlushWrites, flush_wire, Prod.mk.injEq, List.cons.injEq, Act.write.injEq, and_true] at hw
    simp only [Sink.flush, hc, hw, flushLoop]

/-- A batch of one line, over a dead connection. -/
example : FlushWrites (F := Int) { toBits := fun _ => 0, ofBits := fun _ => 0 } [] [.log { time := 7, path := "/x".toList, value := "hi".toList, fields := [], tags := none }]
    (be32 13 ++ ([[26, 11], [10, 2, 47, 120], [18, 2, 104, 105], [32, 216, 54]] : List Bytes).flatten) := by
  simp only [FlushWrites, flush_wire]; decide

/-- If protobuf's stream does not pass on what it holds when it is dropped, batches of up to 8 KiB are never sent at all. -/
theorem C80_undropped_false (sock : Native.Socket) (head : Bytes) (pieces : List Bytes) (hl : (head ++ pieces.flatten).length ≤ 8192) :
    attempt false sock head pieces = some (true, []) := by
  have hl' : head.length + pieces.flatten.length ≤ BUF := by simpa [BUF] using hl
  have h0 : ({} : Attempt).codedWrite sock head = (true, { coded := head }) := by
    simp only [Attempt.codedWrite, if_pos (show ([] : Bytes).length + head.length ≤ BUF by simp only [List.length_nil]; omega), List.nil_append]
  simp only [attempt, h0, codedWrites_small sock pieces { coded := head } hl', drop_small false sock _ (show (head ++ pieces.flatten).length ≤ BUF by simpa using hl')]
  simp

/-- Two bytes of a small batch reach a socket that fails, and the batch is taken for written. -/
example : attempt true (fun n => if n = 0 then some 2 else none) [0, 0, 0, 3] [[2], [3, 4]] = some (true, [0, 0]) := by decide +kernel

/-- A larger batch over a dead connection is noticed to have failed. -/
example (bs : Bytes) (h : 8192 ≤ bs.length) : (attempt true (fun _ => some 0) [0, 0, 0, 3] [bs]).map (·.1) = some false := by
  simp [attempt, Attempt.codedWrites, Attempt.codedWrite, Attempt.refresh, Attempt.bufWrite, Attempt.flushBuf, BUF,
    show ¬ (4 + bs.length ≤ 8192) by omega, show ¬ bs.length < 8192 by omega, show 8192 < 4 + bs.length by omega]

/-- However long the peer has been failing, one accepted connection followed by one accepted write
ends the flush. -/
theorem C80_recovers (bits : Bits F) (s : Sink F) (os : List Bool) :
    (s.flush bits (os ++ [true, true])).2.2 = true := by
  have key : ∀ (bs : Bytes) (os : List Bool) (c : Bool) (a : Nat),
      (flushLoop bs c a (os ++ [true, true])).2.2.2 = true := by
    intro bs os
    induction os with
    | nil => intro c a; cases c <;> rfl
    | cons o os ih =>
      intro c a
      cases c with
      | true => cases o with
        | true => rfl
        | false => exact ih false (satSucc a)
      | false => simp only [List.cons_append, flushLoop]; exact ih o a
  exact key _ os s.connected s.attempts

/-- The number of failed writes is what the next flush's delays start from: failures are never
forgotten, not even after a success. -/
theorem C80_attempts_partial (bits : Bits F) (s : Sink F) (os : List Bool) (bs : Bytes)
    (hw : FlushWrites bits s.tags s.buffer bs) (ha : s.attempts + os.length < 4294967295) :
    (s.flush bits os).1.attempts + (if (s.flush bits os).2.2 then 1 else 0) =
      s.attempts + (s.flush bits os).2.1.countP (fun x => decide (x = .write bs)) := by
  simp only [FlushWrites, flush_wire, Prod.mk.injEq, List.cons.injEq, Act.write.injEq, and_true] at hw
  have key : ∀ (os : List Bool) (c : Bool) (a : Nat), a + os.length < 4294967295 →
      (flushLoop bs c a os).2.1 + (if (flushLoop bs c a os).2.2.2 then 1 else 0) =
        a + (flushLoop bs c a os).2.2.1.countP (fun x => decide (x = .write bs)) := by
    intro os
    induction os with
    | nil => intro c a _; cases c <;> rfl
    | cons o os ih =>
      intro c a ha
      rw [List.length_cons] at ha
      cases c with
      | true => cases o with
        | true => simp [flushLoop]
        | false =>
          have hs : satSucc a = a + 1 := by simp only [satSucc, if_pos (show a < 4294967295 by omega)]
          have := ih false (a + 1) (by omega)
          rcases hfl : flushLoop bs false (a + 1) os with ⟨c', a', w', d'⟩
          simp only [hfl] at this
          simp only [flushLoop, hs, hfl, List.countP_cons_of_pos (p := fun x => decide (x = Act.write bs)) (decide_eq_true rfl)]
          omega
      | false =>
        have := ih o a (by omega)
        simp only [flushLoop]
        rw [List.countP_cons_of_neg (by simp), List.countP_cons_of_neg (by simp)]
        exact this
  have := key os s.connected s.attempts ha
  simp only [Sink.flush, hw]
  exact this

/-! ## C82: no input crashes the source -/

private theorem insertAll_some (xs : List F) : ∀ t : Telemetry F,
    t.overrideCount = none → t.overrideSampleSum = none → ∃ t', insertAll t xs = some t' := by
  induction xs with
  | nil => intro t _ _; exact ⟨t, rfl⟩
  | cons x xs ih =>
    intro t h1 h2
    simp only [insertAll, Telemetry.insert, h1, h2, Option.isSome_none, Bool.or_self,
      Bool.false_eq_true, if_false, Option.bind_some]
    exact ih _ rfl rfl

private theorem telemetryOf_some (bits : Bits F) (now : Int)
    (hh : (F64.histNew (F := F) [F64.ofNat 1, F64.ofNat 10, F64.ofNat 100, F64.ofNat 1000]).isSome)
    (p : Point) : ∃ r, telemetryOf bits now p = some r := by
  obtain ⟨h, hh⟩ := Option.isSome_iff_exists.1 hh
  simp only [telemetryOf]
  cases hs : p.samples.map bits.ofBits with
  | nil => exact ⟨_, rfl⟩
  | cons x xs =>
    simp only []
    have key : ∀ s : SoftTelemetry F, s.initialValue = some x → s.thawedValue = none →
        s.name.isSome → s.bounds = none → s.error = none → s.overrideCount = none →
        s.overrideSampleSum = none →
        ∃ t, s.harden now = .ok t ∧ t.overrideCount = none ∧ t.overrideSampleSum = none := by
      intro s h1 h2 h3 h4 h5 h6 h7
      obtain ⟨nm, hnm⟩ := Option.isSome_iff_exists.1 h3
      simp only [SoftTelemetry.harden, h1, h2, hnm, h4, h5, Option.isSome_some, Option.isSome_none,
        Bool.and_false, Bool.false_eq_true, if_false, Option.isNone_some, Bool.false_and,
        Option.getD_none, hh]
      cases s.kind.getD .set <;> exact ⟨_, rfl, by simp [SoftTelemetry.build, h6], by simp [SoftTelemetry.build, h7]⟩
    obtain ⟨t, ht, o1, o2⟩ := key
      { (Telemetry.new : SoftTelemetry F).setValue x with
        name := some (p.name.getD [])
        kind := some (kindOf (p.method.getD .summarize))
        persist := some (p.persisted.getD false)
        timestamp := some (milliToSec (p.timestampMs.getD 0)) } rfl rfl rfl rfl rfl rfl rfl
    rw [ht]
    simp only [foldl_overlay]
    obtain ⟨t', ht'⟩ := insertAll_some xs
      { t with tags := p.metadata.foldl (fun o kv => (insertTag o kv.1 kv.2).1) t.tags } o1 o2
    exact ⟨some t', by rw [ht']; rfl⟩

/-- No bytes a peer can send make the native source panic: the connection delivers events, is
refused or ends.  `hh` says that the sketch library accepts the four default bounds. -/
theorem C82_no_panic (bits : Bits F) (now : Int)
    (hh : (F64.histNew (F := F) [F64.ofNat 1, F64.ofNat 10, F64.ofNat 100, F64.ofNat 1000]).isSome)
    (fuel : Nat) (r : Wire.Reader) : (serve bits now fuel r).2 ≠ .panicked := by
  have htel : ∀ ps : List Point, ∃ ts, telemetriesOf bits now ps = some ts := by
    intro ps
    induction ps with
    | nil => exact ⟨[], rfl⟩
    | cons p ps ih =>
      obtain ⟨t, ht⟩ := telemetryOf_some bits now hh p
      obtain ⟨ts, hts⟩ := ih
      exact ⟨t.toList ++ ts, by simp only [telemetriesOf, ht, hts, Option.bind_some, Option.map_some]⟩
  have hnp : ∀ bs, handlePayload bits now bs ≠ .panic := by
    intro bs
    simp only [handlePayload]
    cases Payload.parse bs with
    | none => simp
    | some p =>
      obtain ⟨ts, hts⟩ := htel p.points
      simp [hts]
  induction fuel generalizing r with
  | zero => simp [serve]
  | succ fuel ih =>
    simp only [serve]
    rcases r.read with ⟨res, r'⟩
    cases res with
    | ok raw =>
      simp only []
      cases hp : handlePayload bits now raw with
      | panic => exact absurd hp (hnp raw)
      | reject => simp
      | events es => exact ih r'
    | error e =>
      cases e with
      | wouldBlock => exact ih r'
      | eof => simp
      | io => simp
      | protocol => simp
      | lengthTooLarge => simp

end

/-! ## Examples -/

/-- Non-negative integers as bits. -/
def intBits : Bits Int := { toBits := fun x => UInt64.ofNat x.toNat, ofBits := fun b => (b.toNat : Int) }

/-- A sum with a tag of its own, a summary of two samples and a log line. -/
def nativeBatch : List (Event Int) :=
  [.telemetry { name := "a".toList, value := .sum 5, persist := true, tags := some [("k".toList, "v".toList)], timestamp := 10, overrideCount := none, overrideSampleSum := none },
   .log { time := 11, path := "/x".toList, value := "hi".toList, fields := [], tags := none },
   .telemetry { name := "b".toList, value := .quantiles [3, 4] 7, persist := false, tags := none, timestamp := 12, overrideCount := none, overrideSampleSum := none }]

def nativeTags : TagMap := [("k".toList, "sink".toList), ("z".toList, "sink".toList)]

example : nativeTags.Ok ∧ nativeBatch ≠ [] ∧ ∀ e ∈ nativeBatch, SendOk intBits e := by
  refine ⟨by decide, by simp [nativeBatch], ?_⟩
  intro e he
  simp only [nativeBatch, List.mem_cons, List.not_mem_nil, or_false] at he
  rcases he with rfl | rfl | rfl
  · refine ⟨?_, ⟨by decide, by decide⟩, by decide, by decide, by decide, by decide⟩
    intro m hm
    simp only [Option.some.injEq] at hm
    subst hm; decide
  · exact ⟨by simp, by decide, by decide⟩
  · exact ⟨by simp, ⟨by decide, by decide⟩, by decide, by decide, by decide, by decide⟩

/-- The frame of that batch, cut in two and with a pause inside, arrives whole. -/
example : ∃ p, FlushWrites intBits nativeTags nativeBatch (Wire.frame p) ∧ p.length ≤ maxPayload ∧
    Wire.Framed [p] (Wire.symsOf
      [.data ((Wire.frame p).take 6), .wouldBlock, .data ((Wire.frame p).drop 6)]) := by
  refine ⟨(payloadOf intBits nativeTags nativeBatch).write, ?_, by decide +kernel, ?_⟩
  · show ([Act.write _], true) = ([Act.write _], true)
    decide +kernel
  have := Wire.Framed.frame (ps := []) (s := [])
    (payloadOf intBits nativeTags nativeBatch).write
    (((payloadOf intBits nativeTags nativeBatch).write.take 2).map .byte ++ [.block] ++
      ((payloadOf intBits nativeTags nativeBatch).write.drop 2).map .byte)
    (by decide +kernel) (by
      intro x hx
      simp only [List.mem_append, List.mem_map, List.mem_singleton] at hx
      rcases hx with (⟨b, _, rfl⟩ | rfl) | ⟨b, _, rfl⟩
      · exact Or.inr ⟨b, rfl⟩
      · exact Or.inl rfl
      · exact Or.inr ⟨b, rfl⟩) .done
  have he : ∀ p : Bytes, Wire.symsOf [.data ((Wire.frame p).take 6), .wouldBlock, .data ((Wire.frame p).drop 6)] =
      (Wire.be 4 p.length).map .byte ++ ((p.take 2).map .byte ++ [.block] ++ (p.drop 2).map .byte) ++ [] := by
    intro p
    simp [Wire.symsOf, Wire.NetItem.syms, Wire.frame, Wire.be]
  rw [he]; exact this

/-- An idle flush between two batches: only the first one arrives. -/
example : Each (fun b p => FlushWrites intBits nativeTags b (Wire.frame p)) [nativeBatch, [], nativeBatch]
      [(payloadOf intBits nativeTags nativeBatch).write, [], (payloadOf intBits nativeTags nativeBatch).write] ∧
    ([nativeBatch, [], nativeBatch].takeWhile fun b => !b.isEmpty) = [nativeBatch] := by
  have h : FlushWrites intBits nativeTags nativeBatch (Wire.frame (payloadOf intBits nativeTags nativeBatch).write) := by
    show ([Act.write _], true) = ([Act.write _], true)
    decide +kernel
  refine ⟨.cons h (.cons ?_ (.cons h .nil)), rfl⟩
  show ([Act.write _], true) = ([Act.write _], true)
  decide +kernel

/-- A summary of 16 samples meets the hypotheses of `C55_sample_count_false`. -/
def nativeBad : List (Event Int) :=
  nativeBatch ++ [.telemetry { name := "c".toList, value := .quantiles (List.replicate 16 1) 16, persist := false, tags := none, timestamp := 1, overrideCount := none, overrideSampleSum := none }]

example : (∃ t, .telemetry t ∈ nativeBad ∧ ¬ GoodCount t.samples.length) ∧
    ∃ bs, FlushWrites intBits nativeTags nativeBad bs ∧ bs.length ≤ maxPayload := by
  refine ⟨⟨_, by simp only [nativeBad, List.mem_append, List.mem_singleton]; exact Or.inr rfl, by decide⟩,
    _, rfl, by decide +kernel⟩

/-- Disagreement: a histogram's bin counts arrive as if they were samples, so that the number of
samples and the bins change. -/
theorem C55_histogram_false : ∃ (t t' : Telemetry Int) (now : Int),
    telemetryOf intBits now (pointOf intBits [] t) = some (some t') ∧ t.kind = .histogram ∧
    t'.kind = .histogram ∧ t.count = 4 ∧ t'.count ≠ t.count ∧ t'.bins ≠ t.bins :=
  ⟨{ name := ['h'], value := .histogram ⟨[1, 10], [0, 0, 5, 50]⟩, persist := false, tags := none, timestamp := 1, overrideCount := none, overrideSampleSum := none },
   _, 0, rfl, rfl, rfl, by decide, by decide, by decide⟩

/-- Two failed writes and a refused connection, then success. -/
example : (Sink.mk nativeBatch 0 true nativeTags).flush intBits [false, true, false, false, true, true] =
    (⟨[], 2, true, nativeTags⟩,
      let w := Act.write (wire (payloadOf intBits nativeTags nativeBatch))
      [w, .delay 1, .connect, w, .delay 4, .connect, .delay 4, .connect, w], true) := rfl

example : (F64.histNew (F := Int) [F64.ofNat 1, F64.ofNat 10, F64.ofNat 100, F64.ofNat 1000]).isSome := rfl

end Verif
