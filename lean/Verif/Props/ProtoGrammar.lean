import Verif.Lemmas.ProtoGrammar
import Verif.Props.Native
/-!
# C111: what the native source makes of any bytes
-/
namespace Verif
open Proto Native

/-- **C111.**  Bytes are read as a payload exactly if they are one, and what is read is what they say. -/
theorem C111_read (bs : Bytes) (p : Payload) : Payload.parse bs = some p ↔ IsPayload bs p := parse_iff bs p

/-- Bytes say one thing at most. -/
theorem C111_unambiguous (bs : Bytes) (p q : Payload) (hp : IsPayload bs p) (hq : IsPayload bs q) : p = q := by
  have h1 := (C111_read bs p).2 hp
  rw [(C111_read bs q).2 hq] at h1
  exact (Option.some.inj h1).symm

private theorem set_fold_ok (kvs : List (Str × Str)) : ∀ m : TagMap, m.Ok → (kvs.foldl (fun (m : TagMap) kv => TagMap.set m kv.1 kv.2) m).Ok := by
  induction kvs with
  | nil => exact fun m h => h
  | cons kv kvs ih => exact fun m h => ih _ (h.set _ _)

private theorem tags_get (m : TagMap) (hm : m.Ok) (k : Str) : getFromTags (m.foldl (fun o kv => (insertTag o kv.1 kv.2).1) none) k [] = m.get k := by
  rw [foldl_insertTag]
  simp only
  split
  · next h => simp [h, getFromTags]
  · simp only [getFromTags, setAll_nil _ hm]
    cases m.get k <;> rfl

section
variable {F : Type} [F64 F]

private theorem insertAll_set (xs : List F) : ∀ (t : Telemetry F) (y : F), t.value = .set y → t.overrideCount = none → t.overrideSampleSum = none →
    insertAll t xs = some { t with value := .set (xs.getLast?.getD y) } := by
  induction xs with
  | nil => intro t y h1 _ _; simp [insertAll, ← h1]
  | cons x xs ih =>
    intro t y h1 h2 h3
    simp only [insertAll, Telemetry.insert, h1, h2, h3, Option.isSome_none, Bool.or_self, Bool.false_eq_true, if_false, Option.bind_some]
    rw [ih _ x rfl rfl rfl, getLast_cons_getD]

private theorem insertAll_sum (xs : List F) : ∀ (t : Telemetry F) (y : F), t.value = .sum y → t.overrideCount = none → t.overrideSampleSum = none →
    insertAll t xs = some { t with value := .sum (xs.foldl F64.add y) } := by
  induction xs with
  | nil => intro t y h1 _ _; simp [insertAll, ← h1]
  | cons x xs ih =>
    intro t y h1 h2 h3
    simp only [insertAll, Telemetry.insert, h1, h2, h3, Option.isSome_none, Bool.or_self, Bool.false_eq_true, if_false, Option.bind_some]
    rw [ih _ (F64.add y x) rfl rfl rfl]
    rfl

private theorem insertAll_hist (xs : List F) : ∀ (t : Telemetry F) (h : F64.Hist F), t.value = .histogram h → t.overrideCount = none → t.overrideSampleSum = none →
    insertAll t xs = some { t with value := .histogram (xs.foldl F64.histInsert h) } := by
  induction xs with
  | nil => intro t y h1 _ _; simp [insertAll, ← h1]
  | cons x xs ih =>
    intro t y h1 h2 h3
    simp only [insertAll, Telemetry.insert, h1, h2, h3, Option.isSome_none, Bool.or_self, Bool.false_eq_true, if_false, Option.bind_some]
    rw [ih _ (F64.histInsert y x) rfl rfl rfl]
    rfl

private theorem received (bits : Bits F) (now : Int) (hh : (F64.histNew (F := F) [F64.ofNat 1, F64.ofNat 10, F64.ofNat 100, F64.ofNat 1000]).isSome)
    (p : Point) (hm : p.metadata.Ok) (hs : p.samples ≠ []) : ∃ t, telemetryOf bits now p = some (some t) ∧ Received bits p t := by
  obtain ⟨h, hh⟩ := Option.isSome_iff_exists.1 hh
  have ht : ∀ ms, ms = p.timestampMs.getD 0 → -2251799813685248 ≤ ms → ms ≤ 2251799813685248 →
      milliToSec (p.timestampMs.getD 0) = ms.tdiv 1000 := by
    rintro ms rfl h1 h2; exact milliToSec_eq _ (by omega)
  have htag := tags_get p.metadata hm
  cases hx : p.samples.map bits.ofBits with
  | nil => exact absurd (by simpa using hx) hs
  | cons x xs =>
    simp only [telemetryOf, hx]
    cases hk : p.method.getD .summarize with
    | set =>
      simp only [kindOf, SoftTelemetry.harden, Telemetry.new, SoftTelemetry.setValue, Option.isSome_some, Option.isSome_none, Bool.and_false,
        Bool.false_eq_true, if_false, Option.isNone_some, Bool.false_and, foldl_overlay, Option.getD_some]
      rw [insertAll_set xs _ _ rfl rfl rfl]
      exact ⟨_, rfl, rfl, rfl, htag, ht, ⟨x, xs, hx, by rw [hk]; rfl⟩, rfl, rfl⟩
    | sum =>
      simp only [kindOf, SoftTelemetry.harden, Telemetry.new, SoftTelemetry.setValue, Option.isSome_some, Option.isSome_none, Bool.and_false,
        Bool.false_eq_true, if_false, Option.isNone_some, Bool.false_and, foldl_overlay, Option.getD_some]
      rw [insertAll_sum xs _ _ rfl rfl rfl]
      exact ⟨_, rfl, rfl, rfl, htag, ht, ⟨x, xs, hx, by rw [hk]; rfl⟩, rfl, rfl⟩
    | summarize =>
      simp only [kindOf, SoftTelemetry.harden, Telemetry.new, SoftTelemetry.setValue, Option.isSome_some, Option.isSome_none, Bool.and_false,
        Bool.false_eq_true, if_false, Option.isNone_some, Bool.false_and, foldl_overlay, Option.getD_some]
      rw [insertAll_quantiles xs _ _ _ rfl rfl rfl]
      exact ⟨_, rfl, rfl, rfl, htag, ht, ⟨x, xs, hx, by rw [hk]; rfl⟩, rfl, rfl⟩
    | bin =>
      simp only [kindOf, SoftTelemetry.harden, Telemetry.new, SoftTelemetry.setValue, Option.isSome_some, Option.isSome_none, Bool.and_false,
        Bool.false_eq_true, if_false, Option.isNone_some, Bool.false_and, foldl_overlay, Option.getD_some, Option.getD_none, hh]
      rw [insertAll_hist xs _ _ rfl rfl rfl]
      exact ⟨_, rfl, rfl, rfl, htag, ht, ⟨x, xs, hx, by rw [hk]; exact ⟨h, hh, rfl⟩⟩, rfl, rfl⟩

private theorem receivedLine (now : Int) (p : Proto.Line) (hm : p.metadata.Ok) : ReceivedLine p (logOf now p) := by
  simp only [logOf, LogLine.new, foldl_logtags]
  exact ⟨rfl, rfl, tags_get p.metadata hm, by rintro ms rfl h1 h2; exact milliToSec_eq _ (by omega), rfl⟩

private theorem each_ok {α β : Type} {R : α → β → Prop} {P : β → Prop} (h : ∀ a b, R a b → P b) : ∀ {as : List α} {bs : List β}, Each R as bs → ∀ b ∈ bs, P b := by
  intro as bs he
  induction he with
  | nil => simp
  | cons h1 _ ih =>
    intro b hb
    rcases List.mem_cons.1 hb with rfl | hb
    · exact h _ _ h1
    · exact ih b hb

/-- **C111.**  The native source refuses exactly the payloads that are not well-formed messages; of one that is, every point with
samples and every line becomes an event, in order, the points first, and says what the message says.  `hh` says that the sketch library
accepts the four default bounds. -/
theorem C111_source (bits : Bits F) (now : Int) (hh : (F64.histNew (F := F) [F64.ofNat 1, F64.ofNat 10, F64.ofNat 100, F64.ofNat 1000]).isSome)
    (bs : Bytes) :
    (handlePayload bits now bs = .reject ↔ ¬ ∃ p, IsPayload bs p) ∧
    ∀ p, IsPayload bs p → ∃ ts ls, handlePayload bits now bs = .events (ts.map .telemetry ++ ls.map .log) ∧
      Each (Received bits) (p.points.filter fun x => x.samples ≠ []) ts ∧ Each ReceivedLine p.lines ls := by
  have tel : ∀ ps : List Point, (∀ p ∈ ps, p.metadata.Ok) → ∃ ts, telemetriesOf bits now ps = some ts ∧
      Each (Received bits) (ps.filter fun x => x.samples ≠ []) ts := by
    intro ps
    induction ps with
    | nil => intro _; exact ⟨[], rfl, .nil⟩
    | cons p ps ih =>
      intro hok
      obtain ⟨ts, h1, h2⟩ := ih fun q hq => hok q (by simp [hq])
      by_cases hs : p.samples = []
      · have : telemetryOf bits now p = some none := by simp [telemetryOf, hs]
        refine ⟨ts, by simp [telemetriesOf, this, h1], ?_⟩
        rw [List.filter_cons_of_neg (by simp [hs])]; exact h2
      · obtain ⟨t, h3, h4⟩ := received bits now hh p (hok p (by simp)) hs
        refine ⟨t :: ts, by simp [telemetriesOf, h3, h1], ?_⟩
        rw [List.filter_cons_of_pos (by simp [hs])]; exact .cons h4 h2
  have lin : ∀ ps : List Proto.Line, (∀ p ∈ ps, p.metadata.Ok) → Each ReceivedLine ps (ps.map (logOf now)) := by
    intro ps
    induction ps with
    | nil => intro _; exact .nil
    | cons p ps ih => intro hok; exact .cons (receivedLine now p (hok p (by simp))) (ih fun q hq => hok q (by simp [hq]))
  have ok : ∀ p, IsPayload bs p → ∃ ts ls, handlePayload bits now bs = .events (ts.map .telemetry ++ ls.map .log) ∧
      Each (Received bits) (p.points.filter fun x => x.samples ≠ []) ts ∧ Each ReceivedLine p.lines ls := by
    intro p hp
    obtain ⟨xs, _, e2, e3⟩ := id hp
    have m2 : ∀ x ∈ p.points, x.metadata.Ok := each_ok (by
      rintro c x ⟨b, ys, _, _, _, _, _, _, ⟨kvs, _, hk⟩, _⟩
      rw [hk]; exact set_fold_ok _ _ (by simp [TagMap.Ok])) e2
    have m3 : ∀ x ∈ p.lines, x.metadata.Ok := each_ok (by
      rintro c x ⟨b, ys, _, _, _, _, ⟨kvs, _, hk⟩, _⟩
      rw [hk]; exact set_fold_ok _ _ (by simp [TagMap.Ok])) e3
    obtain ⟨ts, h1, h2⟩ := tel p.points m2
    refine ⟨ts, p.lines.map (logOf now), ?_, h2, lin p.lines m3⟩
    simp only [handlePayload, (C111_read bs p).2 hp, h1, List.map_map]
    rfl
  refine ⟨?_, ok⟩
  constructor
  · rintro h ⟨p, hp⟩
    obtain ⟨ts, ls, he, _⟩ := ok p hp
    rw [he] at h; simp at h
  · intro h
    have : Payload.parse bs = none := by
      cases hp : Payload.parse bs with
      | none => rfl
      | some p => exact absurd ⟨p, (C111_read bs p).1 hp⟩ h
    simp [handlePayload, this]

end

/-! ## Examples -/

/-- A message of a client that repeats the name, packs nothing, writes a number longer than need be and has a field of its own. -/
def oddMessage : Bytes :=
  [18, 31, 10, 1, 97, 17, 0, 0, 0, 0, 0, 0, 0, 0, 17, 1, 0, 0, 0, 0, 0, 0, 0, 10, 1, 98, 32, 0x81, 0x80, 0, 120, 7]

example : Payload.parse oddMessage = none := by decide +kernel

/-- The same with the right length. -/
def oddMessage' : Bytes :=
  [18, 30, 10, 1, 97, 17, 0, 0, 0, 0, 0, 0, 0, 0, 17, 1, 0, 0, 0, 0, 0, 0, 0, 10, 1, 98, 32, 0x81, 0x80, 0, 120, 7]

example : IsPayload oddMessage' { points := [{ name := some "b".toList, samples := [0, 1], method := some .sum }] } :=
  (C111_read _ _).1 (by decide +kernel)

/-- Field number zero, wire types 3, 4, 6 and 7, a name that is not UTF-8, a name that is a number, a method 5, half a double: refused. -/
example : ∀ bs ∈ [[0, 0], [123], [124], [126], [127], [18, 3, 10, 1, 255], [18, 2, 8, 1], [18, 2, 32, 5], [18, 5, 17, 0, 0, 0, 0],
    ([18, 6, 18, 4, 0, 0, 0, 0] : Bytes)], ¬ ∃ p, IsPayload bs p := by
  intro bs hb
  rintro ⟨p, hp⟩
  have := (C111_read bs p).2 hp
  simp only [List.mem_cons, List.not_mem_nil, or_false] at hb
  rcases hb with rfl | rfl | rfl | rfl | rfl | rfl | rfl | rfl | rfl | rfl <;> revert this <;>
    (intro h; rw [show Payload.parse _ = none by decide +kernel] at h; simp at h)

end Verif
