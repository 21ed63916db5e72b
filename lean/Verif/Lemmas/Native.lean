import Verif.Spec.Native
import Verif.Lemmas.Proto
import Verif.Lemmas.Wire
import Verif.Props.Tags
/-! # Lemmas about the native sink and source -/
namespace Verif.Native
open Proto

/-! ## Times -/

theorem round53_bounds (p e : Nat) (he : p < 2 ^ (53 + e)) :
    ∃ d, d ≤ e ∧ p / 2 ^ d * 2 ^ d ≤ round53 p ∧ round53 p ≤ p + 2 ^ d := by
  simp only [round53]
  split
  · next h => exact ⟨0, by omega, by simp, by omega⟩
  · next h =>
    have hp : p ≠ 0 := by omega
    have hl : p.log2 < 53 + e := (Nat.log2_lt hp).2 he
    refine ⟨p.log2 - 52, by omega, ?_, ?_⟩
    · split
      · exact Nat.mul_le_mul_right _ (by omega)
      · exact Nat.le_refl _
    · have hdm := Nat.div_add_mod p (2 ^ (p.log2 - 52))
      have hc : p / 2 ^ (p.log2 - 52) * 2 ^ (p.log2 - 52) =
          2 ^ (p.log2 - 52) * (p / 2 ^ (p.log2 - 52)) := Nat.mul_comm _ _
      split
      · rw [Nat.add_mul, Nat.one_mul]; omega
      · omega

theorem round53_small (p : Nat) (h : p < 9007199254740992) : round53 p = p := by
  simp only [round53, if_pos h]

theorem seconds (ms : Nat) (h : ms ≤ 2251799813685248) :
    round53 (round53 ms * 1152921504606847) / 1152921504606846976 = ms / 1000 := by
  rw [round53_small ms (by omega)]
  have hp : ms * 1152921504606847 < 2 ^ (53 + 49) := by
    have : (2 : Nat) ^ (53 + 49) = 5070602400912917605986812821504 := by decide
    omega
  obtain ⟨d, hd, h1, h2⟩ := round53_bounds _ 49 hp
  have hpow : 2 ^ d ≤ 2 ^ 49 := Nat.pow_le_pow_right (by omega) hd
  have h49 : (2 : Nat) ^ 49 = 562949953421312 := by decide
  have h60 : (2 : Nat) ^ (60 - d) * 2 ^ d = 1152921504606846976 := by
    rw [← Nat.pow_add, Nat.sub_add_cancel (by omega)]
  -- lower bound: a multiple of 2^60 survives
  have hlow : ms / 1000 * 1152921504606846976 ≤ round53 (ms * 1152921504606847) := by
    refine Nat.le_trans ?_ h1
    rw [← h60, ← Nat.mul_assoc]
    refine Nat.mul_le_mul_right _ ?_
    rw [Nat.le_div_iff_mul_le (by exact Nat.two_pow_pos d), Nat.mul_assoc, h60]
    omega
  have hup : round53 (ms * 1152921504606847) < (ms / 1000 + 1) * 1152921504606846976 := by
    omega
  generalize round53 (ms * 1152921504606847) = r at hlow hup
  generalize ms / 1000 = k at hlow hup
  omega

theorem milliToSec_eq (ms : Int) (h : ms.natAbs ≤ 2251799813685248) :
    milliToSec ms = ms.tdiv 1000 := by
  simp only [milliToSec, seconds ms.natAbs h]
  by_cases hn : ms < 0
  · rw [if_pos hn]
    obtain ⟨n, rfl⟩ : ∃ n : Nat, ms = -(n : Int) := ⟨ms.natAbs, by omega⟩
    rw [Int.neg_tdiv]
    simp [Int.natAbs_neg]
  · rw [if_neg hn]
    obtain ⟨n, rfl⟩ : ∃ n : Nat, ms = (n : Int) := ⟨ms.natAbs, by omega⟩
    simp

theorem mulI64_ok (t : Int) (h : TimeOk t) : mulI64 t 1000 = t * 1000 := by
  obtain ⟨h1, h2⟩ := h
  exact toI64_ofI64 _ ⟨by omega, by omega⟩

theorem milliToSec_mul (t : Int) (h : TimeOk t) : milliToSec (mulI64 t 1000) = t := by
  rw [mulI64_ok t h]
  obtain ⟨h1, h2⟩ := h
  rw [milliToSec_eq _ (by omega), Int.mul_tdiv_cancel _ (by omega)]

theorem mulI64_range (a b : Int) : InI64 (mulI64 a b) := by
  have := ofI64_lt (a * b)
  simp only [mulI64, toI64, InI64]
  generalize ofI64 (a * b) = n at this
  by_cases hn : n < 9223372036854775808
  · simp only [if_pos hn]; omega
  · simp only [if_neg hn]; omega

/-! ## Tags -/

theorem foldl_insertTag (m : TagMap) : ∀ own : Option TagMap,
    (m.foldl (fun o kv => (insertTag o kv.1 kv.2).1) own) =
      match own with
      | some x => some (x.setAll m)
      | none => if m = [] then none else some (TagMap.setAll [] m) := by
  induction m with
  | nil => intro own; cases own <;> simp [TagMap.setAll]
  | cons kv m ih =>
    intro own
    cases own with
    | none =>
      rw [List.foldl_cons, ih]
      simp [insertTag, TagMap.setAll]
    | some x =>
      rw [List.foldl_cons, ih]
      simp [insertTag, TagMap.setAll]

theorem collect_nodup (own : Option TagMap) (defaults : TagMap) (ho : OwnOk own)
    (hd : defaults.Ok) : TagMap.Ok (tagIter own defaults).collect := by
  obtain ⟨out, ⟨N, hN⟩, h2, _⟩ := C01_tag_layering own defaults ho hd
  have h3 := hN (max N (tagIter own defaults).fuel) (Nat.le_max_left _ _)
  rw [TagIter.take_collect own defaults _ (Nat.le_max_right _ _)] at h3
  rw [h3]; exact h2

theorem collect_get (own : Option TagMap) (defaults : TagMap) (ho : OwnOk own)
    (hd : defaults.Ok) (k : Str) :
    TagMap.get (tagIter own defaults).collect k = getFromTags own k defaults := by
  have hnd := collect_nodup own defaults ho hd
  obtain ⟨out, ⟨N, hN⟩, h2, _, h4⟩ := C01_tag_layering own defaults ho hd
  have h3 := hN (max N (tagIter own defaults).fuel) (Nat.le_max_left _ _)
  rw [TagIter.take_collect own defaults _ (Nat.le_max_right _ _)] at h3
  rw [h3] at hnd ⊢
  cases hg : getFromTags own k defaults with
  | some v => exact (TagMap.get_iff_mem hnd).2 ((h4 k v).2 hg)
  | none =>
    rw [TagMap.get_eq_none]
    intro v hv
    rw [(h4 k v).1 hv] at hg
    simp at hg

theorem received_tags (own : Option TagMap) (defaults : TagMap) (ho : OwnOk own)
    (hd : defaults.Ok) (k : Str) :
    getFromTags ((TagMap.setAll [] (tagIter own defaults).collect).foldl
      (fun o kv => (insertTag o kv.1 kv.2).1) none) k [] = getFromTags own k defaults := by
  have hnd := collect_nodup own defaults ho hd
  rw [setAll_nil _ hnd, foldl_insertTag, ← collect_get own defaults ho hd]
  simp only
  split
  · next h => simp [h, getFromTags]
  · simp only [getFromTags, setAll_nil _ hnd]
    cases TagMap.get (tagIter own defaults).collect k <;> rfl

section
variable {F : Type} [F64 F]

/-! ## Points -/

theorem foldl_overlay (m : TagMap) (t : Telemetry F) :
    m.foldl (fun t kv => t.overlayTag kv.1 kv.2) t =
      { t with tags := m.foldl (fun o kv => (insertTag o kv.1 kv.2).1) t.tags } := by
  induction m generalizing t with
  | nil => rfl
  | cons kv m ih => simp only [List.foldl_cons, ih]; rfl

theorem insertAll_quantiles (xs : List F) : ∀ (t : Telemetry F) (c : F64.Ckms F) (s : F),
    t.value = .quantiles c s → t.overrideCount = none → t.overrideSampleSum = none →
    insertAll t xs = some { t with value := .quantiles (xs.foldl F64.ckmsInsert c) (xs.foldl F64.add s) } := by
  induction xs with
  | nil => intro t c s h1 _ _; simp [insertAll, ← h1]
  | cons x xs ih =>
    intro t c s h1 h2 h3
    simp only [insertAll, Telemetry.insert, h1, h2, h3, Option.isSome_none, Bool.or_self,
      Bool.false_eq_true, if_false, Option.bind_some]
    rw [ih _ (F64.ckmsInsert c x) (F64.add s x) rfl rfl rfl]
    rfl

omit [F64 F] in
theorem map_bits (bits : Bits F) (l : List F) (h : ∀ x ∈ l, bits.ofBits (bits.toBits x) = x) :
    (l.map bits.toBits).map bits.ofBits = l := by
  rw [List.map_map]
  conv => rhs; rw [← List.map_id l]
  exact List.map_congr_left fun x hx => by simp [h x hx]

theorem telemetryOf_pointOf (bits : Bits F) (now : Int) (tags : TagMap) (hd : tags.Ok)
    (t : Telemetry F) (h : SendOk bits (.telemetry t)) :
    ∃ t', telemetryOf bits now (pointOf bits tags t) = some (some t') ∧ Arrives tags t t' := by
  obtain ⟨ho, htime, hkind, hne, _, hbits⟩ := h
  have hs : (pointOf bits tags t).samples.map bits.ofBits = t.samples :=
    map_bits bits t.samples hbits
  have hts : milliToSec ((pointOf bits tags t).timestampMs.getD 0) = t.timestamp :=
    milliToSec_mul _ htime
  have htags := received_tags t.tags tags ho hd
  simp only [telemetryOf, hs]
  cases hv : t.value with
  | histogram h => exact absurd (by simp [Telemetry.kind, hv, Value.kind]) hkind
  | set x =>
    have h1 : t.samples = [x] := by simp [Telemetry.samples, hv]
    have h2 : t.kind = .set := by simp [Telemetry.kind, hv, Value.kind]
    simp only [h1, hts]
    simp only [pointOf, h2, methodOf, kindOf, Option.getD_some, SoftTelemetry.harden, Telemetry.new,
      SoftTelemetry.setValue, Option.isSome_some, Option.isSome_none, Bool.and_false,
      Bool.false_eq_true, if_false, Option.isNone_some, Bool.false_and, foldl_overlay, insertAll,
      Option.map_some]
    refine ⟨_, rfl, ⟨rfl, by simp [Telemetry.kind, SoftTelemetry.build, Value.kind, hv], rfl, rfl, ?_, ?_⟩⟩
    · intro k; exact htags k
    · simp [hv, SoftTelemetry.build]
  | sum x =>
    have h1 : t.samples = [x] := by simp [Telemetry.samples, hv]
    have h2 : t.kind = .sum := by simp [Telemetry.kind, hv, Value.kind]
    simp only [h1, hts]
    simp only [pointOf, h2, methodOf, kindOf, Option.getD_some, SoftTelemetry.harden, Telemetry.new,
      SoftTelemetry.setValue, Option.isSome_some, Option.isSome_none, Bool.and_false,
      Bool.false_eq_true, if_false, Option.isNone_some, Bool.false_and, foldl_overlay, insertAll,
      Option.map_some]
    refine ⟨_, rfl, ⟨rfl, by simp [Telemetry.kind, SoftTelemetry.build, Value.kind, hv], rfl, rfl, ?_, ?_⟩⟩
    · intro k; exact htags k
    · simp [hv, SoftTelemetry.build]
  | quantiles c s =>
    have h2 : t.kind = .summarize := by simp [Telemetry.kind, hv, Value.kind]
    have h3 : F64.ckmsIntoVec c = t.samples := by simp [Telemetry.samples, hv]
    match h1 : t.samples with
    | [] => exact absurd h1 hne
    | x :: xs =>
    simp only [hts]
    simp only [pointOf, h2, methodOf, kindOf, Option.getD_some, SoftTelemetry.harden, Telemetry.new,
      SoftTelemetry.setValue, Option.isSome_some, Option.isSome_none, Bool.and_false,
      Bool.false_eq_true, if_false, Option.isNone_some, Bool.false_and, foldl_overlay]
    rw [insertAll_quantiles xs _ _ _ rfl rfl rfl]
    refine ⟨_, rfl, ⟨rfl, by simp [Telemetry.kind, Value.kind, hv], rfl, rfl, ?_, ?_⟩⟩
    · intro k; exact htags k
    · simp only [hv]
      exact ⟨x, xs, by rw [h3, h1], rfl⟩

theorem foldl_logtags (m : TagMap) (l : LogLine) :
    m.foldl (fun l kv => { l with tags := (insertTag l.tags kv.1 kv.2).1 }) l =
      { l with tags := m.foldl (fun o kv => (insertTag o kv.1 kv.2).1) l.tags } := by
  induction m generalizing l with
  | nil => rfl
  | cons kv m ih => simp only [List.foldl_cons, ih]

theorem logOf_lineOf (now : Int) (tags : TagMap) (hd : tags.Ok) (l : LogLine)
    (h : (∀ m, l.tags = some m → m.Ok) ∧ TimeOk l.time) :
    LineArrives tags l (logOf now (lineOf tags l)) := by
  obtain ⟨ho, ht⟩ := h
  simp only [logOf, lineOf, LogLine.new, foldl_logtags, Option.getD_some]
  exact ⟨rfl, rfl, milliToSec_mul _ ht, fun k => received_tags l.tags tags ho hd k⟩

theorem telemetriesOf_points (bits : Bits F) (now : Int) (tags : TagMap) (hd : tags.Ok)
    (evs : List (Event F)) (h : ∀ e ∈ evs, SendOk bits e) :
    ∃ ts, telemetriesOf bits now (payloadOf bits tags evs).points = some ts ∧
      Each (Arrives tags) (telemetries evs) ts := by
  induction evs with
  | nil => exact ⟨[], rfl, .nil⟩
  | cons e evs ih =>
    obtain ⟨ts, h1, h2⟩ := ih fun x hx => h x (by simp [hx])
    have he := h e (by simp)
    cases e with
    | telemetry t =>
      obtain ⟨t', h3, h4⟩ := telemetryOf_pointOf bits now tags hd t he
      refine ⟨t' :: ts, ?_, .cons h4 h2⟩
      simp only [payloadOf] at h1
      simp only [payloadOf, List.filterMap_cons, telemetriesOf, h3, Option.bind_some, h1,
        Option.map_some, Option.toList_some, List.cons_append, List.nil_append]
    | log l => exact ⟨ts, h1, h2⟩
    | timerFlush i => exact he.elim
    | shutdown => exact he.elim
    | raw r => exact he.elim

theorem logs_lines (bits : Bits F) (now : Int) (tags : TagMap) (hd : tags.Ok)
    (evs : List (Event F)) (h : ∀ e ∈ evs, SendOk bits e) :
    Each (LineArrives tags) (logs evs) ((payloadOf bits tags evs).lines.map (logOf now)) := by
  induction evs with
  | nil => exact .nil
  | cons e evs ih =>
    have h2 := ih fun x hx => h x (by simp [hx])
    have he := h e (by simp)
    cases e with
    | log l => exact .cons (logOf_lineOf now tags hd l he) h2
    | telemetry t => exact h2
    | timerFlush i => exact he.elim
    | shutdown => exact he.elim
    | raw r => exact he.elim

theorem pointOf_valid (bits : Bits F) (tags : TagMap) (hd : tags.Ok) (t : Telemetry F)
    (ho : OwnOk t.tags) : (pointOf bits tags t).Valid := by
  refine ⟨?_, ?_⟩
  · simp only [pointOf, Telemetry.iterTags]
    rw [setAll_nil _ (collect_nodup _ _ ho hd)]; exact collect_nodup _ _ ho hd
  · intro x hx; simp only [pointOf, Option.some.injEq] at hx; rw [← hx]; exact mulI64_range _ _

theorem lineOf_valid (tags : TagMap) (hd : tags.Ok) (l : LogLine)
    (ho : OwnOk l.tags) : (lineOf tags l).Valid := by
  refine ⟨?_, ?_⟩
  · simp only [lineOf]
    rw [setAll_nil _ (collect_nodup _ _ ho hd)]; exact collect_nodup _ _ ho hd
  · intro x hx; simp only [lineOf, Option.some.injEq] at hx; rw [← hx]; exact mulI64_range _ _

theorem mem_points (bits : Bits F) (tags : TagMap) (evs : List (Event F)) (x : Point)
    (h : x ∈ (payloadOf bits tags evs).points) :
    ∃ t, .telemetry t ∈ evs ∧ x = pointOf bits tags t := by
  simp only [payloadOf, List.mem_filterMap] at h
  obtain ⟨e, he, hx⟩ := h
  cases e <;> simp at hx
  exact ⟨_, he, hx.symm⟩

theorem mem_lines (bits : Bits F) (tags : TagMap) (evs : List (Event F)) (x : Line)
    (h : x ∈ (payloadOf bits tags evs).lines) :
    ∃ l, .log l ∈ evs ∧ x = lineOf tags l := by
  simp only [payloadOf, List.mem_filterMap] at h
  obtain ⟨e, he, hx⟩ := h
  cases e <;> simp at hx
  exact ⟨_, he, hx.symm⟩

/-- The tags of a batch are maps. -/
def TagsOk : Event F → Prop
  | .telemetry t => OwnOk t.tags
  | .log l => OwnOk l.tags
  | _ => True

theorem payloadOf_valid (bits : Bits F) (tags : TagMap) (hd : tags.Ok) (evs : List (Event F))
    (h : ∀ e ∈ evs, TagsOk e) (hl : (payloadOf bits tags evs).write.length < 4294967296) :
    (payloadOf bits tags evs).Valid := by
  refine ⟨fun x hx => ?_, fun x hx => ?_, hl⟩
  · obtain ⟨t, ht, rfl⟩ := mem_points bits tags evs x hx
    exact pointOf_valid bits tags hd t (h _ ht)
  · obtain ⟨l, hl, rfl⟩ := mem_lines bits tags evs x hx
    exact lineOf_valid tags hd l (h _ hl)

theorem handlePayload_ok (bits : Bits F) (now : Int) (tags : TagMap) (hd : tags.Ok)
    (evs : List (Event F)) (h : ∀ e ∈ evs, SendOk bits e)
    (hl : (payloadOf bits tags evs).write.length < 4294967296) :
    ∃ out, handlePayload bits now (payloadOf bits tags evs).write = .events out ∧
      BatchArrives tags evs out := by
  have hto : ∀ e ∈ evs, TagsOk e := fun e he => by
    have := h e he
    cases e with
    | telemetry t => exact this.1
    | log l => exact this.1
    | timerFlush i => trivial
    | shutdown => trivial
    | raw r => trivial
  have hp := Payload.parse_write (payloadOf bits tags evs)
    (payloadOf_valid bits tags hd evs hto hl) (fun x hx => by
      obtain ⟨t, ht, rfl⟩ := mem_points bits tags evs x hx
      have := (h _ ht).2.2.2.2.1
      simpa [pointOf] using this)
  obtain ⟨ts, h1, h2⟩ := telemetriesOf_points bits now tags hd evs h
  refine ⟨ts.map .telemetry ++ (payloadOf bits tags evs).lines.map fun l => .log (logOf now l),
    by simp only [handlePayload, hp, h1], ts, (payloadOf bits tags evs).lines.map (logOf now),
    by simp [Function.comp_def], h2, logs_lines bits now tags hd evs h⟩

/-! ## Connections -/

theorem serve_drain (bits : Bits F) (now : Int) (fuel : Nat) : ∀ (r : Wire.Reader) (ps : List Bytes)
    (outs : List (List (Event F))), r.drain fuel = (ps, .eof) →
    Each (fun p es => handlePayload bits now p = .events es) ps outs →
    serve bits now fuel r = (outs.flatten, .closed .eof) := by
  induction fuel with
  | zero => intro r ps outs h; simp [Wire.Reader.drain] at h
  | succ fuel ih =>
    intro r ps outs h he
    simp only [Wire.Reader.drain] at h
    simp only [serve]
    rcases hr : r.read with ⟨res, r'⟩
    rw [hr] at h
    cases res with
    | ok p =>
      simp only [] at h ⊢
      rcases hd : Wire.Reader.drain fuel r' with ⟨ps', e⟩
      rw [hd] at h
      simp only [Prod.mk.injEq] at h
      obtain ⟨rfl, rfl⟩ := h
      cases he with
      | cons h1 h2 => simp only [h1, ih r' ps' _ hd h2, List.flatten_cons]
    | error e =>
      cases e with
      | wouldBlock => exact ih r' ps outs h he
      | eof =>
        simp only [Prod.mk.injEq] at h
        obtain ⟨rfl, -⟩ := h
        cases he; rfl
      | io => simp at h
      | protocol => simp at h
      | lengthTooLarge => simp at h

theorem be32_eq (v : Nat) : be32 v = Wire.be 4 v := by
  simp [be32, Wire.be]

theorem flush_wire (bits : Bits F) (tags : TagMap) (evs : List (Event F)) :
    ((Sink.mk evs 0 true tags).flush bits [true]).2 =
      ([.write (wire (payloadOf bits tags evs))], true) := rfl

theorem wire_frame (p : Payload) (hl : p.write.length < 4294967296)
    (hg : ∀ x ∈ p.points, GoodCount x.samples.length) : wire p = Wire.frame p.write := by
  have h := Payload.write_length p hl
  have hz : (p.points.countP fun x => decide (¬ GoodCount x.samples.length)) = 0 := by
    rw [List.countP_eq_zero]; intro y hy; simp [hg y hy]
  rw [wire, Wire.frame, be32_eq, h, hz]; rfl

/-- A connection whose next payload cannot be parsed delivers nothing. -/
theorem serve_mid_reject (bits : Bits F) (now : Int) (fuel : Nat) : ∀ (r : Wire.Reader)
    (got rem : Bytes) (body t : List Wire.Sym), Wire.Mid r got rem body t →
    handlePayload bits now (got ++ rem) = .reject → body.length < fuel →
    serve bits now fuel r = ([], .rejected) := by
  induction fuel with
  | zero => intro r got rem body t _ _ h; omega
  | succ fuel ih =>
    intro r got rem body t hm hr hl
    rcases Wire.read_mid r got rem body t hm with ⟨r', blks, q1, -⟩ | ⟨r', g', m', bd', q1, q2, q3, q4, -⟩
    · simp only [serve, q1, hr]
    · simp only [serve, q1]
      exact ih r' g' m' bd' t q2 (by rw [q3]; exact hr) (by omega)

theorem serve_reject (bits : Bits F) (now : Int) (r : Wire.Reader) (p : Bytes) (t : List Wire.Sym)
    (hb : Wire.Between r ((Wire.be 4 p.length ++ p).map .byte ++ t)) (hne : p ≠ [])
    (hmax : p.length ≤ r.maxPayloadSize) (hn : p.length < 4294967296)
    (hr : handlePayload bits now p = .reject) (fuel : Nat) (hf : p.length < fuel) :
    serve bits now fuel r = ([], .rejected) := by
  rw [List.map_append, List.append_assoc] at hb
  obtain ⟨b', e1, e2, e3⟩ := Wire.read_between_length r p.length _ hb hn
  have hm : Wire.Mid { r with buffer := b', payloadSize := some p.length } [] p (p.map .byte) t :=
    ⟨by simp, by simpa using hmax, hb.pos, hne, Or.inr ⟨hb.payload, rfl⟩, rfl, e2, e3,
      fun x hx => by simp only [List.mem_map] at hx; obtain ⟨b, _, rfl⟩ := hx; exact Or.inr ⟨b, rfl⟩,
      Wire.filterMap_bytes p⟩
  have hrr : r.read = Wire.Reader.read { r with buffer := b', payloadSize := some p.length } := by
    simp only [Wire.Reader.read, e1]; rfl
  obtain ⟨fuel, rfl⟩ : ∃ n, fuel = n + 1 := ⟨fuel - 1, by omega⟩
  have hs : serve bits now (fuel + 1) r =
      serve bits now (fuel + 1) { r with buffer := b', payloadSize := some p.length } := by
    simp only [serve, hrr]
  rw [hs]
  exact serve_mid_reject bits now _ _ [] p _ t hm hr (by simpa using hf)

/-- While an empty payload is expected, no read succeeds. -/
theorem read_empty (r : Wire.Reader) (hs : r.payloadSize = some 0) (hp : r.payload = []) :
    ∃ e b, r.read = (.error e, { r with buffer := b }) := by
  have hl : r.readLength = (.ok (), r) := by simp [Wire.Reader.readLength, hs]
  have hread : ∀ bs b, r.buffer.read 0 = (.ok bs, b) → bs = [] := by
    intro bs b h
    simp only [Wire.BufReader.read] at h
    split at h
    · rw [if_neg (by decide)] at h
      split at h
      · simp only [List.take_zero, Prod.mk.injEq, Except.ok.injEq] at h; exact h.1.symm
      · simp at h
    · simp only [List.take_zero, Prod.mk.injEq, Except.ok.injEq] at h; exact h.1.symm
  have hrp : ∃ e b, r.readPayload 0 = (.error e, { r with buffer := b }) := by
    simp only [Wire.Reader.readPayload, hp, List.length_nil, ne_eq, not_true_eq_false, if_false,
      Wire.Reader.readLoop, Nat.zero_sub]
    rcases hb : r.buffer.read 0 with ⟨res, b⟩
    cases res with
    | error e => exact ⟨_, b, rfl⟩
    | ok bs =>
      have := hread bs b hb
      subst this
      exact ⟨.eof, b, by simp⟩
  obtain ⟨e, b, h⟩ := hrp
  refine ⟨e, b, ?_⟩
  simp only [Wire.Reader.read, hl, hs, Nat.not_lt_zero, if_false, h]

theorem serve_empty (bits : Bits F) (now : Int) (fuel : Nat) : ∀ r : Wire.Reader,
    r.payloadSize = some 0 → r.payload = [] → (serve bits now fuel r).1 = [] := by
  induction fuel with
  | zero => intro r _ _; rfl
  | succ fuel ih =>
    intro r hs hp
    obtain ⟨e, b, h⟩ := read_empty r hs hp
    cases e with
    | wouldBlock => simp only [serve, h]; exact ih _ hs hp
    | eof => simp only [serve, h]
    | io => simp only [serve, h]
    | protocol => simp only [serve, h]
    | lengthTooLarge => simp only [serve, h]

end
end Verif.Native
