import Verif.Spec.Influxdb
import Verif.Lemmas.WavefrontText
/-!
# C54, C56, C78: the InfluxDB sink and the backoff schedule
-/
namespace Verif

/-! ## C56: the backoff schedule -/

/-- The retry delay never decreases, is at most 512 ms, is zero for no attempts and from the
second attempt on doubles up to the cap.  Missing: the step from the first to the second attempt,
which is a factor of four (`C56_doubles_false`). -/
theorem C56_backoff_partial :
    (∀ a b, a ≤ b → delayMs a ≤ delayMs b) ∧ (∀ a, delayMs a ≤ 512) ∧ delayMs 0 = 0 ∧
    (∀ a, 2 ≤ a → a < 9 → delayMs (a + 1) = 2 * delayMs a) ∧ (∀ a, 2 ≤ a → a ≤ 9 → delayMs a = 2 ^ a) ∧
    (∀ a, 9 ≤ a → delayMs a = 512) := by
  have hcap : ∀ a, 9 ≤ a → delayMs a = 512 := by
    intro a h
    match a, h with
    | n + 9, _ => rfl
  have hle : ∀ a, delayMs a ≤ 512 := by
    intro a
    by_cases h : 9 ≤ a
    · rw [hcap a h]; exact Nat.le_refl _
    · have : ∀ a, a < 9 → delayMs a ≤ 512 := by decide
      exact this a (by omega)
  refine ⟨fun a b h => ?_, hle, rfl, ?_, ?_, hcap⟩
  · by_cases hb : 9 ≤ b
    · rw [hcap b hb]; exact hle a
    · have : ∀ b, b < 9 → ∀ a, a ≤ b → delayMs a ≤ delayMs b := by decide
      exact this b (by omega) a h
  · intro a h1 h2
    have : ∀ a, a < 9 → 2 ≤ a → delayMs (a + 1) = 2 * delayMs a := by decide
    exact this a h2 h1
  · intro a h1 h2
    have : ∀ a, a < 10 → 2 ≤ a → delayMs a = 2 ^ a := by decide
    exact this a (by omega) h1

/-- Disagreement: the documentation promises 2^x ms below nine attempts and doubling; the first
attempt waits 1 ms and the second 4 ms. -/
theorem C56_doubles_false : delayMs 1 ≠ 2 ^ 1 ∧ delayMs 2 ≠ 2 * delayMs 1 := by decide

open Influx
section
variable {F : Type} [F64 F]

/-! ## C54: one payload until it is accepted -/

private theorem loop_spec (payload : Str) : ∀ (os : List Outcome) (a : Nat),
    (∀ x ∈ (flushLoop payload a os).2.1, (∃ n, x = .delay n) ∨ x = .post payload) ∧
    ((flushLoop payload a os).2.2 = true ↔ .success ∈ os) ∧
    (flushLoop payload a os).2.1.countP (fun x => decide (x = .post payload)) =
      (if .success ∈ os then os.idxOf .success + 1 else os.length)
  | [], a => by simp [flushLoop]
  | o :: os, a => by
    have key : ∀ a', o ≠ .success →
        (∀ x ∈ Wire.delay (delayMs a) :: .post payload :: (flushLoop payload a' os).2.1,
          (∃ n, x = .delay n) ∨ x = .post payload) ∧
        ((flushLoop payload a' os).2.2 = true ↔ .success ∈ o :: os) ∧
        (Wire.delay (delayMs a) :: .post payload :: (flushLoop payload a' os).2.1).countP
          (fun x => decide (x = .post payload)) =
          (if .success ∈ o :: os then (o :: os).idxOf .success + 1 else (o :: os).length) := by
      intro a' ho
      obtain ⟨h1, h2, h3⟩ := loop_spec payload os a'
      refine ⟨?_, ?_, ?_⟩
      · intro x hx
        simp only [List.mem_cons] at hx
        rcases hx with rfl | rfl | hx
        · exact Or.inl ⟨_, rfl⟩
        · exact Or.inr rfl
        · exact h1 x hx
      · rw [h2, List.mem_cons]
        exact ⟨Or.inr, fun h => h.resolve_left (fun e => ho e.symm)⟩
      · rw [List.countP_cons, List.countP_cons, h3]
        have hm : (.success ∈ o :: os) ↔ .success ∈ os := by
          rw [List.mem_cons]; exact ⟨fun h => h.resolve_left (fun e => ho e.symm), Or.inr⟩
        have hidx : (o :: os).idxOf .success = os.idxOf .success + 1 := by
          rw [List.idxOf_cons]
          have : (o == Outcome.success) = false := by simpa using ho
          rw [this]; rfl
        simp only [hm, hidx, List.length_cons]
        by_cases h : Outcome.success ∈ os <;> simp [h]
    cases o with
    | success => simp [flushLoop, List.countP_cons, List.idxOf_cons]
    | clientError => exact key _ (by simp)
    | serverError => exact key _ (by simp)
    | sendError => exact key _ (by simp)
    | other => exact key _ (by simp)

/-- A flush builds one text from all points delivered since the last, and POSTs exactly that text
once per outcome up to and including the first success; it ends exactly with a success, and only
then are the points dropped.  Between POSTs there is nothing but delays. -/
theorem C54_flush (ext : Wavefront.Ext F) (s : State F) (os : List Outcome) (payload : Str)
    (hp : formatStats ext s.tags s.aggrs = some payload) :
    ∃ s' wire done, flush ext s os = some (s', wire, done) ∧
      (done = true ↔ .success ∈ os) ∧
      (∀ x ∈ wire, (∃ n, x = .delay n) ∨ x = .post payload) ∧
      wire.countP (fun x => decide (x = .post payload)) =
        (if .success ∈ os then os.idxOf .success + 1 else os.length) ∧
      s'.aggrs = (if .success ∈ os then [] else s.aggrs) ∧ s'.tags = s.tags := by
  obtain ⟨h1, h2, h3⟩ := loop_spec payload os s.attempts
  refine ⟨{ s with attempts := (flushLoop payload s.attempts os).1, aggrs := if (flushLoop payload s.attempts os).2.2 then [] else s.aggrs },
    _, _, by simp only [flush, hp], h2, h1, h3, ?_, rfl⟩
  simp only
  by_cases h : Outcome.success ∈ os
  · rw [if_pos (h2.mpr h), if_pos h]
  · rw [if_neg (fun e => h (h2.mp e)), if_neg h]

/-- The pause before each POST follows the number of refusals: it is the backoff of the attempts
carried over from earlier flushes plus the refused POSTs so far. -/
theorem C54_backoff (payload : Str) (a : Nat) (os : List Outcome) (ha : a + os.length < 2 ^ 32)
    (hs : .success ∉ os) :
    (flushLoop payload a os).1 =
      a + os.countP (fun o => decide (o = .clientError ∨ o = .serverError)) ∧
    (flushLoop payload a (os ++ [.success])).1 =
      a + os.countP (fun o => decide (o = .clientError ∨ o = .serverError)) - 1 ∧
    (flushLoop payload a (os ++ [.success])).2.1 = (flushLoop payload a os).2.1 ++
      [.delay (delayMs (a + os.countP (fun o => decide (o = .clientError ∨ o = .serverError)))),
       .post payload] := by
  induction os generalizing a with
  | nil => simp [flushLoop]
  | cons o os ih =>
    rw [List.mem_cons, not_or] at hs
    simp only [List.length_cons] at ha
    have hsat : satSucc a = a + 1 := by simp only [satSucc]; rw [if_pos (by omega)]
    have ihs := ih (a + 1) (by omega) hs.2
    have ihn := ih a (by omega) hs.2
    cases o with
    | success => exact absurd rfl hs.1
    | clientError =>
      simp only [List.cons_append, flushLoop, hsat, List.countP_cons]
      rw [ihs.1, ihs.2.1, ihs.2.2]
      simp [Nat.add_assoc, Nat.add_comm 1]
    | serverError =>
      simp only [List.cons_append, flushLoop, hsat, List.countP_cons]
      rw [ihs.1, ihs.2.1, ihs.2.2]
      simp [Nat.add_assoc, Nat.add_comm 1]
    | sendError =>
      simp only [List.cons_append, flushLoop, List.countP_cons]
      rw [ihn.1, ihn.2.1, ihn.2.2]
      simp
    | other =>
      simp only [List.cons_append, flushLoop, List.countP_cons]
      rw [ihn.1, ihn.2.1, ihn.2.2]
      simp

private theorem loop_last (payload : Str) : ∀ (os : List Outcome) (a : Nat), .success ∉ os →
    (flushLoop payload a (os ++ [.success])).2.1.getLast? = some (.post payload) ∧
    (flushLoop payload a (os ++ [.success])).2.2 = true
  | [], a, _ => by simp [flushLoop]
  | o :: os, a, h => by
    rw [List.mem_cons, not_or] at h
    have key : ∀ a', (Wire.delay (delayMs a) :: .post payload ::
        (flushLoop payload a' (os ++ [.success])).2.1).getLast? = some (.post payload) ∧
        (flushLoop payload a' (os ++ [.success])).2.2 = true := by
      intro a'
      obtain ⟨h1, h2⟩ := loop_last payload os a' h.2
      refine ⟨?_, h2⟩
      rw [List.getLast?_cons, List.getLast?_cons, h1]
      rfl
    cases o with
    | success => exact absurd rfl h.1
    | clientError => exact key _
    | serverError => exact key _
    | sendError => exact key _
    | other => exact key _

/-- Over any history in which each flush eventually succeeds: the accepted payloads are, flush by
flush, the texts of exactly the points that arrived since the flush before; what arrived after the
last flush is waiting.  So every point is accepted exactly once, in order. -/
theorem C54_exactly_once (ext : Wavefront.Ext F) (text : List (Telemetry F) → Str) :
    ∀ (ops : List (Op F)) (s : State F),
    (∀ fs, Op.flush fs ∈ ops → .success ∉ fs) →
    (∀ b ∈ (batches s.aggrs ops).1, formatStats ext s.tags b = some (text b)) →
    ∃ s', run ext s ops = some (s', (batches s.aggrs ops).1.map text) ∧
      s'.aggrs = (batches s.aggrs ops).2
  | [], s, _, _ => ⟨s, rfl, rfl⟩
  | .point t :: ops, s, hf, ht => by
    exact C54_exactly_once ext text ops (deliver s t)
      (fun fs h => hf fs (List.mem_cons_of_mem _ h)) ht
  | .flush fs :: ops, s, hf, ht => by
    have hno := hf fs (List.mem_cons_self ..)
    have hthis : formatStats ext s.tags s.aggrs = some (text s.aggrs) :=
      ht s.aggrs (by simp [batches])
    obtain ⟨h1, h2⟩ := loop_last (text s.aggrs) fs s.attempts hno
    obtain ⟨s', e, ha⟩ := C54_exactly_once ext text ops
      { s with attempts := (flushLoop (text s.aggrs) s.attempts (fs ++ [.success])).1, aggrs := [] }
      (fun fs h => hf fs (List.mem_cons_of_mem _ h))
      (fun b hb => ht b (by simp only [batches]; exact List.mem_cons_of_mem _ hb))
    refine ⟨s', ?_, ?_⟩
    · simp only [run, flush, hthis, h1, h2, if_true, e, Option.map_some, batches, List.map_cons]
    · simp only [batches]; exact ha

/-! ## C78: the text -/

private theorem tagText_eq : ∀ kvs : List (Str × Str), fmtTags kvs = tagText kvs
  | [] => rfl
  | (k, v) :: kvs => by
    have := tagText_eq kvs
    simp only [fmtTags, tagText, List.flatMap_cons] at this ⊢
    rw [this]
    simp

private theorem lineToks_text (ext : Wavefront.Ext F) (name tags : Str) (v : F) (ts : Int) :
    (lineToks name tags v ts).flatMap (Wavefront.Tok.text ext) =
      influxLine name tags (ext.showF v) (ext.showN (nanos ts)) := by
  have h1 : " value=".toList = [' '] ++ ['v', 'a', 'l', 'u', 'e', '='] := rfl
  have h2 : " ".toList = [' '] := rfl
  have h3 : "\n".toList = ['\n'] := rfl
  simp [lineToks, influxLine, Wavefront.Tok.text, h1, h2, h3]

private theorem pointToks_ok (ext : Wavefront.Ext F) (tags : TagMap) (t : Telemetry F) :
    (pointToks ext tags t).flatMap (Wavefront.Tok.text ext) =
      pointText ext tags (fun ts => ext.showN (nanos ts)) t ∧
    ∀ x, Wavefront.Tok.value x ∈ pointToks ext tags t → printed t x := by
  have hval : ∀ name tg (v : F) ts x, Wavefront.Tok.value x ∈ lineToks name tg v ts → x = v := by
    intro name tg v ts x h
    simpa [lineToks] using h
  cases hv : t.value with
  | set v =>
    have hk : t.kind = .set := by simp [Telemetry.kind, Value.kind, hv]
    simp only [pointToks, hk, Telemetry.set, hv, pointText, printed]
    exact ⟨by rw [lineToks_text, tagText_eq], fun x h => hval _ _ _ _ x h⟩
  | sum v =>
    have hk : t.kind = .sum := by simp [Telemetry.kind, Value.kind, hv]
    simp only [pointToks, hk, Telemetry.sum, hv, pointText, printed]
    exact ⟨by rw [lineToks_text, tagText_eq], fun x h => hval _ _ _ _ x h⟩
  | histogram h =>
    have hk : t.kind = .histogram := by simp [Telemetry.kind, Value.kind, hv]
    simp only [pointToks, hk, Telemetry.bins, hv, pointText, printed]
    constructor
    · rw [tagText_eq]
      generalize F64.histBins h = bins
      induction bins with
      | nil => rfl
      | cons b bins ih =>
        simp only [List.flatMap_cons, List.flatMap_append, ih, lineToks_text, List.map_cons,
          List.flatten_cons]
        congr 2
        obtain ⟨b1, b2⟩ := b
        have h1 : ".le_".toList = ['.', 'l', 'e', '_'] := rfl
        have h2 : "inf".toList = ['i', 'n', 'f'] := rfl
        cases b1 <;> simp [h1, h2]
    · intro x hx
      obtain ⟨b, hb, hx⟩ := List.mem_flatMap.mp hx
      exact ⟨b, hb, hval _ _ _ _ x hx⟩
  | quantiles c s =>
    have hk : t.kind = .summarize := by simp [Telemetry.kind, Value.kind, hv]
    have hq : ∀ p, t.query p = F64.ckmsQuery c p := fun p => by simp [Telemetry.query, hv]
    have hps : (percentiles : List F) = reportedPercentiles := rfl
    simp only [pointToks, hk, hv, pointText, printed, hq, hps]
    generalize (reportedPercentiles : List F) = ps
    constructor
    · rw [tagText_eq]
      induction ps with
      | nil => rfl
      | cons p ps ih =>
        simp only [List.flatMap_cons, List.flatMap_append, ih, List.map_cons, List.flatten_cons]
        congr 1
        cases F64.ckmsQuery c p with
        | none => rfl
        | some v => simp [lineToks_text]
    · intro x hx
      obtain ⟨p, hp, hx⟩ := List.mem_flatMap.mp hx
      refine ⟨p, hp, ?_⟩
      cases hc : F64.ckmsQuery c p with
      | none => simp [hc] at hx
      | some v =>
        simp only [hc] at hx
        rw [hval _ _ _ _ x hx]

/-- Times as they should be written: nanoseconds since the epoch. -/
theorem C78_nanoseconds (ts : Int) (h0 : 0 ≤ ts) (h1 : ts ≤ 9223372036) :
    (nanos ts : Int) = ts * 1000000000 := by
  have e1 : ¬ ts * 1000000000 > 9223372036854775807 := by omega
  have e2 : ¬ ts * 1000000000 < -9223372036854775808 := by omega
  have e3 : ts * 1000000000 % 18446744073709551616 = ts * 1000000000 :=
    Int.emod_eq_of_lt (by omega) (by omega)
  have e4 : nanos ts = (ts * 1000000000).toNat := by
    simp only [nanos, if_neg e1, if_neg e2, e3]
  rw [e4]
  exact Int.toNat_of_nonneg (by omega)

/-- Disagreement: a point before 1970 is written with a time in the far future, and times from the
year 2262 on are all written alike. -/
theorem C78_times_false :
    nanos (-1) = 18446744072709551616 ∧ ∀ ts, 9223372037 ≤ ts → nanos ts = 9223372036854775807 := by
  refine ⟨by decide, fun ts h => ?_⟩
  have e1 : ts * 1000000000 > 9223372036854775807 := by omega
  simp only [nanos, if_pos e1]
  rfl

/-- The text of a flush is the text of every delivered point, in order: the sharing of formatted
numbers never changes it.  Missing: numbers that cannot be compared (`C78_nan_false`) and times
out of range (`C78_times_false`). -/
theorem C78_text_partial (ext : Wavefront.Ext F) (tags : TagMap) (pts : List (Telemetry F))
    (vals : F → Prop) (ord : Wavefront.Ordered ext vals)
    (hv : ∀ t ∈ pts, ∀ x, printed t x → vals x) :
    formatStats ext tags pts =
      some (pts.map (pointText ext tags (fun ts => ext.showN (nanos ts)))).flatten := by
  obtain ⟨rank, hcmp⟩ := ord
  obtain ⟨c, e, _⟩ := Wavefront.pushToks_ok ext rank vals hcmp
    (pts.flatMap (pointToks ext tags)) {} []
    ⟨Wavefront.CacheOk.nil .., Wavefront.CacheOk.nil .., Wavefront.CacheOk.nil ..⟩ (by
      intro x hx
      obtain ⟨t, ht, hx⟩ := List.mem_flatMap.mp hx
      exact hv t ht x ((pointToks_ok ext tags t).2 x hx))
  simp only [formatStats, e, Option.map_some, List.nil_append, Option.some.injEq]
  induction pts with
  | nil => rfl
  | cons t pts ih =>
    rw [List.flatMap_cons, List.flatMap_append, (pointToks_ok ext tags t).1, List.map_cons,
      List.flatten_cons]
    congr 1
    have : ∀ (ps : List (Telemetry F)), List.flatMap (Wavefront.Tok.text ext)
        (List.flatMap (pointToks ext tags) ps) =
        (List.map (pointText ext tags fun ts => ext.showN (nanos ts)) ps).flatten := by
      intro ps
      induction ps with
      | nil => rfl
      | cons p ps ih =>
        rw [List.flatMap_cons, List.flatMap_append, (pointToks_ok ext tags p).1, List.map_cons,
          List.flatten_cons, ih]
    exact this pts

end

/-- a world for the examples -/
def inExt : Wavefront.Ext Int :=
  { nameTagHash := fun _ => 0, hash := fun _ => 0, cmp := fun a b => some (compare a b), showF := fun x => (toString x).toList, showI := fun x => (toString x).toList, showN := fun x => (toString x).toList }

/-- points for the examples -/
def inPoint (n : String) (v : Int) (ts : Int) : Telemetry Int :=
  ⟨n.toList, .sum v, false, some [("k".toList, "v".toList)], ts, none, none⟩

example : Wavefront.Ordered inExt (fun _ => True) :=
  ⟨fun x => x, fun a b _ _ => ⟨rfl, fun h => by rw [show a = b from h]⟩⟩

example : formatStats inExt [("h".toList, "x".toList)] [inPoint "a" 7 1, inPoint "b" 7 2] =
    some "a,k=v,h=x value=7 1000000000\nb,k=v,h=x value=7 2000000000\n".toList := by decide

/-- A history with failures: two flushes, three points. -/
example : (run inExt (init []) [.point (inPoint "a" 1 1), .flush [.serverError, .sendError],
      .point (inPoint "b" 2 2), .point (inPoint "c" 3 3), .flush [], .point (inPoint "d" 4 4)]).map
      (fun r => (r.1.aggrs.length, r.1.attempts, r.2)) =
    some (1, 0, ["a,k=v value=1 1000000000\n".toList,
      "b,k=v value=2 2000000000\nc,k=v value=3 3000000000\n".toList]) := by decide

/-- Disagreement: a number that cannot be compared with itself (a NaN) takes the sink down. -/
theorem C78_nan_false :
    (flush { inExt with cmp := fun a b => if a = 13 ∨ b = 13 then none else some (compare a b) }
      (deliver (init []) (inPoint "a" 13 1)) [.success]).isNone := by decide

end Verif
