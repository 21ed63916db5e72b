import Verif.Spec.GraphiteClient
import Verif.Props.Graphite
import Verif.Props.Stream
import Verif.Props.Gauges
/-!
# C136: what a graphite client writes, from its bytes to the text a Prometheus server scrapes
-/
namespace Verif
open Wire Graphite Stream

private theorem encode_ascii (c : Char) (h : c.val < 128) : String.utf8EncodeChar c = [c.val.toUInt8] := by
  have hn : c.val ≤ 127 := by
    have := UInt32.lt_iff_toNat_lt.1 h
    rw [UInt32.le_iff_toNat_le]
    simp at this ⊢; omega
  exact String.utf8EncodeChar_eq_singleton (by simp [Char.utf8Size, hn])

private theorem utf8_ascii (l : Str) (h : ∀ c ∈ l, c.val < 128) : utf8 l = l.map fun c => c.val.toUInt8 := by
  induction l with
  | nil => rfl
  | cons c l ih =>
    simp only [utf8, List.flatMap_cons, List.map_cons, encode_ascii c (h c (by simp))]
    exact congrArg (c.val.toUInt8 :: ·) (ih (fun x hx => h x (by simp [hx])))

private theorem ascii_lt (c : Char) (h : c.val < 128) : c.val.toUInt8 < 128 := by
  have := UInt32.lt_iff_toNat_lt.1 h
  rw [UInt8.lt_iff_toNat_lt, UInt32.toNat_toUInt8]
  have e : (128 : UInt32).toNat = 128 := rfl
  have e' : (128 : UInt8).toNat = 128 := rfl
  omega

private theorem ascii_ten (c : Char) (h : c.val < 128) (he : c.val.toUInt8 = 10) : c = '\n' := by
  have h1 := UInt32.lt_iff_toNat_lt.1 h
  have h2 := congrArg UInt8.toNat he
  apply Char.ext
  apply UInt32.toNat_inj.1
  rw [UInt32.toNat_toUInt8] at h2
  have e : (128 : UInt32).toNat = 128 := rfl
  have e' : (10 : UInt8).toNat = 10 := rfl
  have e'' : ('\n' : Char).val.toNat = 10 := rfl
  omega

private theorem utf8_inj {a b : Str} (h : utf8 a = utf8 b) : a = b := by
  have e : a.utf8Encode = b.utf8Encode := congrArg List.toByteArray h
  have ha := List.utf8Decode?_utf8Encode (l := a)
  rw [e, List.utf8Decode?_utf8Encode, Option.some.injEq] at ha
  simpa using ha.symm

theorem Graphite.map_utf8_inj : ∀ {a b : List Str}, a.map utf8 = b.map utf8 → a = b
  | [], [], _ => rfl
  | [], _ :: _, h => by simp at h
  | _ :: _, [], h => by simp at h
  | _ :: _, _ :: _, h => by
    simp only [List.map_cons, List.cons.injEq] at h
    rw [utf8_inj h.1, map_utf8_inj h.2]

/-- an ASCII line's bytes are a line -/
private theorem line_bytes (l : Str) (h : AsciiLine l) :
    (∃ p, utf8 l = p ++ [10] ∧ (10 : UInt8) ∉ p) ∧ ∀ b ∈ utf8 l, b < 128 := by
  obtain ⟨ha, p, rfl, hp⟩ := h
  rw [utf8_ascii _ ha]
  refine ⟨⟨p.map fun c => c.val.toUInt8, by rw [List.map_append]; rfl, ?_⟩, ?_⟩
  · intro hm
    obtain ⟨c, hc, he⟩ := List.mem_map.1 hm
    exact hp (ascii_ten c (ha c (by simp [hc])) he ▸ hc)
  · intro b hb
    obtain ⟨c, hc, rfl⟩ := List.mem_map.1 hb
    exact ascii_lt c (ha c hc)

private theorem utf8_flatten (ls : List Str) : utf8 ls.flatten = (ls.map utf8).flatten := by
  induction ls with
  | nil => rfl
  | cons l ls ih => simp only [List.flatten_cons, List.map_cons, ← ih, utf8, List.flatMap_append]

private theorem finished_of_lines (fl : List Bytes) (h : ∀ l ∈ fl, ∃ p, l = p ++ [10] ∧ (10 : UInt8) ∉ p) (x : Bytes) :
    finishedLines (fl.flatten ++ x) = fl ++ finishedLines x := by
  induction fl with
  | nil => rfl
  | cons l fl ih =>
    obtain ⟨p, rfl, hp⟩ := h l (by simp)
    rw [List.flatten_cons, List.append_assoc, byte_cut_append p _ hp, ih (fun l hl => h l (by simp [hl]))]
    rfl

/-- **C136** (the connection) A client writes lines of ASCII characters.  However its bytes are cut into pieces, whenever they arrive and
whatever else wakes the handler, at any time the lines the handler has taken are the first so many the client wrote, each whole and once;
and when the handler sleeps they are all the lines that have been sent in full. -/
theorem C136_lines (lines : List Str) (hl : ∀ l ∈ lines, AsciiLine l) (ls : List Stream.Label) (s : Stream.State (Bytes × Bytes))
    (hr : Stream.run graphite (init graphite {}) ls = some s) (hsend : Sending lines ls s.sock) :
    ∃ m, m ≤ lines.length ∧ s.taken = (lines.take m).map utf8 ∧
      (Asleep s → (lines.take m).map utf8 = finishedLines (sent ls)) ∧
      (Asleep s → sent ls = utf8 lines.flatten → m = lines.length) := by
  obtain ⟨⟨tail, ht⟩, hfin⟩ := hsend
  have hwhole : ∀ b ∈ sent ls, b < 128 := by
    intro b hb
    have : b ∈ utf8 lines.flatten := by rw [← ht]; simp [hb]
    rw [utf8_flatten] at this
    obtain ⟨l, hm, hbl⟩ := List.mem_flatten.1 this
    obtain ⟨l', hl', rfl⟩ := List.mem_map.1 hm
    exact (line_bytes l' (hl l' hl')).2 b hbl
  have hbl : ∀ l ∈ lines.map utf8, ∃ p, l = p ++ [10] ∧ (10 : UInt8) ∉ p := by
    intro l hm
    obtain ⟨l', hl', rfl⟩ := List.mem_map.1 hm
    exact (line_bytes l' (hl l' hl')).1
  have hall : finishedLines (utf8 lines.flatten) = lines.map utf8 := by
    rw [utf8_flatten, ← List.append_nil (lines.map utf8).flatten, byte_cut_lines _ hbl [] (by simp)]
  obtain ⟨fl, rest, after, e1, e2, e3, e4, e5⟩ := graphite_at_any_time {} ls s hr (by simpa using hwhole)
  simp only [List.nil_append] at e2
  -- the handler takes no unfinished line
  have hrest : rest = [] := by
    rcases e4 with h | ⟨h1, h2, l, rfl, h3, h4⟩
    · exact h
    · exfalso
      have hs := hfin h1
      rw [e2, e1, h2] at hs
      simp only [List.append_nil, List.flatten_append, List.flatten_cons, List.flatten_nil] at hs
      have hf : fl = lines.map utf8 := by rw [← hall, ← hs, byte_cut_lines fl e3 l h4]
      rw [utf8_flatten, ← hf] at hs
      exact h3 (by simpa using hs)
  subst hrest
  rw [List.append_nil] at e1
  rw [e1] at e2
  have hpre : lines.map utf8 = fl ++ finishedLines (after ++ tail) := by
    rw [← hall, ← ht, e2, List.append_assoc, finished_of_lines fl e3]
  have hlen : fl.length ≤ lines.length := by
    have := congrArg List.length hpre
    simp at this; omega
  have htake : fl = (lines.take fl.length).map utf8 := by
    rw [List.map_take, hpre, List.take_left]
  have hsleep : Asleep s → fl = finishedLines (sent ls) := by
    intro hs
    rw [e2, byte_cut_lines fl e3 after (e5 hs)]
  refine ⟨fl.length, hlen, by rw [← htake, e1], fun hs => by rw [← htake]; exact hsleep hs, fun hs hw => ?_⟩
  have := congrArg List.length (hsleep hs)
  rw [hw, hall] at this
  simpa using this

section
variable {F : Type} [F64 F]

/-- The points of the readings of some lines, and what they stand for. -/
theorem Graphite.points_of (ext : Ext F) (now : Int) : ∀ (lines : List (Str × List Triple)), (∀ l ∈ lines, Says ext l.1 l.2) →
    ∃ pts, handleLines ext now (lines.map Prod.fst) [] = some (pts, []) ∧
      pts.map some = (lines.flatMap Prod.snd).map (·.point ext) := by
  intro lines
  induction lines with
  | nil => intro _; exact ⟨[], rfl, rfl⟩
  | cons l lines ih =>
    intro h
    obtain ⟨pts, i1, i2⟩ := ih (fun x hx => h x (by simp [hx]))
    obtain ⟨hne, hv, hw⟩ := h l (by simp)
    have hex : ∃ own : List (Telemetry F), own.map some = l.2.map (·.point ext) := by
      have gen : ∀ ts : List Triple, (∀ t ∈ ts, t.Valid ext) → ∃ own : List (Telemetry F), own.map some = ts.map (·.point ext) := by
        intro ts
        induction ts with
        | nil => intro _; exact ⟨[], rfl⟩
        | cons t ts ih =>
          intro hv
          obtain ⟨own, ho⟩ := ih (fun x hx => hv x (by simp [hx]))
          obtain ⟨a, b⟩ := hv t (by simp)
          obtain ⟨v, a⟩ := Option.isSome_iff_exists.1 a
          obtain ⟨w, b⟩ := Option.isSome_iff_exists.1 b
          exact ⟨{ name := t.name, value := .set v, persist := false, tags := none, timestamp := w, overrideCount := none, overrideSampleSum := none } :: own,
            by rw [List.map_cons, List.map_cons, ho]; simp [Triple.point, a, b]⟩
      exact gen l.2 hv
    obtain ⟨own, ho⟩ := hex
    have hp := ((C42_payload ext now l.1).1 own).2 ⟨l.2, hne, hv, hw, ho.symm⟩
    refine ⟨own ++ pts, ?_, by simp [ho, i2]⟩
    simp only [List.map_cons, handleLines, hp, i1, Option.map_some]

/-- **C136** (the source) If the lines say readings, at any time the source has sent exactly the points of the readings on the lines
it has taken, in the order in which they were written and once each, and nothing waits in it; and when it sleeps these are all the
readings on lines that were sent in full. -/
theorem C136_points (ext : Ext F) (now : Int) (lines : List (Str × List Triple)) (hl : ∀ l ∈ lines, AsciiLine l.1 ∧ Says ext l.1 l.2)
    (ls : List Stream.Label) (s : Stream.State (Bytes × Bytes)) (hr : Stream.run graphite (init graphite {}) ls = some s)
    (hsend : Sending (lines.map Prod.fst) ls s.sock) :
    ∃ taken pts, s.taken = taken.map utf8 ∧ handleLines ext now taken [] = some (pts, []) ∧
      ∃ m, m ≤ lines.length ∧ pts.map some = ((lines.take m).flatMap Prod.snd).map (·.point ext) ∧
        (Asleep s → m = (finishedLines (sent ls)).length) ∧ (Asleep s → sent ls = utf8 (lines.map Prod.fst).flatten → m = lines.length) := by
  obtain ⟨m, h1, h2, h3, h4⟩ := C136_lines (lines.map Prod.fst) (fun l h => by
    obtain ⟨x, hx, rfl⟩ := List.mem_map.1 h; exact (hl x hx).1) ls s hr hsend
  rw [List.length_map] at h1 h4
  obtain ⟨pts, p1, p2⟩ := points_of ext now (lines.take m) (fun l h => (hl l (List.mem_of_mem_take h)).2)
  refine ⟨(lines.take m).map Prod.fst, pts, by rw [h2]; simp only [List.map_take], p1, m, h1, p2, fun hs => ?_, h4⟩
  rw [← h3 hs]
  simp; omega

theorem Graphite.numbers_of_points (ext : Ext F) (n : Str) : ∀ (ts : List Triple) (pts : List (Telemetry F)),
    pts.map some = ts.map (·.point ext) →
    (pts.filter fun t => t.name = n).map (·.value) = (numbersOf ext n ts).map .set ∧ ∀ t ∈ pts, t.tags = none := by
  intro ts
  induction ts with
  | nil => intro pts h; cases pts <;> simp [numbersOf] at h ⊢
  | cons t ts ih =>
    intro pts h
    cases pts with
    | nil => simp at h
    | cons p pts =>
      simp only [List.map_cons, List.cons.injEq] at h
      obtain ⟨hp, h⟩ := h
      obtain ⟨i1, i2⟩ := ih pts h
      simp only [Triple.point] at hp
      cases hv : ext.parseF t.value with
      | none => rw [hv] at hp; simp at hp
      | some v =>
        cases hw : ext.parseI t.time with
        | none => rw [hv, hw] at hp; simp at hp
        | some w =>
          rw [hv, hw] at hp
          simp only [Option.bind_some, Option.map_some, Option.some.injEq] at hp
          subst hp
          refine ⟨?_, ?_⟩
          · by_cases hn : t.name = n
            · simp [numbersOf, hn, hv] at i1 ⊢; exact i1
            · simp [numbersOf, hn] at i1 ⊢; exact i1
          · intro q hq
            rcases List.mem_cons.1 hq with rfl | hq
            · rfl
            · exact i2 q hq

private theorem level_set (xs : List F) : gaugeLevel (xs.map Value.set) = xs.getLast? := by
  rcases List.eq_nil_or_concat xs with rfl | ⟨ys, y, rfl⟩
  · rfl
  · simp [gaugeLevel, gaugeStep]

end

section
open Prometheus (sanitize typeLines samplesNamed Clash pointsOf)
variable {F : Type} [F64 F]

/-- **C136** (the scrape) The Prometheus sink receives the points of a name that the source sent, in their order, among points of other names
from anywhere, with flushes and scrapes at any time.  By some moment it is done with the first `j` of them.  Every scrape answered with a
text after that moment shows, for some `k` not less than `j`, the number the client wrote last among its first `k` of that name. -/
theorem C136_scrape (ext : Ext F) (now : Int) (lines : List (Str × List Triple)) (hl : ∀ l ∈ lines, AsciiLine l.1 ∧ Says ext l.1 l.2)
    (ls : List Stream.Label) (c : Stream.State (Bytes × Bytes)) (hr : Stream.run graphite (init graphite {}) ls = some c)
    (hsend : Sending (lines.map Prod.fst) ls c.sock) (taken : List Str) (pts : List (Telemetry F)) (hc : c.taken = taken.map utf8)
    (hpts : handleLines ext now taken [] = some (pts, [])) (n : Str)
    (p : Scrape.Setup F) (hcap : 1 ≤ p.capacity) (hage : ∀ a, p.ageThreshold = some a → a < 2 ^ 63) (bound : Bool)
    (before after : List (Scrape.Label F)) (s0 s : Scrape.State F) (h0 : Scrape.run p (.start p bound) before = some s0)
    (h : Scrape.run p s0 after = some s) (hidle : s0.sink = .idle) (halive : s.sink ≠ .panicked)
    (hq : pointsOf n (Scrape.asked p.ageThreshold (before ++ after)) = pts.filter fun t => t.name = n)
    (hg : GoodOps (Scrape.asked p.ageThreshold (before ++ after))) (hlen : (before ++ after).length < 2 ^ 64 - 1) :
    ∃ new, s.answers = s0.answers ++ new ∧ ∀ r text, (r, some text) ∈ new →
      ∃ k, (pointsOf n (Scrape.asked p.ageThreshold before)).length ≤ k ∧
        k ≤ (numbersOf ext n (lines.flatMap Prod.snd)).length ∧
        ∀ x, ((numbersOf ext n (lines.flatMap Prod.snd)).take k).getLast? = some x →
          .sample (sanitize n) p.tags (.real x) ∈ text ∧ "gauge".toList ∈ typeLines (sanitize n) text ∧
          ((∀ t, .insert t ∈ Scrape.asked p.ageThreshold (before ++ after) → t.name ≠ n → ¬ Clash t.name n) →
            samplesNamed (sanitize n) text = [(p.tags, .real x)]) := by
  obtain ⟨taken', pts', t1, t2, m, hm, t3, -, -⟩ := C136_points ext now lines hl ls c hr hsend
  have := map_utf8_inj (hc.symm.trans t1)
  subst this
  rw [hpts, Option.some.injEq, Prod.mk.injEq] at t2
  obtain ⟨rfl, -⟩ := t2
  obtain ⟨v1, v2⟩ := numbers_of_points ext n _ pts t3
  -- the numbers of the lines taken are the first of all
  have hpre : numbersOf ext n ((lines.take m).flatMap Prod.snd) <+: numbersOf ext n (lines.flatMap Prod.snd) := by
    refine ⟨numbersOf ext n ((lines.drop m).flatMap Prod.snd), ?_⟩
    simp only [numbersOf, ← List.filterMap_append, ← List.flatMap_append, List.take_append_drop]
  have hnlen : (pts.filter fun t => t.name = n).length = (numbersOf ext n ((lines.take m).flatMap Prod.snd)).length := by
    have := congrArg List.length v1
    simpa using this
  obtain ⟨new, e1, e2⟩ := scrape_prefix p hage bound before after s0 s h0 h hidle halive n hg hlen
  refine ⟨new, e1, fun r text hmem => ?_⟩
  obtain ⟨k, ops, hk1, hk2, hp, htell, hsub, hgo, hlo⟩ := e2 r text hmem
  rw [hq] at hk2 hp
  rw [hnlen] at hk2
  refine ⟨k, hk1, Nat.le_trans hk2 hpre.length_le, fun x hx => ?_⟩
  have htake : (numbersOf ext n (lines.flatMap Prod.snd)).take k = (numbersOf ext n ((lines.take m).flatMap Prod.snd)).take k := by
    obtain ⟨rest, hrest⟩ := hpre
    rw [← hrest, List.take_append_of_le_length hk2]
  rw [htake] at hx
  cases htk : (numbersOf ext n ((lines.take m).flatMap Prod.snd)).take k with
  | nil => rw [htk] at hx; simp at hx
  | cons y0 ys =>
    rw [htk] at hx
    have hv : (pointsOf n ops).map (·.value) = .set y0 :: ys.map .set := by
      rw [hp, List.map_take, v1, ← List.map_take, htk]; rfl
    have htg : ∀ t ∈ pointsOf n ops, t.tags = none := by
      intro t ht
      rw [hp] at ht
      exact v2 t (List.mem_filter.1 (List.mem_of_mem_take ht)).1
    have hset : ∀ v ∈ Value.set y0 :: ys.map .set, v.kind = .set := by
      intro v hv
      rw [← List.map_cons (f := Value.set)] at hv
      obtain ⟨y, -, rfl⟩ := List.mem_map.1 hv
      rfl
    obtain ⟨y, -, c1, c2, c3, c4⟩ := C114_scrape_exact_partial p hcap ops hgo hlo n (.set y0) (ys.map .set) hv
      (fun v hv => .inl (hset v hv)) htg text htell
    have hy := c1 (fun v hv => hset v (List.mem_cons_of_mem _ hv))
    rw [← List.map_cons (f := Value.set), level_set, hx, Option.some.injEq] at hy
    subst hy
    exact ⟨c2, c3, fun hcl => c4 (fun t ht hne => hcl t (hsub _ ht) hne)⟩

end

/-! ### A concrete case -/

private def clientExt : Graphite.Ext Int :=
  { parseF := fun s => match s with | [c] => if c.isDigit then some ((c.toNat : Int) - 48) else none | _ => none
    parseI := fun s => match s with | [c] => if c.isDigit then some ((c.toNat : Int) - 48) else none | _ => none
    isSpace := fun c => c = ' ' ∨ c = '\n' }

private def written : List (Str × List Triple) :=
  [("a 1 2  b 3 4\n".toList, [⟨['a'], ['1'], ['2']⟩, ⟨['b'], ['3'], ['4']⟩]), ("a 5 6\n".toList, [⟨['a'], ['5'], ['6']⟩])]

/-- the text in three pieces, cut in the middle of words, the first read before the second arrives; then the client closes -/
private def pieces : List Stream.Label :=
  [.arrive (utf8 "a 1 2  b".toList), .poll false, .read, .arrive (utf8 " 3 4\na".toList), .poll false, .read, .read,
   .arrive (utf8 " 5 6\n".toList), .close, .poll true, .read, .read]

private def clientSetup : Scrape.Setup Int := { ext := promExt, tags := [], ageThreshold := none, capacity := 600 }

private def deliveries (pts : List (Telemetry Int)) : List (Scrape.Label Int) := pts.flatMap fun t => [.deliver 9 t, .finish]

private def forwarded : List (Telemetry Int) := ((handleLines clientExt 0 (written.map Prod.fst) []).getD ([], [])).1

private def before : List (Scrape.Label Int) := deliveries (forwarded.take 2)

private def after : List (Scrape.Label Int) := deliveries (forwarded.drop 2) ++ [.request, .poll, .recv, .tryLock, .write 9 [1, 0]]

/-- Non-vacuity of `C136_lines`, `C136_points` and `C136_scrape`. -/
example : (∀ l ∈ written, AsciiLine l.1 ∧ Says clientExt l.1 l.2) ∧
    (∃ s, Stream.run graphite (init graphite {}) pieces = some s ∧ Sending (written.map Prod.fst) pieces s.sock ∧ Asleep s ∧
      s.sock.ending = .fin ∧ s.taken = (written.map Prod.fst).map utf8) ∧
    (handleLines clientExt 0 (written.map Prod.fst) [] = some (forwarded, [])) ∧
    numbersOf clientExt ['a'] (written.flatMap Prod.snd) = [1, 5] ∧
    (Prometheus.pointsOf ['a'] (Scrape.asked clientSetup.ageThreshold before)).length = 1 ∧
    Prometheus.pointsOf ['a'] (Scrape.asked clientSetup.ageThreshold (before ++ after)) = (forwarded.filter fun t => t.name = ['a']) ∧
    (∀ o ∈ Scrape.asked clientSetup.ageThreshold (before ++ after), (match o with
      | .insert t => decide (t.kind ≠ .summarize ∧ (t.name = ['a'] ∨ t.name = ['b'])) | _ => true) = true) ∧
    ¬ Prometheus.Clash ['b'] ['a'] ∧
    ∃ s0 s, Scrape.run clientSetup (.start clientSetup true) before = some s0 ∧ Scrape.run clientSetup s0 after = some s ∧ s0.sink = .idle ∧
      s.sink = .idle ∧ s0.answers = [] ∧
      s.answers.map (fun x => (x.1, x.2.map fun ls => String.ofList (ls.flatMap (Prometheus.Line.text promExt)))) =
        [(0, some "# TYPE b gauge\nb 3\n# TYPE a gauge\na 5\n")] := by
  refine ⟨?_, ⟨_, rfl, ⟨⟨[], by decide +kernel⟩, fun _ => by decide +kernel⟩, ⟨by decide +kernel, by decide +kernel, by decide +kernel⟩,
    by decide +kernel, by decide +kernel⟩, by decide +kernel, by decide +kernel, by decide +kernel, by decide +kernel, by decide +kernel,
    by simp only [Prometheus.Clash]; decide, _, _, rfl, rfl, rfl, rfl, rfl, by decide +kernel⟩
  intro l hl
  simp only [written, List.mem_cons, List.not_mem_nil, or_false] at hl
  rcases hl with rfl | rfl
  · refine ⟨⟨by decide, "a 1 2  b 3 4".toList, by decide, by decide⟩, by simp, ?_, by decide⟩
    intro t ht
    simp only [List.mem_cons, List.not_mem_nil, or_false] at ht
    rcases ht with rfl | rfl <;> exact ⟨by decide, by decide⟩
  · refine ⟨⟨by decide, "a 5 6".toList, by decide, by decide⟩, by simp, ?_, by decide⟩
    intro t ht
    simp only [List.mem_cons, List.not_mem_nil, or_false] at ht
    subst ht
    exact ⟨by decide, by decide⟩

/-- An unfinished last line is taken when the client closes: that is why `Sending` asks for whole lines before the end. -/
example : ∃ s, Stream.run graphite (init graphite {}) [.arrive (utf8 "a 1".toList), .close, .poll true, .read, .read] = some s ∧
    Asleep s ∧ s.taken = [utf8 "a 1".toList] := by
  refine ⟨_, rfl, ⟨by decide +kernel, by decide +kernel, by decide +kernel⟩, by decide +kernel⟩

end Verif
