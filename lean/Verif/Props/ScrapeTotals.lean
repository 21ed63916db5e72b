import Verif.Lemmas.Tags
import Verif.Spec.Totals
import Verif.Props.Scrape
import Verif.Props.Statsd
/-!
# C113: counters from statsd packets to the text a Prometheus server scrapes
-/
namespace Verif
open Prometheus Scrape
section
variable {F : Type} [F64 F]

private theorem samplesNamed_append (x : Str) (a b : List (Line F)) :
    samplesNamed x (a ++ b) = samplesNamed x a ++ samplesNamed x b := by
  simp [samplesNamed, List.filterMap_append]

private theorem samplesNamed_none (x m : Str) (b : List (Line F)) (hb : ∀ l ∈ b, SampleOf m l)
    (hx : ¬ (x = m ∨ x = m ++ "_sum".toList ∨ x = m ++ "_count".toList)) : samplesNamed x b = [] := by
  simp only [samplesNamed, List.filterMap_eq_nil_iff]
  intro l hl
  have h := hb l hl
  cases l with
  | type => rfl
  | sample n labels v =>
    simp only [SampleOf] at h
    have : n ≠ x := fun e => hx (by rw [← e]; exact h)
    simp [this]

/-- What is written for a point, wherever it is in the report. -/
private theorem written (ext : Ext F) (tags : TagMap) (q : Telemetry F) (v : F) (hv : q.value = .set v ∨ q.value = .sum v) :
    ∀ (pts : List (Telemetry F)) (seen : List Str) (ls : List (Line F)), writeText ext tags seen pts = some ls →
    (pts.map (·.name)).Nodup → q.name ∉ seen →
    (q ∈ pts → .sample (sanitize q.name) (q.iterTags tags) (.real v) ∈ ls ∧ typeName q.kind ∈ typeLines (sanitize q.name) ls) ∧
    ((∀ p ∈ pts, p.name ≠ q.name → ¬ Clash p.name q.name) →
      (q ∈ pts → samplesNamed (sanitize q.name) ls = [(q.iterTags tags, .real v)]) ∧
      ((∀ p ∈ pts, p.name ≠ q.name) → samplesNamed (sanitize q.name) ls = [])) := by
  have hbody : body ext tags q = some [.sample (sanitize q.name) (q.iterTags tags) (.real v)] := by
    rcases hv with hv | hv <;> simp only [body, hv]
  intro pts
  induction pts with
  | nil =>
    intro seen ls h _ _
    simp only [writeText, Option.some.injEq] at h
    subst h
    simp [samplesNamed]
  | cons p pts ih =>
    intro seen ls h hnd hq
    rw [writeText_cons] at h
    simp only [List.map_cons, List.nodup_cons] at hnd
    cases hb : body ext tags p with
    | none => rw [hb] at h; simp at h
    | some b =>
      cases hr : writeText ext tags (p.name :: seen) pts with
      | none => rw [hb, hr] at h; simp at h
      | some rest =>
        rw [hb, hr] at h
        simp only [Option.some.injEq] at h
        subst h
        have htype : ∀ x : Str, samplesNamed x (if p.name ∈ seen then [] else [Line.type (F := F) (sanitize p.name) (typeName p.kind)]) = [] := by
          intro x; split <;> rfl
        by_cases hpn : p.name = q.name
        · have hout : q ∉ pts := fun hm => hnd.1 (List.mem_map.2 ⟨q, hm, hpn.symm⟩)
          have hother : ∀ p' ∈ pts, p'.name ≠ q.name := fun p' hp' e =>
            hnd.1 (List.mem_map.2 ⟨p', hp', by rw [e, hpn]⟩)
          constructor
          · intro hm
            rcases List.mem_cons.1 hm with rfl | hm
            · rw [hbody, Option.some.injEq] at hb
              subst hb
              refine ⟨List.mem_append_right _ (by simp), ?_⟩
              rw [if_neg hq]
              simp only [typeLines, List.singleton_append, List.filterMap_cons, if_true]
              exact List.mem_cons_self
            · exact absurd hm hout
          · intro hcl
            have hrest : samplesNamed (sanitize q.name) rest = [] := by
              -- every other point writes lines of other names
              have gen : ∀ (ps : List (Telemetry F)) (seen : List Str) (ls : List (Line F)), writeText ext tags seen ps = some ls →
                  (∀ p ∈ ps, ¬ Clash p.name q.name) → samplesNamed (sanitize q.name) ls = [] := by
                intro ps
                induction ps with
                | nil =>
                  intro seen ls h _
                  simp only [writeText, Option.some.injEq] at h
                  subst h; rfl
                | cons p' ps ih' =>
                  intro seen ls h hc
                  rw [writeText_cons] at h
                  cases hb' : body ext tags p' with
                  | none => rw [hb'] at h; simp at h
                  | some b' =>
                    cases hr' : writeText ext tags (p'.name :: seen) ps with
                    | none => rw [hb', hr'] at h; simp at h
                    | some rest' =>
                      rw [hb', hr'] at h
                      simp only [Option.some.injEq] at h
                      subst h
                      rw [samplesNamed_append, samplesNamed_append, ih' _ _ hr' (fun p hp => hc p (by simp [hp])),
                        samplesNamed_none _ _ b' (body_samples ext tags p' b' hb') (hc p' (by simp))]
                      split <;> rfl
              exact gen pts _ rest hr (fun p' hp' => hcl p' (by simp [hp']) (hother p' hp'))
            constructor
            · intro hm
              rcases List.mem_cons.1 hm with rfl | hm
              · rw [hbody, Option.some.injEq] at hb
                subst hb
                rw [samplesNamed_append, samplesNamed_append, htype, hrest]
                simp [samplesNamed]
              · exact absurd hm hout
            · intro hne; exact absurd hpn (hne p (by simp))
        · have hseen : q.name ∉ p.name :: seen := by simp [hq, Ne.symm hpn]
          obtain ⟨i1, i2⟩ := ih (p.name :: seen) rest hr hnd.2 hseen
          have hqp : q ≠ p := fun e => hpn (by rw [e])
          constructor
          · intro hm
            have hm := (List.mem_cons.1 hm).resolve_left hqp
            obtain ⟨j1, j2⟩ := i1 hm
            refine ⟨by simp [j1], ?_⟩
            simp only [typeLines, List.filterMap_append, List.mem_append] at j2 ⊢
            exact .inr (.inr j2)
          · intro hcl
            have hbn : samplesNamed (sanitize q.name) b = [] :=
              samplesNamed_none _ _ b (body_samples ext tags p b hb) (hcl p (by simp) hpn)
            obtain ⟨k1, k2⟩ := i2 (fun p' hp' => hcl p' (by simp [hp']))
            rw [samplesNamed_append, samplesNamed_append, htype, hbn, List.nil_append, List.nil_append]
            exact ⟨fun hm => k1 ((List.mem_cons.1 hm).resolve_left hqp), fun hne => k2 (fun p' hp' => hne p' (by simp [hp']))⟩

private theorem foldl_keeps (ts : List (Telemetry F)) : ∀ t : Telemetry F,
    (ts.foldl Telemetry.addAssign t).tags = t.tags ∧ (ts.foldl Telemetry.addAssign t).name = t.name := by
  induction ts with
  | nil => intro t; exact ⟨rfl, rfl⟩
  | cons u ts ih => intro t; rw [List.foldl_cons]; exact ih _

private theorem sum_value {t : Telemetry F} {v : F} (h : t.sum = some v) : t.value = .sum v := by
  cases hv : t.value <;> simp [Telemetry.sum, hv] at h
  rw [h]

/-- What a scrape says of a name whose first point is an untagged counter or gauge: the points of that kind added up. -/
theorem scrape_shows (p : Setup F) (hcap : 1 ≤ p.capacity) (ops : List (Op F)) (hg : GoodOps ops) (hlen : ops.length < 2 ^ 64 - 1)
    (n : Str) (t0 : Telemetry F) (us : List (Telemetry F)) (hp : pointsOf n ops = t0 :: us) (htags : t0.tags = none) (x : F)
    (hx : ((us.filter fun u => decide (u.kind = t0.kind)).foldl Telemetry.addAssign t0).value = .set x ∨
      ((us.filter fun u => decide (u.kind = t0.kind)).foldl Telemetry.addAssign t0).value = .sum x)
    (hk0 : t0.kind = .set ∨ t0.kind = .sum) (text : List (Line F)) (ht : Tells p ops text) :
    .sample (sanitize n) p.tags (.real x) ∈ text ∧ typeName t0.kind ∈ typeLines (sanitize n) text ∧
    ((∀ t, .insert t ∈ ops → t.name ≠ n → ¬ Clash t.name n) → samplesNamed (sanitize n) text = [(p.tags, .real x)]) := by
  obtain ⟨a, now, order, e, ho, hs⟩ := ht
  obtain ⟨a', ts, e1, hacc, hrep⟩ := C75_kept_forever p.ext p.capacity hcap ops hg hlen n t0 (by rw [hp]; rfl)
    (by rcases hk0 with h | h <;> rw [h] <;> simp)
  rw [e, Option.some.injEq] at e1
  subst e1
  simp only [accepted, hp, List.cons.injEq, true_and] at hacc
  rw [hacc] at hx
  have hkind' : (ts.foldl Telemetry.addAssign t0).kind = t0.kind := by
    have gen : ∀ (ts : List (Telemetry F)) (t : Telemetry F), (∀ u ∈ ts, u.kind = t.kind) → (ts.foldl Telemetry.addAssign t).kind = t.kind := by
      intro ts
      induction ts with
      | nil => intro t _; rfl
      | cons u ts ih =>
        intro t h
        have hu : (t.addAssign u).kind = t.kind := by rw [addAssign_kind]; exact h u (by simp)
        rw [List.foldl_cons, ih _ (fun w hw => by rw [hu]; exact h w (by simp [hw])), hu]
    refine gen ts t0 (fun u hu => ?_)
    rw [← hacc] at hu
    simpa using (List.mem_filter.1 hu).2
  obtain ⟨pts, r1, r2⟩ := hrep now order ho
  obtain ⟨a2, e2, honce⟩ := C49_reported_once p.ext p.capacity hcap ops hg hlen
  rw [e, Option.some.injEq] at e2
  subst e2
  obtain ⟨pts', r3, r4⟩ := honce now order ho
  rw [r1, Option.some.injEq] at r3
  subst r3
  obtain ⟨a3, e3, hkind, -⟩ := C48_one_kind p.ext p.capacity hcap ops hg hlen
  rw [e, Option.some.injEq] at e3
  subst e3
  obtain ⟨pts'', r5, r6⟩ := hkind now order ho
  rw [r1, Option.some.injEq] at r5
  subst r5
  have hq := (r2 (ts.foldl Telemetry.addAssign t0)).2 rfl
  have hqt : (ts.foldl Telemetry.addAssign t0).iterTags p.tags = p.tags := by
    simp only [Telemetry.iterTags, (foldl_keeps ts t0).1, htags]
    exact TagIter.collect_none _
  cases hw : writeText p.ext p.tags [] pts with
  | none => simp [scrape, r1, hw] at hs
  | some ls =>
    have hans := (C51_scrape_answer p.ext p.tags p.gzip now order pts ls r1 hw).2
    rw [hs, if_neg (fun h => by rw [h.1] at hq; simp at hq), Option.some.injEq, Option.some.injEq] at hans
    subst hans
    obtain ⟨w1, w2⟩ := written p.ext p.tags _ _ hx pts [] text hw r4 (by simp)
    rw [hq.2, hqt] at w1 w2
    rw [hkind'] at w1
    refine ⟨(w1 hq.1).1, (w1 hq.1).2, fun hcl => ?_⟩
    refine (w2 ?_).1 hq.1
    intro p' hp' hne
    obtain ⟨u, hu, -⟩ := r6 p' hp'
    have hmem : u ∈ pointsOf p'.name ops := List.mem_of_mem_head? hu
    have gen : ∀ (ops : List (Op F)), u ∈ pointsOf p'.name ops → Op.insert u ∈ ops ∧ u.name = p'.name := by
      intro ops
      induction ops with
      | nil => intro h; simp [pointsOf] at h
      | cons o ops ih =>
        intro h
        cases o with
        | insert t =>
          simp only [pointsOf] at h
          split at h
          · rename_i he
            rcases List.mem_cons.1 h with rfl | h
            · exact ⟨by simp, he⟩
            · exact ⟨by simp [(ih h).1], (ih h).2⟩
          · exact ⟨by simp [(ih h).1], (ih h).2⟩
        | purge now => exact ⟨by simp [(ih h).1], (ih h).2⟩
    obtain ⟨g1, g2⟩ := gen ops hmem
    rw [← g2]
    exact hcl u g1 (by rw [g2]; exact hne)

/-- **C113** (the sink) What a scrape says of any history in which a name has only had counters without tags: one sample, with the
tags of the sink and the sum of the counters from the first to the last, declared as a counter.  It is the only line of that name unless
another name in the history is cleaned up to it. -/
theorem C113_sink (p : Setup F) (hcap : 1 ≤ p.capacity) (ops : List (Op F)) (hg : GoodOps ops) (hlen : ops.length < 2 ^ 64 - 1)
    (n : Str) (x0 : F) (xs : List F) (hx : (pointsOf n ops).map (·.value) = (x0 :: xs).map .sum)
    (htags : ∀ t ∈ pointsOf n ops, t.tags = none) (text : List (Line F)) (ht : Tells p ops text) :
    .sample (sanitize n) p.tags (.real (xs.foldl F64.add x0)) ∈ text ∧ "counter".toList ∈ typeLines (sanitize n) text ∧
    ((∀ t, .insert t ∈ ops → t.name ≠ n → ¬ Clash t.name n) →
      samplesNamed (sanitize n) text = [(p.tags, .real (xs.foldl F64.add x0))]) := by
  cases hp : pointsOf n ops with
  | nil => rw [hp] at hx; simp at hx
  | cons t0 us =>
    rw [hp] at hx htags
    simp only [List.map_cons, List.cons.injEq] at hx
    have hk : ∀ t : Telemetry F, ∀ v, t.value = .sum v → t.kind = .sum := by
      intro t v h; simp [Telemetry.kind, h, Value.kind]
    have hk0 := hk t0 x0 hx.1
    have hus : us.filter (fun u => decide (u.kind = t0.kind)) = us := by
      refine List.filter_eq_self.2 (fun t ht => ?_)
      have : t.value ∈ us.map (·.value) := List.mem_map.2 ⟨t, ht, rfl⟩
      rw [hx.2] at this
      obtain ⟨v, -, hv⟩ := List.mem_map.1 this
      simp [hk t v hv.symm, hk0]
    have hval := sum_value ((C75_totals t0 us).1 x0 xs hx.1 hx.2)
    have := scrape_shows p hcap ops hg hlen n t0 us hp (htags t0 (by simp)) _ (.inr (by rw [hus]; exact hval)) (.inr hk0) text ht
    rw [hk0] at this
    exact this

end

open Statsd
section
variable {F : Type} [F64 F]

private theorem counters_of (cfg : Config F) (now : Int) (n : Str) : ∀ (rs : List Reading) (pts : List (Telemetry F)),
    rs.map (·.point cfg now) = pts.map some → (∀ r ∈ rs, r.name = n → r.ty = .counter) →
    (pts.filter fun t => t.name = n).map (·.value) = (numbersOf cfg n rs).map .sum ∧ ∀ t ∈ pts, t.tags = none := by
  intro rs
  induction rs with
  | nil => intro pts h _; cases pts with
    | nil => exact ⟨rfl, by simp⟩
    | cons => simp at h
  | cons r rs ih =>
    intro pts h hc
    cases pts with
    | nil => simp at h
    | cons t pts =>
      simp only [List.map_cons, List.cons.injEq] at h
      obtain ⟨i1, i2⟩ := ih pts h.2 (fun x hx => hc x (by simp [hx]))
      have hp := h.1
      simp only [Reading.point, Option.bind_eq_some_iff, Option.map_eq_some_iff] at hp
      obtain ⟨v, hv, value, hval, rfl⟩ := hp
      refine ⟨?_, fun t ht => ?_⟩
      · by_cases hn : r.name = n
        · have hty := hc r (by simp) hn
          simp only [Reading.pointValue, hty, Option.some.injEq] at hval
          subst hval
          simp only [numbersOf] at i1
          simp [numbersOf, hn, hv, i1]
        · simp only [numbersOf] at i1
          simp [numbersOf, hn, i1]
      · rcases List.mem_cons.1 ht with rfl | ht
        · rfl
        · exact i2 t ht

/-- Readings that mean something have points. -/
theorem points_exist (cfg : Config F) (now : Int) (hu : cfg.Usable) (ha : cfg.AsciiNumbers) (rs : List Reading)
    (hv : ∀ r ∈ rs, r.Valid cfg) : ∃ pts : List (Telemetry F), rs.map (·.point cfg now) = pts.map some := by
  induction rs with
  | nil => exact ⟨[], rfl⟩
  | cons r rs ih =>
    obtain ⟨pts, h⟩ := ih (fun x hx => hv x (by simp [hx]))
    obtain ⟨t, ht, -⟩ := (C40_line cfg now hu ha r.text).1 r (hv r (by simp)) rfl
    exact ⟨t :: pts, by simp [h, ht]⟩

/-- **C113** (the source) Of packets that carry readings, the source sends, for a name reported as a counter, one untagged counter for each
reading, in order, with the number reported. -/
theorem C113_source (cfg : Config F) (hu : cfg.Usable) (ha : cfg.AsciiNumbers) (n : Str) :
    ∀ (packets : List (Datagram × List Reading)), (∀ p ∈ packets, Carries cfg p.1 p.2) →
    (∀ p ∈ packets, ∀ r ∈ p.2, r.name = n → r.ty = .counter) →
    ∃ sent, handleDatagrams cfg (packets.map Prod.fst) [] = (sent, true) ∧
      (sent.filter fun t => t.name = n).map (·.value) = (numbersOf cfg n (packets.flatMap Prod.snd)).map .sum ∧
      ∀ t ∈ sent, t.tags = none := by
  intro packets
  induction packets with
  | nil => intro _ _; exact ⟨[], rfl, rfl, by simp⟩
  | cons p packets ih =>
    intro hcar hc
    obtain ⟨d, rs⟩ := p
    obtain ⟨sent, s1, s2, s3⟩ := ih (fun q hq => hcar q (by simp [hq])) (fun q hq => hc q (by simp [hq]))
    obtain ⟨hne, hval, text, ht, hl⟩ := hcar (d, rs) (by simp)
    have ht : d.text = some text := ht
    obtain ⟨pts, hp⟩ := points_exist cfg d.now hu ha rs hval
    have hacc := (C40_packet cfg d.now hu ha text pts).2 ⟨rs, hne, hval, hl, hp⟩
    obtain ⟨t1, t2⟩ := counters_of cfg d.now n rs pts hp (hc (d, rs) (by simp))
    refine ⟨pts ++ sent, ?_, ?_, ?_⟩
    · simp only [List.map_cons, handleDatagrams, ht, hacc, s1]
    · rw [List.filter_append, List.map_append, t1, s2]
      simp [numbersOf, List.filterMap_append]
    · intro t h
      rcases List.mem_append.1 h with h | h
      · exact t2 t h
      · exact s3 t h

private theorem pointsOf_append (n : Str) (a b : List (Op F)) : pointsOf n (a ++ b) = pointsOf n a ++ pointsOf n b := by
  induction a with
  | nil => rfl
  | cons o a ih =>
    cases o with
    | insert t => simp only [List.cons_append, pointsOf, ih]; split <;> simp
    | purge now => simpa [pointsOf] using ih

private theorem history_append (p : Setup F) (ls ms : List (Scrape.Label F)) : ∀ s s', Scrape.run p s ls = some s' →
    history p s (ls ++ ms) = history p s ls ++ history p s' ms := by
  induction ls with
  | nil => intro s s' h; simp only [Scrape.run, Option.some.injEq] at h; subst h; rfl
  | cons l ls ih =>
    intro s s' h
    simp only [Scrape.run] at h
    cases hs : Scrape.step p s l with
    | none => rw [hs] at h; cases h
    | some s1 =>
      rw [hs] at h
      simp only [List.cons_append, history, hs, ih s1 s' h, List.append_assoc]

private theorem asked_append (age : Option Nat) (a b : List (Scrape.Label F)) : asked age (a ++ b) = asked age a ++ asked age b := by
  induction a with
  | nil => rfl
  | cons l a ih => cases l <;> simp [asked, ih]

theorem asked_length (age : Option Nat) (ls : List (Scrape.Label F)) : (asked age ls).length ≤ ls.length := by
  induction ls with
  | nil => simp [asked]
  | cons l ls ih =>
    cases l with
    | deliver now t =>
      cases age with
      | none => simp only [asked, List.length_append, List.length_cons, List.length_nil]; omega
      | some a =>
        simp only [asked, List.length_append, List.length_cons]
        split <;> simp only [List.length_cons, List.length_nil] <;> omega
    | _ => simp only [asked, List.length_cons]; omega

/-- A scrape answered after some moment tells of a history that has, of the points of a name given to the sink, the first `k`, at least
those given by that moment. -/
theorem scrape_prefix (p : Setup F) (hage : ∀ a, p.ageThreshold = some a → a < 2 ^ 63) (bound : Bool)
    (before after : List (Scrape.Label F)) (s0 s : Scrape.State F) (h0 : Scrape.run p (.start p bound) before = some s0)
    (h : Scrape.run p s0 after = some s) (hidle : s0.sink = .idle) (halive : s.sink ≠ .panicked) (n : Str)
    (hg : GoodOps (asked p.ageThreshold (before ++ after))) (hlen : (before ++ after).length < 2 ^ 64 - 1) :
    ∃ new, s.answers = s0.answers ++ new ∧ ∀ r text, (r, some text) ∈ new →
      ∃ k ops, (pointsOf n (asked p.ageThreshold before)).length ≤ k ∧ k ≤ (pointsOf n (asked p.ageThreshold (before ++ after))).length ∧
        pointsOf n ops = (pointsOf n (asked p.ageThreshold (before ++ after))).take k ∧ Tells p ops text ∧
        (∀ op ∈ ops, op ∈ asked p.ageThreshold (before ++ after)) ∧ GoodOps ops ∧ ops.length < 2 ^ 64 - 1 := by
  obtain ⟨new, e1, e2⟩ := C99_fresh p bound before after s0 s h0 h
  have hb := C99_asked p hage bound before s0 h0 (by rw [hidle]; simp)
  rw [hidle] at hb
  simp only [unfinished, List.append_nil] at hb
  have hrun : Scrape.run p (.start p bound) (before ++ after) = some s := by
    rw [Scrape.run_append, h0]; exact h
  have hab := C99_asked p hage bound (before ++ after) s hrun halive
  rw [history_append p before after _ _ h0] at hab
  refine ⟨new, e1, fun r text hm => ?_⟩
  obtain ⟨m, htell⟩ := e2 r text hm
  have hops : ∃ rest, asked p.ageThreshold (before ++ after) =
      (history p (.start p bound) before ++ (history p s0 after).take m) ++ rest := by
    refine ⟨(history p s0 after).drop m ++ unfinished s.sink, ?_⟩
    rw [← hab, List.append_assoc _ _ (_ ++ _), ← List.append_assoc (List.take m _), List.take_append_drop, List.append_assoc]
  obtain ⟨rest, hops⟩ := hops
  have hsub : ∀ op, op ∈ history p (.start p bound) before ++ (history p s0 after).take m →
      op ∈ asked p.ageThreshold (before ++ after) := by
    intro op hop; rw [hops]; simp only [List.mem_append] at hop ⊢; exact .inl hop
  refine ⟨(pointsOf n (history p (.start p bound) before ++ (history p s0 after).take m)).length, _, ?_, ?_, ?_, htell, hsub,
    fun t ht => hg t (hsub _ ht), ?_⟩
  · rw [← hb, pointsOf_append]; simp
  · rw [hops, pointsOf_append _ _ rest]; simp
  · rw [hops, pointsOf_append _ _ rest]; simp
  · have h1 := asked_length p.ageThreshold (before ++ after)
    rw [hops, List.length_append] at h1
    omega

/-- **C113** Clients report a counter in any packets, any of which may also report other things.  The Prometheus sink receives the points
of that name that the source sent, in their order, among points of other names from anywhere, with flushes and scrapes at any time.  By
some moment it is done with the first `j` of them.  Every scrape answered with a text after that moment shows the sum of the first `k`
numbers the clients reported, for some `k` not less than `j`, under the cleaned-up name with the tags of the sink, declared as a counter;
and it shows nothing else under that name, unless another name is cleaned up to it. -/
theorem C113_statsd_to_scrape (cfg : Config F) (hu : cfg.Usable) (ha : cfg.AsciiNumbers) (n : Str)
    (packets : List (Datagram × List Reading)) (hcar : ∀ p ∈ packets, Carries cfg p.1 p.2)
    (hc : ∀ p ∈ packets, ∀ r ∈ p.2, r.name = n → r.ty = .counter)
    (p : Setup F) (hcap : 1 ≤ p.capacity) (hage : ∀ a, p.ageThreshold = some a → a < 2 ^ 63) (bound : Bool)
    (before after : List (Scrape.Label F)) (s0 s : Scrape.State F) (h0 : Scrape.run p (.start p bound) before = some s0)
    (h : Scrape.run p s0 after = some s) (hidle : s0.sink = .idle) (halive : s.sink ≠ .panicked)
    (hq : pointsOf n (asked p.ageThreshold (before ++ after)) =
      (handleDatagrams cfg (packets.map Prod.fst) []).1.filter fun t => t.name = n)
    (hg : GoodOps (asked p.ageThreshold (before ++ after))) (hlen : (before ++ after).length < 2 ^ 64 - 1) :
    ∃ new, s.answers = s0.answers ++ new ∧ ∀ r text, (r, some text) ∈ new →
      ∃ k, (pointsOf n (asked p.ageThreshold before)).length ≤ k ∧
        k ≤ (numbersOf cfg n (packets.flatMap Prod.snd)).length ∧
        ∀ x0 xs, (numbersOf cfg n (packets.flatMap Prod.snd)).take k = x0 :: xs →
          .sample (sanitize n) p.tags (.real (xs.foldl F64.add x0)) ∈ text ∧ "counter".toList ∈ typeLines (sanitize n) text ∧
          ((∀ t, .insert t ∈ asked p.ageThreshold (before ++ after) → t.name ≠ n → ¬ Clash t.name n) →
            samplesNamed (sanitize n) text = [(p.tags, .real (xs.foldl F64.add x0))]) := by
  obtain ⟨sent, s1, s2, s3⟩ := C113_source cfg hu ha n packets hcar hc
  rw [s1] at hq
  have hnlen : (sent.filter fun t => t.name = n).length = (numbersOf cfg n (packets.flatMap Prod.snd)).length := by
    have := congrArg List.length s2
    simpa using this
  obtain ⟨new, e1, e2⟩ := scrape_prefix p hage bound before after s0 s h0 h hidle halive n hg hlen
  refine ⟨new, e1, fun r text hm => ?_⟩
  obtain ⟨k, ops, hk1, hk2, hpts, htell, hsub, hgo, hlo⟩ := e2 r text hm
  rw [hq] at hk2 hpts
  simp only at hk2 hpts
  refine ⟨k, hk1, by rw [← hnlen]; exact hk2, fun x0 xs hx => ?_⟩
  have hv : (pointsOf n ops).map (·.value) = (x0 :: xs).map .sum := by
    rw [hpts, List.map_take, s2, ← List.map_take, hx]
  have htg : ∀ t ∈ pointsOf n ops, t.tags = none := by
    intro t ht
    rw [hpts] at ht
    exact s3 t (List.mem_filter.1 (List.mem_of_mem_take ht)).1
  obtain ⟨c1, c2, c3⟩ := C113_sink p hcap _ hgo hlo n x0 xs hv htg text htell
  exact ⟨c1, c2, fun hcl => c3 (fun t ht hne => hcl t (hsub _ ht) hne)⟩

end

/-- two packets: a counter beside a gauge, then the counter again and a sampled one -/
private def packets : List (Datagram × List Reading) :=
  [(⟨some "a.b:2|c\nx:5|g\n".toList, 7⟩, [⟨['a', '.', 'b'], ['2'], .counter, none⟩, ⟨['x'], ['5'], .gauge, none⟩]),
   (⟨some "a.b:3|c\na.b:4|c|@1".toList, 8⟩,
     [⟨['a', '.', 'b'], ['3'], .counter, none⟩, ⟨['a', '.', 'b'], ['4'], .counter, some (true, ['1'])⟩])]

private def setup : Setup Int :=
  { ext := promExt, tags := [(['h'], ['1'])], ageThreshold := some 60, capacity := 600 }

private def deliveries (pts : List (Telemetry Int)) : List (Scrape.Label Int) := pts.flatMap fun t => [.deliver 9 t, .finish]

/-- the first two points, a flush; then a scrape, the other two, a late point of another name, and two more scrapes -/
private def before : List (Scrape.Label Int) :=
  deliveries ((handleDatagrams demo (packets.map Prod.fst) []).1.take 2) ++ [.flush 9, .finish]

private def after : List (Scrape.Label Int) :=
  [.request, .poll, .recv, .tryLock, .write 9 [0, 1]] ++ deliveries ((handleDatagrams demo (packets.map Prod.fst) []).1.drop 2) ++
    [.deliver 999 (promPoint "a_b" none 7), .request, .poll, .recv, .tryLock, .write 9 [1, 0]]

example : demo.Usable ∧ demo.AsciiNumbers ∧ (∀ p ∈ packets, Carries demo p.1 p.2) ∧
    (∀ p ∈ packets, ∀ r ∈ p.2, r.name = "a.b".toList → r.ty = .counter) ∧
    numbersOf demo "a.b".toList (packets.flatMap Prod.snd) = [2, 3, 4] ∧
    (pointsOf "a.b".toList (asked setup.ageThreshold before)).length = 1 ∧
    pointsOf "a.b".toList (asked setup.ageThreshold (before ++ after)) =
      ((handleDatagrams demo (packets.map Prod.fst) []).1.filter fun t => t.name = "a.b".toList) ∧
    GoodOps (asked setup.ageThreshold (before ++ after)) ∧
    (∀ t, .insert t ∈ asked setup.ageThreshold (before ++ after) → t.name ≠ "a.b".toList → ¬ Clash t.name "a.b".toList) ∧
    ∃ s0 s, Scrape.run setup (.start setup true) before = some s0 ∧ Scrape.run setup s0 after = some s ∧ s0.sink = .idle ∧
      s.sink = .idle ∧ s0.answers = [] ∧ s.answers.map (fun x => (x.1, x.2.map fun ls => String.ofList (ls.flatMap (Line.text promExt)))) =
        [(0, some "# TYPE a_b counter\na_b{h=\"1\"} 2\n# TYPE x gauge\nx{h=\"1\"} 5\n"),
         (1, some "# TYPE x gauge\nx{h=\"1\"} 5\n# TYPE a_b counter\na_b{h=\"1\"} 9\n")] := by
  refine ⟨⟨by decide, by decide⟩, demo_ascii, ?_, by decide, by decide, by decide +kernel, by decide +kernel, ?_, ?_, _, _, rfl, rfl, rfl, rfl, rfl, by decide +kernel⟩
  · intro p hp
    simp only [packets, List.mem_cons, List.not_mem_nil, or_false] at hp
    rcases hp with rfl | rfl
    · refine ⟨by simp, ?_, _, rfl, by decide⟩
      intro r hr
      simp only [List.mem_cons, List.not_mem_nil, or_false] at hr
      rcases hr with rfl | rfl <;> exact ⟨by decide, by decide, by decide, by decide, by simp⟩
    · refine ⟨by simp, ?_, _, rfl, by decide⟩
      intro r hr
      simp only [List.mem_cons, List.not_mem_nil, or_false] at hr
      rcases hr with rfl | rfl
      · exact ⟨by decide, by decide, by decide, by decide, by simp⟩
      · refine ⟨by decide, by decide, by decide, by decide, ?_⟩
        intro bar rate h
        simp only [Option.some.injEq, Prod.mk.injEq] at h
        rw [← h.2]; decide
  · intro t ht hk
    have : ∀ o ∈ asked setup.ageThreshold (before ++ after), (match o with | .insert t => decide (t.kind = .summarize) | _ => false) = false := by
      decide +kernel
    have := this _ ht
    simp [hk] at this
  · intro t ht hn
    have : ∀ o ∈ asked setup.ageThreshold (before ++ after), (match o with
        | .insert t => decide (t.name = "a.b".toList ∨ t.name = ['x']) | _ => true) = true := by
      decide +kernel
    have := this _ ht
    simp only [decide_eq_true_eq] at this
    rw [this.resolve_left hn]
    simp only [Clash]
    decide

end Verif
