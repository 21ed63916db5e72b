import Verif.Lemmas.PrometheusText
import Verif.Lemmas.PrometheusRead
/-!
# C47 (Prometheus), C48-C52, C74, C75: the Prometheus sink
-/
namespace Verif
open Prometheus
section
variable {F : Type} [F64 F]

/-- Summary points in a history are not empty (they have a largest sample). -/
def GoodOps (ops : List (Op F)) : Prop :=
  ∀ t, Op.insert t ∈ ops → t.kind = .summarize → ∃ v, top t v

private theorem history (ext : Ext F) (cap : Nat) (hc : 1 ≤ cap) (ops : List (Op F))
    (hg : GoodOps ops) (hlen : ops.length < 2 ^ 64 - 1) :
    ∃ a, run ext (Aggr.new cap) ops = some a ∧ Inv ext cap (fun _ => True) ops a :=
  reachable (fun _ _ _ _ => trivial) hc ops (fun t ht => ⟨trivial, hg t ht⟩) hlen

private theorem entry {ext : Ext F} {cap : Nat} {P : Telemetry F → Prop} {ops : List (Op F)}
    {a : Aggr F} (hi : Inv ext cap P ops a) (n : Str) (acc : Acc F) (h : find a.data n = some acc) :
    ∃ t0 ts, accepted n ops = t0 :: ts ∧ (pointsOf n ops).head? = some t0 ∧
      AccOk ext cap (fun t => t.name = n ∧ P t) (t0 :: ts) acc := by
  have := hi.ok n
  rw [h] at this
  rw [accepted_eq]
  cases hp : pointsOf n ops with
  | nil => rw [hp] at this; exact this.elim
  | cons t0 ts => rw [hp] at this; exact ⟨t0, _, rfl, rfl, this⟩

private theorem entry_of {ext : Ext F} {cap : Nat} {P : Telemetry F → Prop} {ops : List (Op F)}
    {a : Aggr F} (hi : Inv ext cap P ops a) (n : Str) (t0 : Telemetry F)
    (h : (pointsOf n ops).head? = some t0) :
    ∃ acc ts, find a.data n = some acc ∧ accepted n ops = t0 :: ts ∧
      AccOk ext cap (fun t => t.name = n ∧ P t) (t0 :: ts) acc := by
  have := hi.ok n
  rw [accepted_eq]
  cases hp : pointsOf n ops with
  | nil => rw [hp] at h; simp at h
  | cons u ts =>
    rw [hp] at h this
    simp only [List.head?_cons, Option.some.injEq] at h
    subst h
    cases hf : find a.data n with
    | none => rw [hf] at this; exact this.elim
    | some acc => rw [hf] at this; exact ⟨acc, _, rfl, rfl, this⟩

private theorem addName {P : Telemetry F → Prop} (hadd : ∀ a b, P a → P b → P (a.addAssign b))
    (n : Str) : ∀ a b : Telemetry F, (a.name = n ∧ P a) → (b.name = n ∧ P b) →
      ((a.addAssign b).name = n ∧ P (a.addAssign b)) :=
  fun a b ha hb => ⟨ha.1, hadd a b ha.2 hb.2⟩

/-- What a scrape of a reachable state reports, in any iteration order of the map. -/
private theorem reported {ext : Ext F} {cap : Nat} {P : Telemetry F → Prop} {ops : List (Op F)}
    {a : Aggr F} (hi : Inv ext cap P ops a) (hadd : ∀ a b, P a → P b → P (a.addAssign b))
    (now : Int) (order : List (Str × Acc F)) (ho : order.Perm a.data) :
    ∃ pts, report now order = some pts ∧ (pts.map (·.name)).Nodup ∧
      (∀ p, p ∈ pts ↔ ∃ n acc, find a.data n = some acc ∧ acc.report now = some (some p)) ∧
      (∀ n acc p, find a.data n = some acc → acc.report now = some (some p) → p.name = n) := by
  have hn : Names order := (ho.map Prod.fst).nodup_iff.mpr hi.names
  have hmem : ∀ n acc, (n, acc) ∈ order ↔ find a.data n = some acc := by
    intro n acc; rw [ho.mem_iff]; exact find_mem hi.names n acc
  have hrep : ∀ n acc, find a.data n = some acc → ∃ o, acc.report now = some o ∧
      ∀ p, o = some p → p.name = n := by
    intro n acc h
    obtain ⟨t0, ts, _, _, hok⟩ := entry hi n acc h
    obtain ⟨o, e, ho⟩ := hok.report (addName hadd n) now
    exact ⟨o, e, fun p hp => by
      obtain ⟨_, ⟨q, hq, e1, _⟩, _⟩ := ho p hp
      exact e1.trans hq.1⟩
  obtain ⟨pts, e, hp⟩ := report_mem now order (fun ka hka => by
    obtain ⟨o, e, _⟩ := hrep ka.1 ka.2 ((hmem ka.1 ka.2).mp hka)
    exact ⟨o, e⟩)
  refine ⟨pts, e, ?_, ?_, ?_⟩
  · have hsub : ∀ l : List (Str × Acc F), (∀ ka ∈ l, ka ∈ order) →
        ((l.filterMap fun ka => (ka.2.report now).getD none).map (·.name)).Sublist
          (l.map Prod.fst) := by
      intro l
      induction l with
      | nil => intro _; exact List.Sublist.slnil
      | cons ka l ih =>
        intro hl
        have ih := ih (fun x hx => hl x (List.mem_cons_of_mem _ hx))
        obtain ⟨o, e, hname⟩ := hrep ka.1 ka.2 ((hmem ka.1 ka.2).mp (hl ka (List.mem_cons_self ..)))
        simp only [List.filterMap_cons, e, Option.getD_some, List.map_cons]
        cases o with
        | none => exact ih.cons _
        | some p =>
          simp only [List.map_cons, hname p rfl]
          exact ih.cons_cons _
    rw [hp]
    exact (hsub order (fun _ h => h)).nodup hn
  · intro p
    rw [hp, List.mem_filterMap]
    constructor
    · rintro ⟨⟨n, acc⟩, hka, hr⟩
      have hf := (hmem n acc).mp hka
      obtain ⟨o, e, _⟩ := hrep n acc hf
      simp only [e, Option.getD_some] at hr
      exact ⟨n, acc, hf, by rw [e, hr]⟩
    · rintro ⟨n, acc, hf, hr⟩
      exact ⟨(n, acc), (hmem n acc).mpr hf, by simp [hr]⟩
  · intro n acc p hf hr
    obtain ⟨o, e, hname⟩ := hrep n acc hf
    rw [e, Option.some.injEq] at hr
    exact hname p hr

/-! ## C47: age threshold -/

/-- With an age threshold (below 2^63 seconds) exactly the points within it are inserted; without
one all are. -/
theorem C47_prometheus_age (ext : Ext F) (now : Int) (a : Aggr F) (t : Telemetry F) :
    deliver ext none now a t = (a.insert ext t).map (·.1) ∧
    (∀ age : Nat, age < 2 ^ 63 →
      ((t.timestamp - now ≤ age ∧ now - t.timestamp ≤ age) →
        deliver ext (some age) now a t = (a.insert ext t).map (·.1)) ∧
      (¬ (t.timestamp - now ≤ age ∧ now - t.timestamp ≤ age) →
        deliver ext (some age) now a t = some a)) := by
  constructor
  · simp [deliver]
  · intro age hage
    have ha : Wavefront.asI64 age = age := by
      have : age < 9223372036854775808 := hage
      simp [Wavefront.asI64, this]
    constructor
    · intro hw
      have : ((t.timestamp - now).natAbs : Int) ≤ age := by omega
      simp [deliver, ha, this]
    · intro hw
      have : ¬ ((t.timestamp - now).natAbs : Int) ≤ age := by omega
      simp [deliver, ha, this]

/-- Every configurable threshold: a point is inserted exactly when the threshold is below 2^63 and the point lies within it; what is not
inserted changes nothing. -/
theorem C47_prometheus_exact_partial (ext : Ext F) (now : Int) (a : Aggr F) (t : Telemetry F) (age : Nat) (hage : age < 2 ^ 64) :
    ((age < 2 ^ 63 ∧ t.timestamp - now ≤ age ∧ now - t.timestamp ≤ age) →
      deliver ext (some age) now a t = (a.insert ext t).map (·.1)) ∧
    (¬ (age < 2 ^ 63 ∧ t.timestamp - now ≤ age ∧ now - t.timestamp ≤ age) → deliver ext (some age) now a t = some a) := by
  refine ⟨fun hw => ((C47_prometheus_age ext now a t).2 age hw.1).1 hw.2, fun hw => ?_⟩
  by_cases h63 : age < 2 ^ 63
  · exact ((C47_prometheus_age ext now a t).2 age h63).2 fun hc => hw ⟨h63, hc⟩
  · have ha : Wavefront.asI64 age = (age : Int) - 2 ^ 64 := by simp only [Wavefront.asI64, h63, if_false]
    have : ¬ ((t.timestamp - now).natAbs : Int) ≤ Wavefront.asI64 age := by omega
    simp only [deliver, this, decide_false, Bool.false_eq_true, if_false]

/-! ## C48: one kind per name -/

/-- After any history, every point reported for a name has the kind of the first point of that
name, and a further point of another kind is refused and changes nothing. -/
theorem C48_one_kind (ext : Ext F) (cap : Nat) (hc : 1 ≤ cap) (ops : List (Op F))
    (hg : GoodOps ops) (hlen : ops.length < 2 ^ 64 - 1) :
    ∃ a, run ext (Aggr.new cap) ops = some a ∧
      (∀ now order, order.Perm a.data → ∃ pts, report now order = some pts ∧
        ∀ p ∈ pts, ∃ t0, (pointsOf p.name ops).head? = some t0 ∧ p.kind = t0.kind) ∧
      (∀ t t0, (pointsOf t.name ops).head? = some t0 → t0.kind ≠ t.kind →
        a.insert ext t = some (a, false)) := by
  obtain ⟨a, e, hi⟩ := history ext cap hc ops hg hlen
  refine ⟨a, e, fun now order ho => ?_, fun t t0 ht hk => ?_⟩
  · obtain ⟨pts, e1, _, hmem, hname⟩ := reported hi (fun _ _ _ _ => trivial) now order ho
    refine ⟨pts, e1, fun p hp => ?_⟩
    obtain ⟨n, acc, hf, hr⟩ := (hmem p).mp hp
    obtain ⟨t0, ts, _, h2, hok⟩ := entry hi n acc hf
    rw [hname n acc p hf hr]
    refine ⟨t0, h2, ?_⟩
    obtain ⟨o, e3, h3⟩ := hok.report (addName (fun _ _ _ _ => trivial) n) now
    rw [e3, Option.some.injEq] at hr
    exact (h3 p hr).1
  · obtain ⟨acc, ts, hf, _, hok⟩ := entry_of hi t.name t0 ht
    have : ¬ acc.kind = t.kind := by rw [hok.kind.1]; exact hk
    simp [Aggr.insert, hf, this]

/-! ## C49: names and tags -/

/-- After any history, no two points reported have the same name. -/
theorem C49_reported_once (ext : Ext F) (cap : Nat) (hc : 1 ≤ cap) (ops : List (Op F))
    (hg : GoodOps ops) (hlen : ops.length < 2 ^ 64 - 1) :
    ∃ a, run ext (Aggr.new cap) ops = some a ∧
      ∀ now order, order.Perm a.data → ∃ pts, report now order = some pts ∧ (pts.map (·.name)).Nodup := by
  obtain ⟨a, e, hi⟩ := history ext cap hc ops hg hlen
  refine ⟨a, e, fun now order ho => ?_⟩
  obtain ⟨pts, e1, hnd, _, _⟩ := reported hi (fun _ _ _ _ => trivial) now order ho
  exact ⟨pts, e1, hnd⟩

/-- Partial: points of different names never influence each other — what is reported for a name
is what would be reported had only its own points arrived.  Missing: the same for points of one
name with different tags (`C49_tags_separate_false`). -/
theorem C49_names_separate_partial (ext : Ext F) (cap : Nat) (hc : 1 ≤ cap) (ops : List (Op F))
    (hg : GoodOps ops) (hlen : ops.length < 2 ^ 64 - 1) (n : Str) (now : Int) :
    ∃ a a', run ext (Aggr.new cap) ops = some a ∧
      run ext (Aggr.new cap) (onlyName n ops) = some a' ∧
      ∀ order order', order.Perm a.data → order'.Perm a'.data →
        ∃ pts pts', report now order = some pts ∧ report now order' = some pts' ∧
          ∀ p, p ∈ pts' ↔ (p ∈ pts ∧ p.name = n) := by
  obtain ⟨a, e, hi⟩ := history ext cap hc ops hg hlen
  have hsub : ∀ op ∈ onlyName n ops, op ∈ ops := fun op h => (List.mem_filter.mp h).1
  obtain ⟨a', e', hi'⟩ := history ext cap hc (onlyName n ops)
    (fun t ht => hg t (hsub _ ht)) (Nat.lt_of_le_of_lt (List.length_filter_le ..) hlen)
  refine ⟨a, a', e, e', fun order order' ho ho' => ?_⟩
  obtain ⟨pts, e1, _, hmem, hname⟩ := reported hi (fun _ _ _ _ => trivial) now order ho
  obtain ⟨pts', e1', _, hmem', hname'⟩ := reported hi' (fun _ _ _ _ => trivial) now order' ho'
  have h1 := (run_name ext n ops (Aggr.new cap) a e).1
  have h2 := (run_name ext n (onlyName n ops) (Aggr.new cap) a' e').1
  have hidem : onlyName n (onlyName n ops) = onlyName n ops := by
    simp only [onlyName, List.filter_filter, Bool.and_self]
  rw [hidem, h1, Option.some.injEq] at h2
  refine ⟨pts, pts', e1, e1', fun p => ?_⟩
  rw [hmem', hmem]
  constructor
  · rintro ⟨m, acc, hf, hr⟩
    obtain ⟨t0, ts, _, hh, _⟩ := entry hi' m acc hf
    have hm : m = n := by
      have : ∀ l : List (Op F), AllName n l → ∀ t, (pointsOf m l).head? = some t → m = n := by
        intro l
        induction l with
        | nil => intro _ t h; simp [pointsOf] at h
        | cons op l ih =>
          intro hall t h
          have hl : AllName n l := fun op hop => hall op (List.mem_cons_of_mem _ hop)
          cases op with
          | insert u =>
            have hu : u.name = n := hall (.insert u) (List.mem_cons_self ..)
            simp only [pointsOf] at h
            by_cases hum : u.name = m
            · exact hum.symm.trans hu
            · rw [if_neg hum] at h; exact ih hl t h
          | purge now => exact ih hl t h
      exact this _ (onlyName_all n ops) t0 hh
    subst hm
    exact ⟨⟨m, acc, h2.trans hf, hr⟩, hname' m acc p hf hr⟩
  · rintro ⟨⟨m, acc, hf, hr⟩, hpn⟩
    have := hname m acc p hf hr
    rw [hpn] at this
    subst this
    exact ⟨n, acc, h2.symm.trans hf, hr⟩

/-! ## C50: the summary window -/

/-- After any history, a summary holds at most one sample per second for at most the configured
number of seconds, in order of time; its reported count is the number of points ever accepted and
its reported sum their total (of the largest sample of each point), whatever was dropped; its
other data are those of the retained samples combined. -/
theorem C50_window (ext : Ext F) (cap : Nat) (hc : 1 ≤ cap) (ops : List (Op F))
    (hg : GoodOps ops) (hlen : ops.length < 2 ^ 64 - 1) (n : Str) (t0 : Telemetry F)
    (h0 : (pointsOf n ops).head? = some t0) (hk : t0.kind = .summarize) :
    ∃ a sum count samples, run ext (Aggr.new cap) ops = some a ∧
      find a.data n = some (.windowed cap sum count samples) ∧
      samples.length ≤ cap ∧ samples.Pairwise (fun a b => a.timestamp < b.timestamp) ∧
      (∀ s ∈ samples, s.name = n) ∧
      ∀ now order, order.Perm a.data → ∃ pts, report now order = some pts ∧
        ((∃ p ∈ pts, p.name = n) ↔ samples ≠ []) ∧
        ∀ p ∈ pts, p.name = n → p.count = (accepted n ops).length ∧
          ∃ v0 vs, (accepted n ops).map (fun t => t.query (F64.ofNat 1)) = (v0 :: vs).map some ∧
            p.samplesSum = some (vs.foldl (wrapSum ext) v0) ∧
            ∃ s rest, samples = s :: rest ∧ p = { rest.foldl Telemetry.addAssign s with overrideCount := p.overrideCount, overrideSampleSum := p.overrideSampleSum } := by
  obtain ⟨a, e, hi⟩ := history ext cap hc ops hg hlen
  obtain ⟨acc, ts, hf, hacc, hok⟩ := entry_of hi n t0 h0
  have hrep := fun now => hok.report (addName (fun _ _ _ _ => trivial) n) now
  cases hok with
  | perpetual _ _ hk0 => exact absurd hk hk0
  | windowed _ _ hk0 hkk samples v0 vs hv hlens hsort hP =>
    refine ⟨a, _, _, samples, e, hf, hlens, hsort, fun s hs => (hP s hs).1.1, fun now order ho => ?_⟩
    obtain ⟨pts, e1, _, hmem, hname⟩ := reported hi (fun _ _ _ _ => trivial) now order ho
    obtain ⟨o, e2, h2⟩ := hrep now
    refine ⟨pts, e1, ⟨?_, ?_⟩, ?_⟩
    · rintro ⟨p, hp, hpn⟩ hnil
      obtain ⟨m, acc', hf', hr⟩ := (hmem p).mp hp
      have := hname m acc' p hf' hr
      rw [hpn] at this
      subst this
      rw [hf, Option.some.injEq] at hf'
      rw [← hf', hnil] at hr
      simp [Acc.report] at hr
    · intro hne
      cases samples with
      | nil => exact absurd rfl hne
      | cons s rest =>
        cases o with
        | none =>
          exfalso
          simp only [Acc.report] at e2
          split at e2 <;> simp at e2
        | some p =>
          exact ⟨p, (hmem p).mpr ⟨n, _, hf, e2⟩, hname n _ p hf e2⟩
    · intro p hp hpn
      obtain ⟨m, acc', hf', hr⟩ := (hmem p).mp hp
      have := hname m acc' p hf' hr
      rw [hpn] at this
      subst this
      rw [hf, Option.some.injEq] at hf'
      rw [← hf', e2, Option.some.injEq] at hr
      obtain ⟨_, _, _, h3⟩ := h2 p hr
      obtain ⟨h4, h5⟩ := h3 hk
      rw [hacc]
      obtain ⟨v0', vs', h6, h7⟩ := h5
      refine ⟨h4, v0', vs', h6, h7, ?_⟩
      cases samples with
      | nil => simp [Acc.report, hr] at e2
      | cons s rest =>
        refine ⟨s, rest, rfl, ?_⟩
        rw [hr] at e2
        rcases report_acc now (Acc.windowed cap (vs.foldl (wrapSum ext) v0) (ts.length + 1) (s :: rest))
          with e3 | ⟨_, _, _, s', rest', e3, e4⟩
        · rw [e3] at e2
          simp only [Option.some.injEq] at e2
          rw [← e2]
        · simp only [Acc.windowed.injEq, List.cons.injEq] at e3
          obtain ⟨_, _, _, rfl, rfl⟩ := e3
          exact absurd (foldl_P (P := fun t => t.kind = .summarize)
            (fun a b _ hb => (addAssign_kind a b).trans hb) rest s (hP s (List.mem_cons_self ..)).2
            (fun t ht => (hP t (List.mem_cons_of_mem _ ht)).2)) e4

/-- The reported sum is the plain total of the largest samples as long as it stays below the
largest number. -/
theorem C50_sum_total (ext : Ext F) (v0 : F) (vs : List F)
    (h : ∀ n v, vs[n]? = some v →
      F64.ge ((vs.take n).foldl F64.add v0) (ext.sub ext.max v) = false) :
    vs.foldl (wrapSum ext) v0 = vs.foldl F64.add v0 := by
  induction vs generalizing v0 with
  | nil => rfl
  | cons v vs ih =>
    have h0 : F64.ge v0 (ext.sub ext.max v) = false := h 0 v rfl
    rw [List.foldl_cons, List.foldl_cons, wrapSum, h0, if_neg (by simp)]
    exact ih _ (fun n w hw => h (n + 1) w (by simpa using hw))

/-- Inserting into a summary: a point of a second already present is merged into that second's
sample, otherwise it becomes a new sample in its place in time; if there are then too many, the
oldest are dropped. -/
theorem C50_oldest_dropped (ext : Ext F) (cap : Nat) (sum : F) (count : Nat)
    (samples : List (Telemetry F)) (t : Telemetry F) (hc : 1 ≤ cap)
    (hsort : samples.Pairwise (fun a b => a.timestamp < b.timestamp))
    (hlen : samples.length ≤ cap) (hk : t.kind = .summarize) (v : F) (hv : top t v) :
    ∃ sum' count' all, (Acc.windowed cap sum count samples).insert ext t =
        some (.windowed cap sum' count' (all.drop (all.length - cap))) ∧
      all.Pairwise (fun a b => a.timestamp < b.timestamp) ∧
      ((∃ A cur B, samples = A ++ cur :: B ∧ cur.timestamp = t.timestamp ∧
          all = A ++ cur.addAssign t :: B) ∨
        (∃ A B, samples = A ++ B ∧ (∀ s ∈ samples, s.timestamp ≠ t.timestamp) ∧
          all = A ++ t :: B)) := by
  obtain ⟨all, h⟩ := window_insert ext cap sum count samples t hc hsort hlen hk v hv
  exact ⟨_, _, all, h⟩

/-- Purging removes exactly the samples further than the window from the current time; counts and
sums stay. -/
theorem C50_purge_exact (cap : Nat) (hcap : cap < 2 ^ 63) (sum : F) (count : Nat)
    (samples : List (Telemetry F)) (now : Int) :
    ∃ kept, (Acc.windowed cap sum count samples).purge now =
        (.windowed cap sum count kept, samples.length - kept.length) ∧
      kept.Sublist samples ∧
      ∀ s, s ∈ kept ↔ s ∈ samples ∧ s.timestamp - now ≤ cap ∧ now - s.timestamp ≤ cap := by
  have ha : Wavefront.asI64 cap = cap := by
    have : cap < 9223372036854775808 := hcap
    simp [Wavefront.asI64, this]
  refine ⟨_, rfl, List.filter_sublist, fun s => ?_⟩
  rw [List.mem_filter, ha]
  simp only [Bool.not_eq_true', decide_eq_false_iff_not]
  constructor
  · rintro ⟨h1, h2⟩; exact ⟨h1, by omega, by omega⟩
  · rintro ⟨h1, h2, h3⟩; exact ⟨h1, by omega⟩

/-- The number a purge tells is the number of samples that are gone. -/
theorem C50_purge_count (a : Aggr F) (now : Int) :
    (a.purge now).2 + samplesHeld (a.purge now).1 = samplesHeld a := by
  obtain ⟨data, cap⟩ := a
  simp only [Aggr.purge, samplesHeld, List.map_map]
  induction data with
  | nil => rfl
  | cons e data ih =>
    obtain ⟨n, acc⟩ := e
    simp only [List.map_cons, List.sum_cons, Function.comp_apply] at ih ⊢
    cases acc with
    | perpetual t => simpa [Acc.purge] using ih
    | windowed c s k samples =>
      have := (List.filter_sublist (p := fun s : Telemetry F => !decide (((s.timestamp - now).natAbs : Int) > Wavefront.asI64 c)) (l := samples)).length_le
      simp only [Acc.purge] at ih ⊢
      omega

/-! ## C75: nothing but summary samples is ever dropped -/

/-- After any history, exactly one point is reported for a name whose first point is not a
summary: all its accepted points added up in order of arrival, however often the sink was
flushed. -/
theorem C75_kept_forever (ext : Ext F) (cap : Nat) (hc : 1 ≤ cap) (ops : List (Op F))
    (hg : GoodOps ops) (hlen : ops.length < 2 ^ 64 - 1) (n : Str) (t0 : Telemetry F)
    (h0 : (pointsOf n ops).head? = some t0) (hk : t0.kind ≠ .summarize) :
    ∃ a ts, run ext (Aggr.new cap) ops = some a ∧ accepted n ops = t0 :: ts ∧
      ∀ now order, order.Perm a.data → ∃ pts, report now order = some pts ∧
        ∀ p, (p ∈ pts ∧ p.name = n) ↔ p = ts.foldl Telemetry.addAssign t0 := by
  obtain ⟨a, e, hi⟩ := history ext cap hc ops hg hlen
  obtain ⟨acc, ts, hf, hacc, hok⟩ := entry_of hi n t0 h0
  refine ⟨a, ts, e, hacc, fun now order ho => ?_⟩
  obtain ⟨pts, e1, _, hmem, hname⟩ := reported hi (fun _ _ _ _ => trivial) now order ho
  have hrep : acc.report now = some (some (ts.foldl Telemetry.addAssign t0)) := by
    cases hok with
    | perpetual _ _ hk0 => rfl
    | windowed _ _ hk0 => exact absurd hk0 hk
  refine ⟨pts, e1, fun p => ⟨?_, ?_⟩⟩
  · rintro ⟨hp, hpn⟩
    obtain ⟨m, acc', hf', hr⟩ := (hmem p).mp hp
    have := hname m acc' p hf' hr
    rw [hpn] at this
    subst this
    rw [hf, Option.some.injEq] at hf'
    rw [← hf', hrep] at hr
    simpa using hr.symm
  · rintro rfl
    exact ⟨(hmem _).mpr ⟨n, acc, hf, hrep⟩, hname n acc _ hf hrep⟩

private theorem fold_sum : ∀ (ts : List (Telemetry F)) (t0 : Telemetry F) (x0 : F) (xs : List F),
    t0.value = .sum x0 → ts.map (·.value) = xs.map .sum →
    (ts.foldl Telemetry.addAssign t0).value = .sum (xs.foldl F64.add x0)
  | [], t0, x0, xs, h, hx => by
    cases xs with
    | nil => exact h
    | cons x xs => simp at hx
  | t :: ts, t0, x0, xs, h, hx => by
    cases xs with
    | nil => simp at hx
    | cons x xs =>
      simp only [List.map_cons, List.cons.injEq] at hx
      rw [List.foldl_cons, List.foldl_cons]
      exact fold_sum ts _ _ xs (by simp [Telemetry.addAssign, h, hx.1, Value.add]) hx.2

private theorem fold_set : ∀ (ts : List (Telemetry F)) (t0 : Telemetry F) (x0 : F) (xs : List F),
    t0.value = .set x0 → ts.map (·.value) = xs.map .set →
    (ts.foldl Telemetry.addAssign t0).value = .set ((x0 :: xs).getLast (by simp))
  | [], t0, x0, xs, h, hx => by
    cases xs with
    | nil => exact h
    | cons x xs => simp at hx
  | t :: ts, t0, x0, xs, h, hx => by
    cases xs with
    | nil => simp at hx
    | cons x xs =>
      simp only [List.map_cons, List.cons.injEq] at hx
      rw [List.foldl_cons, List.getLast_cons_cons]
      exact fold_set ts _ _ xs (by simp [Telemetry.addAssign, h, hx.1, Value.add]) hx.2

/-- The point reported for counters is the total, for gauges the last value. -/
theorem C75_totals (t0 : Telemetry F) (ts : List (Telemetry F)) :
    (∀ (x0 : F) (xs : List F), t0.value = .sum x0 → ts.map (·.value) = xs.map .sum →
      (ts.foldl Telemetry.addAssign t0).sum = some (xs.foldl F64.add x0)) ∧
    (∀ (x0 : F) (xs : List F), t0.value = .set x0 → ts.map (·.value) = xs.map .set →
      (ts.foldl Telemetry.addAssign t0).set = some ((x0 :: xs).getLast (by simp))) := by
  constructor
  · intro x0 xs h hx
    simp [Telemetry.sum, fold_sum ts t0 x0 xs h hx]
  · intro x0 xs h hx
    simp only [Telemetry.set, fold_set ts t0 x0 xs h hx]

/-! ## C51: the exposition text -/

/-- Partial: what a scrape of a reachable state writes is one block per reported point: its TYPE
line, and then only sample lines of that metric; so if the cleaned-up names are distinct there is
exactly one TYPE line per name, before all its samples.  Missing: names that differ only in
characters that are cleaned up (`C51_type_once_false`). -/
theorem C51_type_lines_partial (ext : Ext F) (cap : Nat) (hc : 1 ≤ cap) (ops : List (Op F))
    (hg : GoodOps ops) (hlen : ops.length < 2 ^ 64 - 1) (tags : TagMap) :
    ∃ a, run ext (Aggr.new cap) ops = some a ∧
      ∀ now order, order.Perm a.data → ∀ pts ls, report now order = some pts →
        writeText ext tags [] pts = some ls →
        ∃ bs : List (List (Line F)), bs.length = pts.length ∧
          ls = ((pts.zip bs).map fun tb =>
            Line.type (sanitize tb.1.name) (typeName tb.1.kind) :: tb.2).flatten ∧
          (∀ tb ∈ pts.zip bs, ∀ l ∈ tb.2, SampleOf (sanitize tb.1.name) l) ∧
          ((pts.map fun t => sanitize t.name).Nodup → ∀ t ∈ pts,
            typeLines (sanitize t.name) ls = [typeName t.kind]) := by
  obtain ⟨a, e, hi⟩ := history ext cap hc ops hg hlen
  refine ⟨a, e, fun now order ho pts ls hr hw => ?_⟩
  obtain ⟨pts', e1, hnd, _, _⟩ := reported hi (fun _ _ _ _ => trivial) now order ho
  rw [hr, Option.some.injEq] at e1
  subst e1
  obtain ⟨bs, hb, hls⟩ := writeText_blocks ext tags pts [] ls hnd (by simp) hw
  have hlen : bs.length = pts.length := by
    have := congrArg List.length hb
    simpa using this.symm
  have hsamp : ∀ tb ∈ pts.zip bs, ∀ l ∈ tb.2, SampleOf (sanitize tb.1.name) l := by
    intro tb htb
    have : body ext tags tb.1 = some tb.2 := by
      have : ∀ (ps : List (Telemetry F)) (bs : List (List (Line F))),
          ps.map (body ext tags) = bs.map some → tb ∈ ps.zip bs → body ext tags tb.1 = some tb.2 := by
        intro ps
        induction ps with
        | nil => intro bs _ h; simp at h
        | cons p ps ih =>
          intro bs hb h
          cases bs with
          | nil => simp at h
          | cons b bs =>
            simp only [List.map_cons, List.cons.injEq] at hb
            simp only [List.zip_cons_cons, List.mem_cons] at h
            rcases h with rfl | h
            · exact hb.1
            · exact ih bs hb.2 h
      exact this pts bs hb htb
    exact body_samples ext tags tb.1 tb.2 this
  refine ⟨bs, hlen, hls, hsamp, fun hsn t ht => ?_⟩
  have hblock : ∀ (n : Str) (b : List (Line F)) (m : Str), (∀ l ∈ b, SampleOf m l) →
      typeLines n b = [] := by
    intro n b m h
    simp only [typeLines, List.filterMap_eq_nil_iff]
    intro l hl
    have := h l hl
    cases l with
    | type => exact this.elim
    | sample => rfl
  have hall : ∀ (ps : List (Telemetry F)) (bs : List (List (Line F))), bs.length = ps.length →
      (∀ tb ∈ ps.zip bs, ∀ l ∈ tb.2, SampleOf (sanitize tb.1.name) l) →
      (ps.map fun t => sanitize t.name).Nodup →
      (∀ n, n ∉ ps.map (fun t => sanitize t.name) → typeLines n (((ps.zip bs).map fun tb =>
        Line.type (sanitize tb.1.name) (typeName tb.1.kind) :: tb.2).flatten) = []) ∧
      ∀ u ∈ ps, typeLines (sanitize u.name) (((ps.zip bs).map fun tb =>
        Line.type (sanitize tb.1.name) (typeName tb.1.kind) :: tb.2).flatten) = [typeName u.kind] := by
    intro ps
    induction ps with
    | nil => intro bs _ _ _; simp [typeLines]
    | cons p ps ih =>
      intro bs hl hs hn
      cases bs with
      | nil => simp at hl
      | cons b bs =>
        simp only [List.map_cons, List.nodup_cons] at hn
        simp only [List.length_cons, Nat.add_right_cancel_iff] at hl
        simp only [List.zip_cons_cons, List.mem_cons] at hs
        obtain ⟨ih1, ih2⟩ := ih bs hl (fun tb h => hs tb (Or.inr h)) hn.2
        have hb : ∀ n, typeLines n b = [] := fun n =>
          hblock n b (sanitize p.name) (hs (p, b) (Or.inl rfl))
        have hsplit : ∀ n rest, typeLines n (Line.type (sanitize p.name) (typeName p.kind) :: b ++ rest) =
            (if sanitize p.name = n then [typeName p.kind] else []) ++ typeLines n rest := by
          intro n rest
          have := hb n
          simp only [typeLines] at this ⊢
          rw [List.cons_append, List.filterMap_cons, List.filterMap_append, this]
          by_cases h : sanitize p.name = n <;> simp [h]
        simp only [List.zip_cons_cons, List.map_cons, List.flatten_cons, hsplit]
        constructor
        · intro n hnn
          rw [List.mem_cons, not_or] at hnn
          rw [ih1 n hnn.2, if_neg (fun h => hnn.1 h.symm)]
          rfl
        · intro u hu
          rcases List.mem_cons.mp hu with rfl | hu
          · rw [ih1 _ hn.1, if_pos rfl]; rfl
          · rw [ih2 u hu, if_neg (fun h => hn.1 (List.mem_map.mpr ⟨u, hu, h.symm⟩))]
            rfl
  rw [hls]
  exact (hall pts bs hlen hsamp hsn).2 t ht

/-- The samples written for the other kinds, after at most a TYPE line: the value of a counter or
gauge; for a summary its value at each of nine quantiles, its sum and its count. -/
theorem C51_samples (ext : Ext F) (tags : TagMap) (t : Telemetry F) (seen : List Str)
    (rest : List (Telemetry F)) (ls : List (Line F))
    (hw : writeText ext tags seen (t :: rest) = some ls) :
    ∃ pre lines post, ls = pre ++ lines ++ post ∧ pre.length ≤ 1 ∧
      writeText ext tags (t.name :: seen) rest = some post ∧
      (∀ v, t.value = .set v ∨ t.value = .sum v →
        lines = [.sample (sanitize t.name) (t.iterTags tags) (.real v)]) ∧
      (∀ c s, t.value = .quantiles c s → ∃ vs : List F,
        reportedQuantiles.map (F64.ckmsQuery c) = vs.map some ∧
        lines = ((reportedQuantiles (F := F)).zip vs).map (fun qv =>
            .sample (sanitize t.name) (("quantile".toList, ext.showF qv.1) :: t.iterTags tags) (.real qv.2)) ++
          [.sample (sanitize t.name ++ "_sum".toList) (t.iterTags tags) (.real (t.samplesSum.getD F64.zero)),
           .sample (sanitize t.name ++ "_count".toList) (t.iterTags tags) (.real (F64.ofNat t.count))]) := by
  rw [writeText_cons] at hw
  cases hb : body ext tags t with
  | none => rw [hb] at hw; simp at hw
  | some b =>
    cases hr : writeText ext tags (t.name :: seen) rest with
    | none => rw [hb, hr] at hw; simp at hw
    | some rs =>
      rw [hb, hr] at hw
      simp only [Option.some.injEq] at hw
      refine ⟨if t.name ∈ seen then [] else [.type (sanitize t.name) (typeName t.kind)], b, rs,
        by rw [← hw, List.append_assoc], by split <;> simp, rfl, ?_, ?_⟩
      · rintro v (hv | hv) <;> simp only [body, hv, Option.some.injEq] at hb <;> exact hb.symm
      · intro c s hv
        simp only [body, hv] at hb
        have key : ∀ (qs : List F) (ls : List (Line F)),
            quantileLines ext (sanitize t.name) (t.iterTags tags) t qs = some ls →
            ∃ vs : List F, qs.map (F64.ckmsQuery c) = vs.map some ∧
              ls = (qs.zip vs).map (fun qv => .sample (sanitize t.name)
                (("quantile".toList, ext.showF qv.1) :: t.iterTags tags) (.real qv.2)) := by
          intro qs
          induction qs with
          | nil => intro ls h; simp only [quantileLines, Option.some.injEq] at h; exact ⟨[], rfl, h.symm⟩
          | cons q qs ih =>
            intro ls h
            have hq : t.query q = F64.ckmsQuery c q := by simp [Telemetry.query, hv]
            simp only [quantileLines, hq] at h
            cases h1 : F64.ckmsQuery c q with
            | none => rw [h1] at h; simp at h
            | some v =>
              cases h2 : quantileLines ext (sanitize t.name) (t.iterTags tags) t qs with
              | none => rw [h1, h2] at h; simp at h
              | some ls' =>
                rw [h1, h2] at h
                simp only [Option.some.injEq] at h
                obtain ⟨vs, e1, e2⟩ := ih ls' h2
                exact ⟨v :: vs, by rw [List.map_cons, e1, h1]; rfl, by
                  rw [← h, e2, List.zip_cons_cons, List.map_cons]; rfl⟩
        cases hq : quantileLines ext (sanitize t.name) (t.iterTags tags) t quantiles with
        | none => rw [hq] at hb; simp at hb
        | some ql =>
          rw [hq] at hb
          simp only [Option.map_some, Option.some.injEq] at hb
          obtain ⟨vs, e1, e2⟩ := key _ _ hq
          refine ⟨vs, ?_, ?_⟩
          · rw [← e1]; rfl
          · rw [← hb, e2]; rfl

/-- A scrape is answered with exactly the text of what is reported; there is no answer while the
sink is busy with the map or, without compression, if there is nothing to report. -/
theorem C51_scrape_answer (ext : Ext F) (tags : TagMap) (gzip : Bool) (now : Int) (order : List (Str × Acc F))
    (pts : List (Telemetry F)) (ls : List (Line F)) (hr : report now order = some pts)
    (hw : writeText ext tags [] pts = some ls) :
    scrape ext tags gzip now true order = some none ∧
    scrape ext tags gzip now false order = some (if pts = [] ∧ gzip = false then none else some ls) := by
  refine ⟨rfl, ?_⟩
  simp only [scrape, hr, hw, Bool.false_eq_true, if_false]
  cases pts with
  | nil => simp only [writeText, Option.some.injEq] at hw; subst hw; cases gzip <;> rfl
  | cons p pts =>
    rw [writeText_cons] at hw
    cases hb : body ext tags p with
    | none => rw [hb] at hw; simp at hw
    | some b =>
      cases hp : writeText ext tags [p.name] pts with
      | none => rw [hb, hp] at hw; simp at hw
      | some rest =>
        rw [hb, hp] at hw
        simp only [Option.some.injEq] at hw
        subst hw
        simp

/-- The samples written for a histogram: one line per bin in order, with counts that never
decrease; if the bins add up to the count (as in the `quantiles` crate), the last equals the
reported count. -/
theorem C51_buckets_cumulative (ext : Ext F) (tags : TagMap) (t : Telemetry F) (h : F64.Hist F)
    (hv : t.value = .histogram h) (seen : List Str) (rest : List (Telemetry F)) (ls : List (Line F))
    (hw : writeText ext tags seen (t :: rest) = some ls) :
    ∃ pre buckets post, ls = pre ++ buckets ++ (.sample (sanitize t.name ++ "_sum".toList)
        (t.iterTags tags) (.real (t.samplesSum.getD F64.zero)) ::
      .sample (sanitize t.name ++ "_count".toList) (t.iterTags tags) (.real (F64.ofNat t.count)) :: post) ∧
      pre.length ≤ 1 ∧ buckets.length = (F64.histBins h).length ∧
      ∃ counts : List Nat, counts.Pairwise (· ≤ ·) ∧
        buckets = ((F64.histBins h).zip counts).map (fun bc =>
          .sample (sanitize t.name) (("le".toList, (bc.1.1.map ext.showF).getD "+Inf".toList) ::
            t.iterTags tags) (.nat bc.2)) ∧
        (t.overrideCount = none → F64.histBins h ≠ [] →
          ((F64.histBins h).map (·.2)).sum = F64.histCount h → counts.getLast? = some t.count) := by
  rw [writeText_cons] at hw
  have hbody : body ext tags t = some (bucketLines ext (sanitize t.name) (t.iterTags tags) 0
      (F64.histBins h) ++ tailLines (sanitize t.name) (t.iterTags tags) t) := by
    simp only [body, hv]
  rw [hbody] at hw
  cases hr : writeText ext tags (t.name :: seen) rest with
  | none => rw [hr] at hw; simp at hw
  | some rs =>
    rw [hr] at hw
    simp only [Option.some.injEq] at hw
    have hshape : ∀ (bins : List (Option F × Nat)) (r : Nat), bucketLines ext (sanitize t.name)
        (t.iterTags tags) r bins = (bins.zip ((bucketLines ext (sanitize t.name)
        (t.iterTags tags) r bins).filterMap natOf)).map (fun bc =>
          .sample (sanitize t.name) (("le".toList, (bc.1.1.map ext.showF).getD "+Inf".toList) ::
            t.iterTags tags) (.nat bc.2)) := by
      intro bins
      induction bins with
      | nil => intro r; rfl
      | cons bv bins ih =>
        intro r
        obtain ⟨b, v⟩ := bv
        have := ih (r + v)
        simp only [bucketLines, List.filterMap_cons, natOf, List.zip_cons_cons, List.map_cons]
        rw [← this]
        cases b <;> rfl
    obtain ⟨h1, h2, h3, h4⟩ := bucketLines_counts ext (sanitize t.name) (t.iterTags tags)
      (F64.histBins h) 0
    refine ⟨if t.name ∈ seen then [] else [.type (sanitize t.name) (typeName t.kind)], _, rs,
      ?_, ?_, ?_, _, h1, hshape (F64.histBins h) 0, ?_⟩
    · rw [← hw]
      simp only [tailLines, List.append_assoc]
      rfl
    · split <;> simp
    · rw [hshape, List.length_map, List.length_zip, h3, Nat.min_self]
    · intro ho hne hsum
      rw [h4 hne, hsum]
      simp [Telemetry.count, ho, hv, Value.count]

end

/-- an external world for the examples -/
def promExt : Ext Int where
  max := 1000
  sub := fun a b => a - b
  showF := fun x => (toString x).toList
  showN := fun n => (toString n).toList

/-- a counter for the examples -/
def promPoint (name : String) (tags : Option TagMap) (v : Int) : Telemetry Int :=
  ⟨name.toList, .sum v, false, tags, 1, none, none⟩

/-- a summary for the examples -/
def promSummary (v ts : Int) : Telemetry Int :=
  ⟨"s".toList, .quantiles ([v] : List Int) v, false, none, ts, none, none⟩

/-- the points reported after a history of insertions and purges -/
def promReport (cap : Nat) (ops : List (Op Int)) : Option (List (Telemetry Int)) :=
  (run promExt (Aggr.new cap) ops).bind fun a => report 0 a.data

/-- A purge that takes one of two samples. -/
example : (run promExt (Aggr.new 5) [.insert (promPoint "c" none 3), .insert (promSummary 1 1), .insert (promSummary 1 8)]).map
    (fun a => (samplesHeld a, (a.purge 10).2, samplesHeld (a.purge 10).1)) = some (2, 1, 1) := by decide

/-- A history with a refused point, a window that overflows, and a purge. -/
example : GoodOps [.insert (promPoint "c" none 2), .insert (promSummary 1 1),
    .insert (promSummary 5 3), .insert (promSummary 4 2), .purge 0, .insert (promPoint "c" none 3)] := by
  intro t ht hk
  simp only [List.mem_cons, Op.insert.injEq, reduceCtorEq, List.not_mem_nil, or_false,
    false_or] at ht
  rcases ht with rfl | rfl | rfl | rfl | rfl
  · simp [promPoint, Telemetry.kind, Value.kind] at hk
  · exact ⟨1, rfl⟩
  · exact ⟨5, rfl⟩
  · exact ⟨4, rfl⟩
  · simp [promPoint, Telemetry.kind, Value.kind] at hk

example : promReport 2 [.insert (promPoint "c" none 2), .insert (promSummary 1 1),
    .insert (promSummary 5 3), .insert (promSummary 4 2), .insert ⟨"c".toList, .set 7, false, none, 1, none, none⟩,
    .insert (promPoint "c" none 3)] =
    some [promPoint "c" none 5,
      ⟨"s".toList, .quantiles ([4, 5] : List Int) 9, false, none, 2, some 3, some 10⟩] := by
  decide

/-- C49 is false of the code: points of one name with different tags are merged; the second tag
map is lost. -/
theorem C49_tags_separate_false :
    promReport 600 [.insert (promPoint "c" (some [(['h'], ['1'])]) 2),
      .insert (promPoint "c" (some [(['h'], ['2'])]) 3)] =
    some [promPoint "c" (some [(['h'], ['1'])]) 5] := by decide

/-- Disagreement: two names that are cleaned up to the same name give two TYPE lines for it. -/
theorem C51_type_once_false :
    ((promReport 600 [.insert (promPoint "a.b" none 2), .insert ⟨"a_b".toList, .set 3, false, none, 1, none, none⟩]).bind
      fun pts => writeText promExt [] [] pts).map (fun ls => typeLines "a_b".toList ls) =
    some ["counter".toList, "gauge".toList] := by decide

/-- Disagreement: label values are not escaped, so two different tag maps give the same text. -/
theorem C51_labels_ambiguous_false :
    Line.text promExt (.sample "m".toList [("a".toList, "1\", b=\"2".toList)] (.nat 7)) =
    Line.text promExt (.sample "m".toList [("a".toList, "1".toList), ("b".toList, "2".toList)] (.nat 7)) := by
  decide

/-- a histogram point for the examples; its bins add up to its count -/
def promHist : Telemetry Int :=
  ⟨"h.x".toList, .histogram (⟨[1, 10], [1, 5, 7, 30]⟩ : IHist), false, none, 1, none, none⟩

example : writeText promExt [] [] [promHist] = some
    [.type "h_x".toList "histogram".toList,
     .sample "h_x".toList [("le".toList, "1".toList)] (.nat 1),
     .sample "h_x".toList [("le".toList, "10".toList)] (.nat 3),
     .sample "h_x".toList [("le".toList, "+Inf".toList)] (.nat 4),
     .sample "h_x_sum".toList [] (.real 43),
     .sample "h_x_count".toList [] (.real 4)] := by decide

/-- Disagreement: the exposition format wants the bins of a histogram `h_x` under the name `h_x_bucket`.  A histogram is declared and its bins
are written, but nothing has that name (`C51_buckets_cumulative` says what is written for any histogram). -/
theorem C51_bucket_names_false :
    (writeText promExt [] [] [promHist]).map (fun ls => (typeLines "h_x".toList ls, ls.filterMap fun
      | .sample n _ _ => some n
      | _ => none)) =
    some (["histogram".toList], ["h_x".toList, "h_x".toList, "h_x".toList, "h_x_sum".toList, "h_x_count".toList]) := by decide

example : scrape promExt [] false 0 false [("h.x".toList, Acc.perpetual (promPoint "h.x" none 4))] =
    some (some [.type "h_x".toList "counter".toList, .sample "h_x".toList [] (.real 4)]) := by decide

/-- The condition of `C50_sum_total` on a small sum. -/
example : ∀ (n : Nat) (v : Int), [5, 4][n]? = some v →
    F64.ge (([5, 4].take n).foldl F64.add (1 : Int)) (promExt.sub promExt.max v) = false := by
  intro n v h
  match n with
  | 0 => simp at h; subst h; decide
  | 1 => simp at h; subst h; decide
  | n + 2 => simp at h

example : ((F64.histBins (F := Int) (⟨[1, 10], [1, 5, 7, 30]⟩ : IHist)).map (·.2)).sum =
    F64.histCount (F := Int) (⟨[1, 10], [1, 5, 7, 30]⟩ : IHist) := by decide

/-! ## C52: names -/

/-- A cleaned-up name has only allowed characters, one character for every byte of the name's
UTF-8 form; allowed characters stay in place, all others become underscores; cleaning up twice
changes nothing. -/
theorem C52_sanitize (name : Str) :
    (∀ c ∈ sanitize name, NameChar c) ∧
    (sanitize name).length = (name.map Char.utf8Size).sum ∧
    sanitize name = name.flatMap (fun c =>
      if NameChar c then [c] else List.replicate c.utf8Size '_') ∧
    sanitize (sanitize name) = sanitize name := by
  have hform : sanitize name = name.flatMap (fun c =>
      if NameChar c then [c] else List.replicate c.utf8Size '_') := by
    simp only [sanitize_eq, String.length_utf8EncodeChar]
  have hall : ∀ c ∈ sanitize name, NameChar c := by
    intro c hc
    rw [hform, List.mem_flatMap] at hc
    obtain ⟨d, _, hd⟩ := hc
    split at hd
    · next h => rw [List.mem_singleton] at hd; rw [hd]; exact h
    · rw [List.mem_replicate] at hd; rw [hd.2]; decide
  refine ⟨hall, ?_, hform, ?_⟩
  · simp only [sanitize, List.length_map, List.length_flatMap, String.length_utf8EncodeChar]
  · generalize sanitize name = s at hall
    rw [sanitize_eq]
    induction s with
    | nil => rfl
    | cons c s ih =>
      rw [List.flatMap_cons, if_pos (hall c (List.mem_cons_self ..)),
        ih (fun d hd => hall d (List.mem_cons_of_mem _ hd))]
      rfl

example : sanitize "a.b:9 é".toList = "a_b:9___".toList := by decide

/-! ## C51: the text can be read back -/
section
variable {F : Type} [F64 F]

/-- Partial: a reader of the text format reads back exactly the lines written, name for name, label for label and number for number.
Missing: tags with quotes, equals signs or line feeds, which are not escaped (`C51_labels_ambiguous_false`). -/
theorem C51_reads_back_partial (ext : Ext F) (hnum : CleanNumbers ext) (tags : TagMap) (pts : List (Telemetry F)) (ls : List (Line F))
    (hw : writeText ext tags [] pts = some ls) (htags : ∀ t ∈ pts, ∀ kv ∈ t.iterTags tags, CleanTag kv) :
    readText (ls.flatMap (Line.text ext)).length (ls.flatMap (Line.text ext)) = some (ls.map (see ext)) := by
  refine readText_lines ext ls _ (text_length ext ls) ?_
  have hsan : ∀ name : Str, ∀ c ∈ sanitize name, NameChar c := fun name => (C52_sanitize name).1
  have hreal : ∀ (name : Str) (labels : List (Str × Str)) (v : F), (∀ c ∈ name, NameChar c) → (∀ kv ∈ labels, CleanTag kv) →
      CleanLine ext (.sample name labels (.real v)) := fun name labels v h1 h2 => ⟨h1, h2, (hnum.1 v).2⟩
  have hbuck : ∀ (name : Str) (labels : List (Str × Str)) (bins : List (Option F × Nat)) (r : Nat), (∀ c ∈ name, NameChar c) →
      (∀ kv ∈ labels, CleanTag kv) → ∀ l ∈ bucketLines ext name labels r bins, CleanLine ext l := by
    intro name labels bins
    induction bins with
    | nil => intro r _ _ l hl; simp [bucketLines] at hl
    | cons b bins ih =>
      intro r h1 h2 l hl
      obtain ⟨bound, val⟩ := b
      simp only [bucketLines, List.mem_cons] at hl
      rcases hl with rfl | hl
      · refine ⟨h1, ?_, hnum.2 _⟩
        intro kv hkv
        rcases List.mem_cons.1 hkv with rfl | hkv
        · refine ⟨by simp, by simp, ?_⟩
          cases bound with
          | none => simp
          | some b => exact hnum.1 b
        · exact h2 kv hkv
      · exact ih _ h1 h2 l hl
  have hquant : ∀ (name : Str) (labels : List (Str × Str)) (t : Telemetry F) (qs : List F) (out : List (Line F)),
      (∀ c ∈ name, NameChar c) → (∀ kv ∈ labels, CleanTag kv) → quantileLines ext name labels t qs = some out →
      ∀ l ∈ out, CleanLine ext l := by
    intro name labels t qs
    induction qs with
    | nil => intro out _ _ e l hl; simp only [quantileLines, Option.some.injEq] at e; subst e; simp at hl
    | cons q qs ih =>
      intro out h1 h2 e l hl
      simp only [quantileLines] at e
      split at e
      · rename_i v rest hv hrest
        simp only [Option.some.injEq] at e
        subst e
        rcases List.mem_cons.1 hl with rfl | hl
        · refine hreal _ _ _ h1 ?_
          intro kv hkv
          rcases List.mem_cons.1 hkv with rfl | hkv
          · exact ⟨by simp, by simp, hnum.1 q⟩
          · exact h2 kv hkv
        · exact ih rest h1 h2 hrest l hl
      · cases e
  have htail : ∀ (name : Str) (labels : List (Str × Str)) (t : Telemetry F), (∀ c ∈ name, NameChar c) → (∀ kv ∈ labels, CleanTag kv) →
      ∀ l ∈ tailLines name labels t, CleanLine ext l := by
    intro name labels t h1 h2 l hl
    have hs : ∀ c ∈ ['_', 's', 'u', 'm'], NameChar c := by simp only [NameChar]; decide
    have hcnt : ∀ c ∈ ['_', 'c', 'o', 'u', 'n', 't'], NameChar c := by simp only [NameChar]; decide
    simp only [tailLines, List.mem_cons, List.not_mem_nil, or_false] at hl
    rcases hl with rfl | rfl
    · refine hreal _ _ _ (fun c hc => ?_) h2
      rcases List.mem_append.1 hc with hc | hc
      · exact h1 c hc
      · exact hs c hc
    · refine hreal _ _ _ (fun c hc => ?_) h2
      rcases List.mem_append.1 hc with hc | hc
      · exact h1 c hc
      · exact hcnt c hc
  have hhead : ∀ (seen : List Str) (name tname : Str) (n : Str), '\n' ∉ tname → ∀ l ∈ (if n ∈ seen then [] else [(.type (sanitize name) tname : Line F)]), CleanLine ext l := by
    intro seen name tname n ht l hl
    split at hl
    · simp at hl
    · simp only [List.mem_singleton] at hl; subst hl; exact ⟨hsan name, ht⟩
  suffices H : ∀ (pts : List (Telemetry F)) (seen : List Str) (ls : List (Line F)), writeText ext tags seen pts = some ls →
      (∀ t ∈ pts, ∀ kv ∈ t.iterTags tags, CleanTag kv) → ∀ l ∈ ls, CleanLine ext l from H pts [] ls hw htags
  clear hw htags
  intro pts
  induction pts with
  | nil => intro seen ls e _ l hl; simp only [writeText, Option.some.injEq] at e; subst e; simp at hl
  | cons t ts ih =>
    intro seen ls e htags l hl
    have ht := htags t (List.mem_cons_self ..)
    have hts := fun u hu => htags u (List.mem_cons_of_mem _ hu)
    simp only [writeText] at e
    cases hk : t.kind with
    | sum =>
      simp only [hk] at e
      split at e
      · simp only [Option.map_eq_some_iff] at e
        obtain ⟨rest, er, rfl⟩ := e
        rcases List.mem_append.1 hl with hl | hl
        · exact hhead seen t.name _ t.name (by decide) l hl
        · rcases List.mem_cons.1 hl with rfl | hl
          · exact hreal _ _ _ (hsan _) ht
          · exact ih _ rest er hts l hl
      · exact ih _ ls e hts l hl
    | set =>
      simp only [hk] at e
      split at e
      · simp only [Option.map_eq_some_iff] at e
        obtain ⟨rest, er, rfl⟩ := e
        rcases List.mem_append.1 hl with hl | hl
        · exact hhead seen t.name _ t.name (by decide) l hl
        · rcases List.mem_cons.1 hl with rfl | hl
          · exact hreal _ _ _ (hsan _) ht
          · exact ih _ rest er hts l hl
      · exact ih _ ls e hts l hl
    | histogram =>
      simp only [hk] at e
      split at e
      · simp only [Option.map_eq_some_iff] at e
        obtain ⟨rest, er, rfl⟩ := e
        rcases List.mem_append.1 hl with hl | hl
        · exact hhead seen t.name _ t.name (by decide) l hl
        · rcases List.mem_append.1 hl with hl | hl
          · exact hbuck _ _ _ _ (hsan _) ht l hl
          · rcases List.mem_append.1 hl with hl | hl
            · exact htail _ _ _ (hsan _) ht l hl
            · exact ih _ rest er hts l hl
      · exact ih _ ls e hts l hl
    | summarize =>
      simp only [hk] at e
      split at e
      · rename_i qs hqs
        simp only [Option.map_eq_some_iff] at e
        obtain ⟨rest, er, rfl⟩ := e
        rcases List.mem_append.1 hl with hl | hl
        · exact hhead seen t.name _ t.name (by decide) l hl
        · rcases List.mem_append.1 hl with hl | hl
          · exact hquant _ _ _ _ qs (hsan _) ht hqs l hl
          · rcases List.mem_append.1 hl with hl | hl
            · exact htail _ _ _ (hsan _) ht l hl
            · exact ih _ rest er hts l hl
      · cases e

end

/-- The hypotheses of `C51_reads_back_partial` are met, and the text is read back: two counters with tags. -/
example : (writeText promExt [("d".toList, "1".toList)] [] [promPoint "a.b" (some [(['h'], ['x'])]) 2]).map (fun ls =>
      (ls.flatMap (Line.text promExt), readText (ls.flatMap (Line.text promExt)).length (ls.flatMap (Line.text promExt)))) =
    some ("# TYPE a_b counter\na_b{h=\"x\", d=\"1\"} 2\n".toList,
      some [.type "a_b".toList "counter".toList, .sample "a_b".toList [("h".toList, "x".toList), ("d".toList, "1".toList)] "2".toList]) := by
  decide +kernel
example : CleanTag ("h".toList, "x".toList) := by simp [CleanTag]

/-! ## C74: no panic -/
section
variable {F : Type} [F64 F]

/-- With a window of at least one second, no history of non-empty points and no scrape of the
resulting state, in whatever iteration order, panics. -/
theorem C74_no_panic_partial [LawfulSketch F]
    (hq : ∀ (c : F64.Ckms F) (q : F), 0 < F64.ckmsCount c → (F64.ckmsQuery c q).isSome)
    (ext : Ext F) (cap : Nat) (hc : 1 ≤ cap) (ops : List (Op F))
    (hpos : ∀ t, Op.insert t ∈ ops → t.kind = .summarize → 0 < t.value.count)
    (hlen : ops.length < 2 ^ 64 - 1) :
    ∃ a, run ext (Aggr.new cap) ops = some a ∧
      ∀ tags gzip now locked order, order.Perm a.data → ∃ r, scrape ext tags gzip now locked order = some r := by
  let P : Telemetry F → Prop := fun t => t.kind = .summarize → 0 < t.value.count
  have hadd : ∀ a b, P a → P b → P (a.addAssign b) := by
    intro a b ha hb hk
    have hkb := (addAssign_kind a b).symm.trans hk
    have hb' := hb hkb
    obtain ⟨an, av, ap, at_, ats, ao, as_⟩ := a
    obtain ⟨bn, bv, bp, bt, bts, bo, bs⟩ := b
    cases bv with
    | set y => simp [Telemetry.kind, Value.kind] at hkb
    | sum y => simp [Telemetry.kind, Value.kind] at hkb
    | histogram y => simp [Telemetry.kind, Value.kind] at hkb
    | quantiles c s =>
      simp only [Value.count] at hb'
      cases av <;>
        simp only [Telemetry.addAssign, Value.add, Value.count, LawfulSketch.ckms_insert,
          LawfulSketch.ckms_merge] <;> omega
  have hquery : ∀ (t : Telemetry F) (q : F), t.kind = .summarize → 0 < t.value.count →
      ∃ v, t.query q = some v := by
    intro t q hk hp
    obtain ⟨n, v, p, tg, ts, o, s⟩ := t
    cases v with
    | quantiles c s =>
      exact Option.isSome_iff_exists.mp (hq c q hp)
    | set x => simp [Telemetry.kind, Value.kind] at hk
    | sum x => simp [Telemetry.kind, Value.kind] at hk
    | histogram x => simp [Telemetry.kind, Value.kind] at hk
  obtain ⟨a, e, hi⟩ := reachable (ext := ext) (P := P) hadd hc ops
    (fun t ht => ⟨hpos t ht, fun hk => hquery t _ hk (hpos t ht hk)⟩) hlen
  refine ⟨a, e, fun tags gzip now locked order ho => ?_⟩
  obtain ⟨pts, e1, _, hmem, _⟩ := reported hi hadd now order ho
  simp only [scrape, e1]
  have hbody : ∀ p ∈ pts, ∃ b, body ext tags p = some b := by
    intro p hp
    obtain ⟨n, acc, hf, hr⟩ := (hmem p).mp hp
    obtain ⟨t0, ts, _, _, hok⟩ := entry hi n acc hf
    obtain ⟨o, e2, h2⟩ := hok.report (addName hadd n) now
    rw [e2, Option.some.injEq] at hr
    obtain ⟨_, ⟨q, hq1, _, hq2⟩, _⟩ := h2 p hr
    simp only [body]
    cases hv : p.value with
    | sum v => exact ⟨_, rfl⟩
    | set v => exact ⟨_, rfl⟩
    | histogram h => exact ⟨_, rfl⟩
    | quantiles c s =>
      have hk : p.kind = .summarize := by simp [Telemetry.kind, hv, Value.kind]
      have hpos' : 0 < p.value.count := by
        rw [hq2]
        exact hq1.2 (by rw [Telemetry.kind, ← hq2]; exact hk)
      have : ∀ qs : List F, ∃ ls, quantileLines ext (sanitize p.name) (p.iterTags tags) p qs = some ls := by
        intro qs
        induction qs with
        | nil => exact ⟨_, rfl⟩
        | cons q qs ih =>
          obtain ⟨ls, hls⟩ := ih
          obtain ⟨v, hv⟩ := hquery p q hk hpos'
          exact ⟨_, by simp only [quantileLines, hv, hls]; rfl⟩
      obtain ⟨ls, hls⟩ := this quantiles
      exact ⟨_, by simp only [hls, Option.map_some]; rfl⟩
  have hw : ∀ (ps : List (Telemetry F)) (seen : List Str), (∀ p ∈ ps, ∃ b, body ext tags p = some b) →
      ∃ ls, writeText ext tags seen ps = some ls := by
    intro ps
    induction ps with
    | nil => intro seen _; exact ⟨_, rfl⟩
    | cons p ps ih =>
      intro seen h
      obtain ⟨b, hb⟩ := h p (List.mem_cons_self ..)
      obtain ⟨ls, hls⟩ := ih (p.name :: seen) (fun q hq => h q (List.mem_cons_of_mem _ hq))
      exact ⟨_, by rw [writeText_cons, hb, hls]⟩
  obtain ⟨ls, hls⟩ := hw pts [] hbody
  rw [hls]
  cases locked <;> cases ls <;> exact ⟨_, rfl⟩

end

/-- Disagreement: with a configured window of zero seconds, two summary points of one second
take the sink down. -/
theorem C74_zero_window_false :
    (run promExt (Aggr.new 0) [.insert (promSummary 1 1), .insert (promSummary 2 1)]).isNone := by
  decide

/-- The query law of `C74_no_panic_partial` holds of the example sketches. -/
example : ∀ (c : F64.Ckms Int) (q : Int), 0 < F64.ckmsCount c → (F64.ckmsQuery c q).isSome := by
  intro c q h
  have h : 0 < List.length (α := Int) c := h
  show (List.max? (α := Int) c).isSome
  cases c with
  | nil => simp at h
  | cons x c => simp [List.max?]

end Verif
