import Verif.Spec.PrometheusWindow
import Verif.Props.Prometheus
/-!
# C49, C50 — what the Prometheus sink reports of a name, over whole histories
-/
namespace Verif
open Prometheus
variable {F : Type} [F64 F]

private theorem place_same (t cur : Telemetry F) (B : List (Telemetry F)) (he : cur.timestamp = t.timestamp) : ∀ A : List (Telemetry F),
    (A ++ cur :: B).Pairwise (fun a b => a.timestamp < b.timestamp) → place t (A ++ cur :: B) = A ++ cur.addAssign t :: B := by
  intro A
  induction A with
  | nil => intro _; simp [place, he]
  | cons s A ih =>
    intro h
    rw [List.cons_append, List.pairwise_cons] at h
    have hs := h.1 cur (by simp)
    rw [he] at hs
    simp only [List.cons_append, place, hs, if_true, ih h.2]

private theorem place_new (t : Telemetry F) (B : List (Telemetry F)) : ∀ A : List (Telemetry F),
    (A ++ t :: B).Pairwise (fun a b => a.timestamp < b.timestamp) → place t (A ++ B) = A ++ t :: B := by
  intro A
  induction A with
  | nil =>
    intro h
    cases B with
    | nil => rfl
    | cons b B =>
      rw [List.nil_append, List.pairwise_cons] at h
      have := h.1 b (by simp)
      have h1 : ¬ b.timestamp < t.timestamp := by omega
      have h2 : ¬ b.timestamp = t.timestamp := by omega
      simp [place, h1, h2]
  | cons s A ih =>
    intro h
    rw [List.cons_append, List.pairwise_cons] at h
    have hs := h.1 t (by simp)
    simp only [List.cons_append, place, hs, if_true, ih h.2]

private theorem held_only (cap : Nat) (n : Str) : ∀ (ops : List (Op F)) (st : Option (List (Telemetry F))),
    ops.foldl (heldStep cap n) st = (onlyName n ops).foldl (heldStep cap n) st := by
  intro ops
  induction ops with
  | nil => intro st; rfl
  | cons op ops ih =>
    intro st
    rw [List.foldl_cons, ih]
    cases op with
    | purge now => rfl
    | insert t =>
      by_cases h : t.name = n
      · have : onlyName n (.insert t :: ops) = .insert t :: onlyName n ops := by simp [onlyName, h]
        rw [this]; rfl
      · have : onlyName n (.insert t :: ops) = onlyName n ops := by simp [onlyName, h]
        rw [this]
        cases st <;> simp [heldStep, h]

private theorem held_run (ext : Ext F) (cap : Nat) (hc : 1 ≤ cap) (hcap : cap < 2 ^ 63) (n : Str) : ∀ (ops : List (Op F)), GoodOps ops →
    (∀ t, Op.insert t ∈ ops → t.name = n) → ∀ (sum : F) (count : Nat) (ws : List (Telemetry F)) (acc : Option (Acc F)),
    ws.Pairwise (fun a b => a.timestamp < b.timestamp) → ws.length ≤ cap →
    runName ext cap (some (.windowed cap sum count ws)) ops = some acc →
    ∃ sum' count' ws', acc = some (.windowed cap sum' count' ws') ∧ ops.foldl (heldStep cap n) (some ws) = some ws' := by
  have ha : Wavefront.asI64 cap = cap := by
    have : cap < 9223372036854775808 := hcap
    simp [Wavefront.asI64, this]
  intro ops
  induction ops with
  | nil => intro _ _ sum count ws acc _ _ h; cases h; exact ⟨_, _, _, rfl, rfl⟩
  | cons op ops ih =>
    intro hg hn sum count ws acc hs hl h
    have hg' : GoodOps ops := fun t ht => hg t (by simp [ht])
    have hn' : ∀ t, Op.insert t ∈ ops → t.name = n := fun t ht => hn t (by simp [ht])
    cases op with
    | purge now =>
      simp only [runName, stepName, Option.map_some, Acc.purge, Option.bind_some] at h
      have hf : (ws.filter fun s => !decide (((s.timestamp - now).natAbs : Int) > Wavefront.asI64 cap)) =
          ws.filter fun s => decide (s.timestamp - now ≤ cap ∧ now - s.timestamp ≤ cap) := by
        refine List.filter_congr fun s _ => ?_
        rw [ha]
        by_cases hx : s.timestamp - now ≤ cap ∧ now - s.timestamp ≤ cap
        · have : ¬ (((s.timestamp - now).natAbs : Int) > cap) := by omega
          simp only [hx, this, decide_false, Bool.not_false, and_self, decide_true]
        · have : ((s.timestamp - now).natAbs : Int) > cap := by omega
          simp only [hx, this, decide_true, Bool.not_true, decide_false]
      rw [hf] at h
      obtain ⟨a, b, c, e1, e2⟩ := ih hg' hn' sum count _ acc (hs.filter _) (Nat.le_trans (List.length_filter_le ..) hl) h
      exact ⟨a, b, c, e1, by rw [List.foldl_cons]; exact e2⟩
    | insert t =>
      have htn := hn t (by simp)
      simp only [runName, stepName] at h
      by_cases hk : t.kind = .summarize
      · obtain ⟨v, hv⟩ := hg t (by simp) hk
        obtain ⟨all, e, h1, h2⟩ := window_insert ext cap sum count ws t hc hs hl hk v hv
        have hall : place t ws = all := by
          rcases h2 with ⟨A, cur, B, e1, e2, e3⟩ | ⟨A, B, e1, _, e3⟩
          · rw [e1] at hs ⊢; rw [e3]; exact place_same t cur B e2 A hs
          · rw [e1, e3]; rw [e3] at h1; exact place_new t B A h1
        have hkk : (Acc.windowed cap sum count ws).kind = t.kind := hk.symm
        rw [if_pos hkk, e] at h
        simp only [Option.map_some, Option.bind_some] at h
        obtain ⟨a, b, c, e1, e2⟩ := ih hg' hn' _ _ _ acc (h1.sublist (List.drop_sublist ..)) (by rw [List.length_drop]; omega) h
        refine ⟨a, b, c, e1, ?_⟩
        rw [List.foldl_cons]
        simp only [heldStep, htn, hk, and_self, if_true, hall]
        exact e2
      · have hkk : ¬ (Acc.windowed cap sum count ws).kind = t.kind := fun e => hk e.symm
        rw [if_neg hkk] at h
        simp only [Option.bind_some] at h
        obtain ⟨a, b, c, e1, e2⟩ := ih hg' hn' _ _ _ acc hs hl h
        refine ⟨a, b, c, e1, ?_⟩
        rw [List.foldl_cons]
        simp only [heldStep, hk, and_false, if_false]
        exact e2

private theorem held_first (ext : Ext F) (cap : Nat) (hc : 1 ≤ cap) (hcap : cap < 2 ^ 63) (n : Str) (t0 : Telemetry F) (hk : t0.kind = .summarize) : ∀ (ops : List (Op F)), GoodOps ops →
    (∀ t, Op.insert t ∈ ops → t.name = n) → (pointsOf n ops).head? = some t0 → ∀ acc : Option (Acc F), runName ext cap none ops = some acc →
    ∃ sum' count' ws', acc = some (.windowed cap sum' count' ws') ∧ ops.foldl (heldStep cap n) none = some ws' := by
  intro ops
  induction ops with
  | nil => intro _ _ h; simp [pointsOf] at h
  | cons op ops ih =>
    intro hg hn h0 acc h
    have hg' : GoodOps ops := fun t ht => hg t (by simp [ht])
    have hn' : ∀ t, Op.insert t ∈ ops → t.name = n := fun t ht => hn t (by simp [ht])
    cases op with
    | purge now =>
      simp only [runName, stepName, Option.map_none, Option.bind_some] at h
      exact ih hg' hn' h0 acc h
    | insert t =>
      have htn := hn t (by simp)
      simp only [pointsOf, htn, if_true, List.head?_cons, Option.some.injEq] at h0
      subst h0
      obtain ⟨v, hv⟩ := hg t (by simp) hk
      have hv' : t.query (F64.ofNat 1) = some v := hv
      simp only [runName, stepName, first, hk, hv', Option.map_some, Option.bind_some] at h
      obtain ⟨a, b, c, e1, e2⟩ := held_run ext cap hc hcap n ops hg' hn' _ _ _ acc (by simp) (by simpa using hc) h
      refine ⟨a, b, c, e1, ?_⟩
      rw [List.foldl_cons]
      simp only [heldStep, htn, if_true]
      exact e2

/-- **C50 (whole histories).**  After any history, the samples that a summary holds are those of the replay `held`: each accepted point put into its place in time or merged into the sample of its
second, the oldest dropped beyond the configured number, and those off the clock by more than the window purged; and what a scrape reports of the name is these samples merged, oldest first — nothing if there
are none. -/
theorem C50_history (ext : Ext F) (cap : Nat) (hc : 1 ≤ cap) (hcap : cap < 2 ^ 63) (ops : List (Op F)) (hg : GoodOps ops) (hlen : ops.length < 2 ^ 64 - 1) (n : Str) (t0 : Telemetry F)
    (h0 : (pointsOf n ops).head? = some t0) (hk : t0.kind = .summarize) :
    ∃ a, run ext (Aggr.new cap) ops = some a ∧ ∀ now order, order.Perm a.data → ∃ pts, report now order = some pts ∧
      ((∃ p ∈ pts, p.name = n) ↔ held cap n ops ≠ []) ∧
      ∀ p ∈ pts, p.name = n → ∃ s rest, held cap n ops = s :: rest ∧ p.tags = s.tags ∧ p.timestamp = (rest.foldl Telemetry.addAssign s).timestamp ∧
        p = { rest.foldl Telemetry.addAssign s with overrideCount := p.overrideCount, overrideSampleSum := p.overrideSampleSum } := by
  obtain ⟨a, sum, count, samples, e, hf, _, _, _, hrep⟩ := C50_window ext cap hc ops hg hlen n t0 h0 hk
  refine ⟨a, e, ?_⟩
  have hheld : held cap n ops = samples := by
    have h1 := (run_name ext n ops (Aggr.new cap) a e).1
    have hgo : GoodOps (onlyName n ops) := fun t ht => hg t (List.mem_filter.1 ht).1
    have hno : ∀ t, Op.insert t ∈ onlyName n ops → t.name = n := fun t ht => by simpa using (List.mem_filter.1 ht).2
    have hpo : ∀ l : List (Op F), pointsOf n (onlyName n l) = pointsOf n l := by
      intro l
      induction l with
      | nil => rfl
      | cons op l ih =>
        cases op with
        | purge now =>
          have : onlyName n (.purge now :: l) = .purge now :: onlyName n l := by simp [onlyName]
          rw [this]; exact ih
        | insert t =>
          by_cases h : t.name = n
          · have : onlyName n (.insert t :: l) = .insert t :: onlyName n l := by simp [onlyName, h]
            rw [this]; simp only [pointsOf, h, if_true, ih]
          · have : onlyName n (.insert t :: l) = onlyName n l := by simp [onlyName, h]
            rw [this]; simp only [pointsOf, h, if_false, ih]
    obtain ⟨x, y, z, e1, e2⟩ := held_first ext cap hc hcap n t0 hk (onlyName n ops) hgo hno (by rw [hpo]; exact h0) _ h1
    rw [hf] at e1
    simp only [Option.some.injEq, Acc.windowed.injEq, true_and] at e1
    rw [held, held_only, e2, e1.2.2]; rfl
  intro now order ho
  obtain ⟨pts, e1, h2, h3⟩ := hrep now order ho
  refine ⟨pts, e1, by rw [hheld]; exact h2, fun p hp hpn => ?_⟩
  obtain ⟨_, v0, vs, _, _, s, rest, hs, hpe⟩ := h3 p hp hpn
  refine ⟨s, rest, by rw [hheld]; exact hs, ?_, by rw [hpe], hpe⟩
  rw [hpe]
  have : ∀ (l : List (Telemetry F)) (s : Telemetry F), (l.foldl Telemetry.addAssign s).tags = s.tags := by
    intro l
    induction l with
    | nil => intro s; rfl
    | cons x l ih => intro s; rw [List.foldl_cons, ih]; rfl
  exact this rest s

/-- A window of two seconds that overflows, with a point that comes late, one merged into its second, and a purge; the first sample carries the tags. -/
example : held 2 "s".toList [.insert (promSummary 1 1), .insert (promSummary 5 3), .insert (promSummary 4 2), .insert (promPoint "c" none 3), .insert (promSummary 6 3)] =
      [promSummary 4 2, (promSummary 5 3).addAssign (promSummary 6 3)] ∧
    held 2 "s".toList [.insert (promSummary 1 1), .insert (promSummary 5 9), .purge 8] = [promSummary 5 9] := by decide

/-- **C49 (exactly whose tags; part).**  After any history, the one point reported under a name carries the tags of the first point of that name if it is a counter, a gauge or a histogram, whatever the tags of
the points that followed and were added to it; of a summary, the tags of the oldest sample held.  Missing from the full statement: points with other tags are not reported
separately (`C49_tags_separate_false`). -/
theorem C49_whose_tags_partial (ext : Ext F) (cap : Nat) (hc : 1 ≤ cap) (hcap : cap < 2 ^ 63) (ops : List (Op F)) (hg : GoodOps ops) (hlen : ops.length < 2 ^ 64 - 1) (n : Str) (t0 : Telemetry F)
    (h0 : (pointsOf n ops).head? = some t0) :
    ∃ a, run ext (Aggr.new cap) ops = some a ∧ ∀ now order, order.Perm a.data → ∃ pts, report now order = some pts ∧
      ∀ p ∈ pts, p.name = n → p.tags = if t0.kind = .summarize then ((held cap n ops).head?.bind (·.tags)) else t0.tags := by
  by_cases hk : t0.kind = .summarize
  · obtain ⟨a, e, h⟩ := C50_history ext cap hc hcap ops hg hlen n t0 h0 hk
    refine ⟨a, e, fun now order ho => ?_⟩
    obtain ⟨pts, e1, _, h3⟩ := h now order ho
    refine ⟨pts, e1, fun p hp hpn => ?_⟩
    obtain ⟨s, rest, hh, ht, _⟩ := h3 p hp hpn
    rw [if_pos hk, hh, ht]; rfl
  · obtain ⟨a, ts, e, _, h⟩ := C75_kept_forever ext cap hc ops hg hlen n t0 h0 hk
    refine ⟨a, e, fun now order ho => ?_⟩
    obtain ⟨pts, e1, h3⟩ := h now order ho
    refine ⟨pts, e1, fun p hp hpn => ?_⟩
    rw [if_neg hk, (h3 p).1 ⟨hp, hpn⟩]
    have : ∀ (l : List (Telemetry F)) (s : Telemetry F), (l.foldl Telemetry.addAssign s).tags = s.tags := by
      intro l
      induction l with
      | nil => intro s; rfl
      | cons x l ih => intro s; rw [List.foldl_cons, ih]; rfl
    exact this ts t0

end Verif
