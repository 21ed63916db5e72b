import Verif.Props.NetEnd
import Verif.Spec.NetElastic
import Verif.Lemmas.SinkReplay
/-!
# C86, C123 and C146 for Elasticsearch sinks
-/
namespace Verif
open Net Topology
open Pipeline (Through)
variable {F : Type} [F64 F]

/-- what is in the requests so far -/
private def asked (h : Hosted Elastic.State (List Elastic.Line × Elastic.Response)) : List LogLine := h.log.flatMap fun b => b.1.map (·.line)

private theorem onItems_accepted (limit : Nat) : ∀ ms : List Elastic.Line, Elastic.onItems limit ms (ms.map fun m => ⟨true, some m.uuid⟩) = some [] := by
  intro ms
  induction ms with
  | nil => rfl
  | cons m ms ih => simp [Elastic.onItems, Elastic.onItem, Elastic.position, ih]

/-- what a flush does to the buffer and to what has been requested, if requests are accepted in full -/
private theorem flush_asked (ext : Elastic.Ext) (interval : Nat) (resps : Nat → Elastic.Response) (uuids : Nat → Nat) {s h}
    (he : (elasticImpl (F := F) ext interval resps uuids).flush s = some h) : ∃ g, s = some g ∧ h.log = g.log ++ [(g.state.buffer, resps g.calls)] ∧
      (Elastic.AcceptedFlush (g.state.buffer, resps g.calls) → h.state.buffer = []) := by
  simp only [elasticImpl, Option.bind_eq_some_iff, Option.map_eq_some_iff] at he
  obtain ⟨g, rfl, ⟨s', o⟩, h1, rfl⟩ := he
  refine ⟨g, rfl, rfl, fun ha => ?_⟩
  simp only [Elastic.flush] at h1
  split at h1
  · rename_i hb
    simp only [Option.some.injEq, Prod.mk.injEq] at h1
    rw [← h1.1]; exact hb
  · rename_i hb
    rcases ha with ha | ha
    · exact absurd ha hb
    simp only at ha
    rw [ha] at h1
    simp only [Elastic.allAccepted, onItems_accepted] at h1
    split at h1
    · cases h1
    · simp only [Option.some.injEq, Prod.mk.injEq] at h1
      rw [← h1.1]

private def Kept (h : Hosted Elastic.State (List Elastic.Line × Elastic.Response)) (d : List (Event F)) : Prop :=
  (∀ b ∈ h.log, Elastic.AcceptedFlush b) → asked h ++ h.state.buffer.map (·.line) = linesIn d

private theorem kept_flush (ext : Elastic.Ext) (interval : Nat) (resps : Nat → Elastic.Response) (uuids : Nat → Nat) {s h} {d : List (Event F)}
    (hP : ∀ h, s = some h → Kept h d) (he : (elasticImpl (F := F) ext interval resps uuids).flush s = some h) :
    Kept h d ∧ ((∀ b ∈ h.log, Elastic.AcceptedFlush b) → asked h = linesIn d) := by
  obtain ⟨g, rfl, e1, e2⟩ := flush_asked ext interval resps uuids he
  have key : (∀ b ∈ h.log, Elastic.AcceptedFlush b) → asked h = linesIn d ∧ h.state.buffer = [] := by
    intro hg
    rw [e1] at hg
    have h1 := hP g rfl (fun b hb => hg b (List.mem_append_left _ hb))
    refine ⟨?_, e2 (hg _ (by simp))⟩
    rw [← h1]
    simp [asked, e1]
  exact ⟨fun hg => by rw [(key hg).1, (key hg).2]; simp, fun hg => (key hg).1⟩

private theorem kept_line (ext : Elastic.Ext) (interval : Nat) (resps : Nat → Elastic.Response) (uuids : Nat → Nat) {s h} {d : List (Event F)} {l : LogLine}
    (hP : ∀ h, s = some h → Kept h d) (he : (elasticImpl (F := F) ext interval resps uuids).deliverLine s l = some h) : Kept h (d ++ [.log l]) := by
  simp only [elasticImpl, Option.map_eq_some_iff] at he
  obtain ⟨g, rfl, rfl⟩ := he
  intro hg
  have := hP g rfl hg
  simp only [linesIn, List.filterMap_append, asked] at this ⊢
  rw [← this]
  simp [Elastic.deliverLine]

private theorem kept_other {h : Hosted Elastic.State (List Elastic.Line × Elastic.Response)} {d : List (Event F)} {e : Event F} (hP : Kept h d)
    (hl : linesIn [e] = []) : Kept h (d ++ [e]) := by
  intro hg
  have := hP hg
  simp only [linesIn, List.filterMap_append] at this hl ⊢
  rw [hl, List.append_nil, this]

/-- **C86 (Elasticsearch, accepted).**  If every request of an Elasticsearch sink was accepted in full, then when it has returned its requests consist, in order and once
each, of the lines it had received by the first `Shutdown`. -/
theorem C86_elasticsearch_accepted (ext : Elastic.Ext) (interval : Nat) (resps : Nat → Elastic.Response)
    (uuids : Nat → Nat) (limit : Nat) (pfx : Option Str) (type : Str) (tags : TagMap)
    (sources n : Nat) (recv : List (Option (Event F))) (h)
    (hret : (SinkRun.steps (elasticImpl ext interval resps uuids) sources n
      { state := some { state := Elastic.init limit pfx type tags }, queue := recv }).returned = true)
    (hs : (SinkRun.steps (elasticImpl ext interval resps uuids) sources n
      { state := some { state := Elastic.init limit pfx type tags }, queue := recv }).state = some h)
    (hacc : ∀ b ∈ h.log, Elastic.AcceptedFlush b) :
    (h.log.flatMap fun b => b.1.map (·.line)) = linesIn (untilShutdown (arrivals recv)) := by
  have hind := SinkRun.induction (elasticImpl (F := F) ext interval resps uuids) (fun s d => ∀ h, s = some h → Kept h d)
    (fun s d => ∀ h, s = some h → (∀ b ∈ h.log, Elastic.AcceptedFlush b) → asked h = linesIn d)
    ?_ ?_ ?_ ?_ ?_ sources n (some { state := Elastic.init limit pfx type tags }) ?_ recv
  · have := hind.2 hret h hs hacc
    rw [delivered_at_return (elasticImpl (F := F) ext interval resps uuids) (some interval) (fun _ => rfl) sources n _ recv hret, linesIn_payload] at this
    exact this
  · intro s d t hP _ h he; exact kept_other (hP h he) rfl
  · intro s d t hP _ h he; exact kept_line ext interval resps uuids hP he
  · intro s d t hP _ h he; exact kept_other (hP h he) rfl
  · intro s d hP h he; exact (kept_flush ext interval resps uuids hP he).1
  · intro s d hP _ h he; exact (kept_flush ext interval resps uuids hP he).2
  · intro h he; simp only [Option.some.injEq] at he; subst he; intro _; rfl

/-- what a flush does to the buffer and to what has been answered, if requests fail altogether or are accepted in full -/
private theorem flush_answered (ext : Elastic.Ext) (interval : Nat) (resps : Nat → Elastic.Response) (uuids : Nat → Nat) {s h}
    (he : (elasticImpl (F := F) ext interval resps uuids).flush s = some h) : ∃ g, s = some g ∧ h.log = g.log ++ [(g.state.buffer, resps g.calls)] ∧
      (Elastic.CleanFlush (g.state.buffer, resps g.calls) →
        Elastic.answered [(g.state.buffer, resps g.calls)] ++ h.state.buffer.map (·.line) = g.state.buffer.map (·.line)) := by
  simp only [elasticImpl, Option.bind_eq_some_iff, Option.map_eq_some_iff] at he
  obtain ⟨g, rfl, ⟨s', o⟩, h1, rfl⟩ := he
  refine ⟨g, rfl, rfl, fun ha => ?_⟩
  simp only [Elastic.flush] at h1
  split at h1
  · rename_i hb
    simp only [Option.some.injEq, Prod.mk.injEq] at h1
    rw [← h1.1, hb]
    simp only [Elastic.answered, List.flatMap_cons, List.flatMap_nil, List.map_nil, List.append_nil]
    split <;> rfl
  · rename_i hb
    split at h1
    · cases h1
    rcases ha with ha | ha | ha | ha
    · exact absurd ha hb
    · simp only at ha
      simp only [ha, Option.some.injEq, Prod.mk.injEq] at h1
      rw [← h1.1, ha]; rfl
    · simp only at ha
      simp only [ha, Option.some.injEq, Prod.mk.injEq] at h1
      rw [← h1.1, ha]; rfl
    · simp only at ha
      rw [ha] at h1 ⊢
      simp only [Elastic.allAccepted, onItems_accepted, Option.some.injEq, Prod.mk.injEq] at h1
      rw [← h1.1]
      simp [Elastic.answered, Elastic.allAccepted]

/-- **C86 (Elasticsearch, nothing lost or twice), partial.**  If every request of an Elasticsearch sink either failed altogether or was accepted in full, then at every moment the lines of the accepted
requests, followed by those in its buffer, are those it has been given, in order and once each; when it has returned, those it had received by the first `Shutdown`.  Missing: that the buffer is then
empty, false by C86_elasticsearch_false. -/
theorem C86_elasticsearch_clean_partial (ext : Elastic.Ext) (interval : Nat) (resps : Nat → Elastic.Response)
    (uuids : Nat → Nat) (limit : Nat) (pfx : Option Str) (type : Str) (tags : TagMap)
    (sources n : Nat) (recv : List (Option (Event F))) (h)
    (hs : (SinkRun.steps (elasticImpl ext interval resps uuids) sources n
      { state := some { state := Elastic.init limit pfx type tags }, queue := recv }).state = some h)
    (hacc : ∀ b ∈ h.log, Elastic.CleanFlush b) :
    Elastic.answered h.log ++ h.state.buffer.map (·.line) = linesIn (deliveredBy (SinkRun.steps (elasticImpl ext interval resps uuids) sources n
      { state := some { state := Elastic.init limit pfx type tags }, queue := recv }).calls) ∧
    ((SinkRun.steps (elasticImpl ext interval resps uuids) sources n
      { state := some { state := Elastic.init limit pfx type tags }, queue := recv }).returned = true →
      Elastic.answered h.log ++ h.state.buffer.map (·.line) = linesIn (untilShutdown (arrivals recv))) := by
  let P : Option (Hosted Elastic.State (List Elastic.Line × Elastic.Response)) → List (Event F) → Prop := fun s d => ∀ h, s = some h →
    (∀ b ∈ h.log, Elastic.CleanFlush b) → Elastic.answered h.log ++ h.state.buffer.map (·.line) = linesIn d
  have hf : ∀ s d, P s d → P ((elasticImpl (F := F) ext interval resps uuids).flush s) d := by
    intro s d hP h he hg
    obtain ⟨g, rfl, e1, e2⟩ := flush_answered ext interval resps uuids he
    rw [e1] at hg ⊢
    have h1 := hP g rfl (fun b hb => hg b (List.mem_append_left _ hb))
    have h2 := e2 (hg _ (by simp))
    rw [← h1, ← h2]
    simp [Elastic.answered, List.flatMap_append, List.append_assoc]
  have hind := SinkRun.induction (elasticImpl (F := F) ext interval resps uuids) P P
    ?_ ?_ ?_ hf (fun s d h _ => hf s d h) sources n (some { state := Elastic.init limit pfx type tags }) ?_ recv
  · have hP : P (SinkRun.steps (elasticImpl ext interval resps uuids) sources n
        { state := some { state := Elastic.init limit pfx type tags }, queue := recv }).state
        (deliveredBy (SinkRun.steps (elasticImpl ext interval resps uuids) sources n
        { state := some { state := Elastic.init limit pfx type tags }, queue := recv }).calls) := by
      cases hret : (SinkRun.steps (elasticImpl (F := F) ext interval resps uuids) sources n
          { state := some { state := Elastic.init limit pfx type tags }, queue := recv }).returned with
      | false => exact hind.1 hret
      | true => exact hind.2 hret
    have := hP h hs hacc
    refine ⟨this, fun hret => ?_⟩
    rw [delivered_at_return (elasticImpl (F := F) ext interval resps uuids) (some interval) (fun _ => rfl) sources n _ recv hret, linesIn_payload] at this
    exact this
  · intro s d t hP _ h he hg
    rw [hP h he hg]; simp [linesIn]
  · intro s d t hP _ h he hg
    simp only [elasticImpl, Option.map_eq_some_iff] at he
    obtain ⟨g, rfl, rfl⟩ := he
    have := hP g rfl hg
    simp only [linesIn, List.filterMap_append] at this ⊢
    rw [← this]
    simp [Elastic.deliverLine]
  · intro s d t hP _ h he hg
    rw [hP h he hg]; simp [linesIn]
  · intro h he; simp only [Option.some.injEq] at he; subst he; intro _; rfl

private theorem elastic_written (ext : Elastic.Ext) (interval : Nat) (resps : Nat → Elastic.Response)
    (uuids : Nat → Nat) (limit : Nat) (pfx : Option Str) (type : Str) (tags : TagMap)
    (sources j : Nat) (recv : List (Option (Event F))) :
    let r := SinkRun.steps (elasticImpl ext interval resps uuids) sources j { state := some { state := Elastic.init limit pfx type tags }, queue := recv }
    ∀ before s idx after, r.calls = before ++ .pulseFlush s idx :: after → ∀ h, r.state = some h →
      (∀ l ∈ linesIn (deliveredBy before), ∃ b ∈ h.log, ∃ m ∈ b.1, m.line = l) ∧
      ((∀ b ∈ h.log, Elastic.AcceptedFlush b) → linesIn (deliveredBy before) <+: asked h) := by
  have flushW : ∀ {s : Option (Hosted Elastic.State (List Elastic.Line × Elastic.Response))} {d : List (Event F)},
      (∀ h, s = some h → (∀ l ∈ linesIn d, ∃ b ∈ h.log, ∃ m ∈ b.1, m.line = l) ∧ ((∀ b ∈ h.log, Elastic.AcceptedFlush b) → linesIn d <+: asked h)) →
      ∀ h, (elasticImpl (F := F) ext interval resps uuids).flush s = some h →
        (∀ l ∈ linesIn d, ∃ b ∈ h.log, ∃ m ∈ b.1, m.line = l) ∧ ((∀ b ∈ h.log, Elastic.AcceptedFlush b) → linesIn d <+: asked h) := by
    intro s d hW h he
    obtain ⟨g, rfl, e1, -⟩ := flush_asked ext interval resps uuids he
    obtain ⟨h1, h2⟩ := hW g rfl
    rw [e1]
    refine ⟨fun l hl => ?_, fun hg => ?_⟩
    · obtain ⟨b, hb, hm⟩ := h1 l hl
      exact ⟨b, List.mem_append_left _ hb, hm⟩
    · refine (h2 fun b hb => hg b (List.mem_append_left _ hb)).trans ?_
      simp only [asked, e1, List.flatMap_append]
      exact List.prefix_append _ _
  refine flushed_induction (elasticImpl (F := F) ext interval resps uuids)
    (fun s d => ∀ h, s = some h → Kept h d ∧ ∀ l ∈ linesIn d, (∃ m ∈ h.state.buffer, m.line = l) ∨ ∃ b ∈ h.log, ∃ m ∈ b.1, m.line = l)
    (fun s d => ∀ h, s = some h → (∀ l ∈ linesIn d, ∃ b ∈ h.log, ∃ m ∈ b.1, m.line = l) ∧
      ((∀ b ∈ h.log, Elastic.AcceptedFlush b) → linesIn d <+: asked h)) ?_ ?_ ?_ ?_ ?_ ?_ ?_ ?_ ?_ ?_ sources j _ ?_ recv
  · intro s d t hP _ h he
    refine ⟨kept_other (hP h he).1 rfl, fun l hl => (hP h he).2 l (by simpa [linesIn] using hl)⟩
  · intro s d t hP _ h he
    refine ⟨kept_line ext interval resps uuids (fun h he => (hP h he).1) he, fun l hl => ?_⟩
    simp only [elasticImpl, Option.map_eq_some_iff] at he
    obtain ⟨g, rfl, rfl⟩ := he
    have hl' : l ∈ linesIn d ∨ l = t := by simpa [linesIn] using hl
    rcases hl' with hl' | rfl
    · rcases (hP g rfl).2 l hl' with ⟨m, hm, e⟩ | hb
      · exact .inl ⟨m, List.mem_append_left _ hm, e⟩
      · exact .inr hb
    · exact .inl ⟨⟨0, uuids g.calls, l⟩, by simp [Elastic.deliverLine], rfl⟩
  · intro s d t hP _ h he
    refine ⟨kept_other (hP h he).1 rfl, fun l hl => (hP h he).2 l (by simpa [linesIn] using hl)⟩
  · intro s d hP h he
    refine ⟨(kept_flush ext interval resps uuids (fun h he => (hP h he).1) he).1, fun l hl => .inr ?_⟩
    obtain ⟨g, rfl, e1, -⟩ := flush_asked ext interval resps uuids he
    rw [e1]
    rcases (hP g rfl).2 l hl with hm | ⟨b, hb, hm⟩
    · exact ⟨_, List.mem_append_right _ (List.mem_singleton.2 rfl), hm⟩
    · exact ⟨b, List.mem_append_left _ hb, hm⟩
  · intro s d hP h he
    refine ⟨fun l hl => ?_, fun hg => by rw [(kept_flush ext interval resps uuids (fun h he => (hP h he).1) he).2 hg]; exact List.prefix_rfl⟩
    obtain ⟨g, rfl, e1, -⟩ := flush_asked ext interval resps uuids he
    rw [e1]
    rcases (hP g rfl).2 l hl with hm | ⟨b, hb, hm⟩
    · exact ⟨_, List.mem_append_right _ (List.mem_singleton.2 rfl), hm⟩
    · exact ⟨b, List.mem_append_left _ hb, hm⟩
  · intro s d t hW h he; exact hW h he
  · intro s d t hW h he
    simp only [elasticImpl, Option.map_eq_some_iff] at he
    obtain ⟨g, rfl, rfl⟩ := he
    exact hW g rfl
  · intro s d t hW h he; exact hW h he
  · intro s d hW; exact flushW hW
  · intro s d hW; exact flushW hW
  · intro h he; simp only [Option.some.injEq] at he; subst he
    exact ⟨fun _ => rfl, fun l hl => by simp [linesIn] at hl⟩

/-- **C146 (Elasticsearch), partial.**  The same for an Elasticsearch sink: every line among what the filters make of everything the sources had sent by `T` has been part of a bulk
request; and if all requests so far were accepted in full, these lines are, in order and once each, the first of those requested.  Missing: that requests are accepted; those that are not are
repeated only at a later flush (C86_elasticsearch_false). -/
theorem C146_elasticsearch_partial (c : Config) (hd : Distinct c) (p : Setup F) (hp : SetUp c p) (ls : Nat → Label F) (hs : ∀ t, ls t ≠ .signal)
    (number : Nat → Nat) (htk : Ticks ls number)
    (first : Str) (fs : List Str) (n : Str) (hfun : Funnel c first fs n) (hfed : ∃ u, Forwards c u first) (hn : n ∈ c.sinks)
    (hb : ∀ m ∈ fs ++ [n], Busy ls m) (hpass : ∀ m ∈ fs, PassesPulses (p.filter m)) (hroom : ∀ t, ∀ m ∈ fs ++ [n], (run p ls t).lost m = [])
    (hre : ValveReopens p ls n)
    (ext : Elastic.Ext) (interval : Nat) (resps : Nat → Elastic.Response)
    (uuids : Nat → Nat) (limit : Nat) (pfx : Option Str) (type : Str) (tags : TagMap)
    (hk : p.sink n = ⟨_, elasticImpl ext interval resps uuids, some { state := Elastic.init limit pfx type tags }⟩) (T : Nat) :
    ∃ t, T ≤ t ∧ ∃ received out m r k, Through (fs.map p.filter) (received.map (·.2)) out ∧ FromSources c p ls first T t received ∧
      (run p ls t).nodes n = some (.sink ⟨_, elasticImpl ext interval resps uuids, some { state := Elastic.init limit pfx type tags }⟩ m r) ∧
      r.state = some k ∧ (∀ l ∈ linesIn out, ∃ b ∈ k.log, ∃ m ∈ b.1, m.line = l) ∧
      ((∀ b ∈ k.log, Elastic.AcceptedFlush b) → linesIn out <+: k.log.flatMap fun b => b.1.map (·.line)) := by
  obtain ⟨t, ht, received, out, a1, a2, a3⟩ := at_flush c hd p hp ls hs number htk first fs n hfun hfed hn hb hpass hroom hre interval
    (by rw [hk]; intro st; rfl) T
  have hv := hre t
  rw [hk] at a3 hv
  obtain ⟨m, r, j, recv, b1, b2, -, before, s, idx, after, b4, b5⟩ := a3
  obtain ⟨k, hkk⟩ := flushes_none rfl rfl (hv m r b1)
  refine ⟨t, ht, received, out, m, r, k, a1, a2, b1, hkk, ?_⟩
  subst b2
  obtain ⟨h1, h2⟩ := elastic_written ext interval resps uuids limit pfx type tags m j recv before s idx after b4 k hkk
  have hpre : linesIn out <+: linesIn (deliveredBy before) := by
    rw [← linesIn_payload out]
    obtain ⟨x, hx⟩ := b5
    rw [← hx]
    simp only [linesIn, List.filterMap_append]
    exact List.prefix_append _ _
  exact ⟨fun l hl => h1 l (hpre.subset hl), fun hg => hpre.trans (h2 hg)⟩

/-- is this call a flush? -/
private def isFlush {κ : Type} : SinkCall F κ → Bool
  | .deliver _ _ => false
  | _ => true

private theorem after_flush (ext : Elastic.Ext) (interval : Nat) (resps : Nat → Elastic.Response) (uuids : Nat → Nat) (s)
    {x : SinkCall F (Option (Hosted Elastic.State (List Elastic.Line × Elastic.Response)))} (hx : isFlush x = true) :
    (elasticImpl (F := F) ext interval resps uuids).after s x = (elasticImpl (F := F) ext interval resps uuids).flush s := by
  cases x with
  | deliver b e => cases hx
  | _ => rfl

private theorem after_other (ext : Elastic.Ext) (interval : Nat) (resps : Nat → Elastic.Response) (uuids : Nat → Nat) {s h}
    {x : SinkCall F (Option (Hosted Elastic.State (List Elastic.Line × Elastic.Response)))} (hx : isFlush x = false)
    (he : (elasticImpl (F := F) ext interval resps uuids).after s x = some h) : ∃ g, s = some g ∧ h.log = g.log ∧
      h.state.buffer.map (·.line) = g.state.buffer.map (·.line) ++ linesIn (deliveredBy [x]) := by
  cases x with
  | deliver b e =>
    cases e with
    | log l =>
      simp only [SinkImpl.after, elasticImpl, Option.map_eq_some_iff] at he
      obtain ⟨g, rfl, rfl⟩ := he
      exact ⟨g, rfl, rfl, by simp [Elastic.deliverLine, linesIn, deliveredBy]⟩
    | telemetry t => exact ⟨h, he, rfl, by simp [linesIn, deliveredBy]⟩
    | raw t => exact ⟨h, he, rfl, by simp [linesIn, deliveredBy]⟩
    | timerFlush t => exact ⟨h, he, rfl, by simp [linesIn, deliveredBy]⟩
    | shutdown => exact ⟨h, he, rfl, by simp [linesIn, deliveredBy]⟩
  | _ => cases hx

/-- what more calls do to the log -/
private theorem replay_log (ext : Elastic.Ext) (interval : Nat) (resps : Nat → Elastic.Response) (uuids : Nat → Nat) :
    ∀ (post : List (SinkCall F (Option (Hosted Elastic.State (List Elastic.Line × Elastic.Response))))) s h,
      (elasticImpl (F := F) ext interval resps uuids).replay s post = some h →
      ∃ g, s = some g ∧ g.log <+: h.log ∧ h.log.length = g.log.length + (post.filter isFlush).length := by
  intro post
  induction post with
  | nil => intro s h he; exact ⟨h, he, List.prefix_rfl, rfl⟩
  | cons x post ih =>
    intro s h he
    obtain ⟨g', e1, e2, e3⟩ := ih _ h he
    cases hx : isFlush x with
    | true =>
      rw [after_flush ext interval resps uuids s hx] at e1
      obtain ⟨g, rfl, f1, -⟩ := flush_asked ext interval resps uuids e1
      rw [f1] at e2 e3
      refine ⟨g, rfl, (List.prefix_append _ _).trans e2, ?_⟩
      simp only [List.length_append, List.length_singleton] at e3
      rw [e3, List.filter_cons_of_pos hx, List.length_cons]; omega
    | false =>
      obtain ⟨g, rfl, f1, -⟩ := after_other ext interval resps uuids hx e1
      rw [f1] at e2 e3
      refine ⟨g, rfl, e2, ?_⟩
      rw [e3, List.filter_cons_of_neg (by simp [hx])]

/-- once a flush is accepted, all given before is answered -/
private theorem replay_accepted (ext : Elastic.Ext) (interval : Nat) (resps : Nat → Elastic.Response) (uuids : Nat → Nat) :
    ∀ (post : List (SinkCall F (Option (Hosted Elastic.State (List Elastic.Line × Elastic.Response))))) g h (d : List LogLine),
      (elasticImpl (F := F) ext interval resps uuids).replay (some g) post = some h → (∀ b ∈ h.log, Elastic.CleanFlush b) →
      d <+: Elastic.answered g.log ++ g.state.buffer.map (·.line) →
      (∃ b ∈ h.log.drop g.log.length, Elastic.AcceptedFlush b) → d <+: Elastic.answered h.log := by
  have grows : ∀ {a b : List (List Elastic.Line × Elastic.Response)}, a <+: b → Elastic.answered a <+: Elastic.answered b := by
    rintro a b ⟨c, rfl⟩
    simp only [Elastic.answered, List.flatMap_append]
    exact List.prefix_append _ _
  intro post
  induction post with
  | nil =>
    intro g h d he _ _ hb
    cases he
    simp at hb
  | cons x post ih =>
    intro g h d he hcl hd hb
    obtain ⟨g', e1, e2, e3⟩ := replay_log ext interval resps uuids post _ h he
    have he : (elasticImpl (F := F) ext interval resps uuids).replay (some g') post = some h := by
      have : (elasticImpl (F := F) ext interval resps uuids).replay ((elasticImpl (F := F) ext interval resps uuids).after (some g) x) post = some h := he
      rwa [e1] at this
    cases hx : isFlush x with
    | true =>
      rw [after_flush ext interval resps uuids _ hx] at e1
      obtain ⟨g2, q1, f1, f2⟩ := flush_answered ext interval resps uuids e1
      obtain ⟨g3, q3, k1, k2⟩ := flush_asked ext interval resps uuids e1
      cases q1; cases q3
      have hcl' : Elastic.CleanFlush (g.state.buffer, resps g.calls) := hcl _ (e2.subset (by rw [f1]; simp))
      have hsum : Elastic.answered g'.log ++ g'.state.buffer.map (·.line) = Elastic.answered g.log ++ g.state.buffer.map (·.line) := by
        rw [← f2 hcl', f1]
        simp [Elastic.answered, List.flatMap_append, List.append_assoc]
      by_cases hacc : Elastic.AcceptedFlush (g.state.buffer, resps g.calls)
      · rw [← hsum, k2 hacc] at hd
        simp only [List.map_nil, List.append_nil] at hd
        exact hd.trans (grows e2)
      · refine ih g' h d he hcl (by rw [hsum]; exact hd) ?_
        obtain ⟨b, hb, hb2⟩ := hb
        obtain ⟨rest, hrest⟩ := e2
        rw [← hrest, f1, List.append_assoc, List.drop_left, List.singleton_append, List.mem_cons] at hb
        rcases hb with rfl | hb
        · exact absurd hb2 hacc
        · exact ⟨b, by rw [← hrest, List.drop_left]; exact hb, hb2⟩
    | false =>
      obtain ⟨g2, q1, f1, f2⟩ := after_other ext interval resps uuids hx e1
      cases q1
      refine ih g' h d he hcl ?_ (by rw [f1]; exact hb)
      rw [f1, f2, ← List.append_assoc]
      exact hd.trans (List.prefix_append _ _)

/-- **C146 (Elasticsearch, accepted).**  If moreover each request of the run either fails altogether or is accepted in full, and they do not fail for ever, then for any time `T` there is a time
by which every line among what the filters make of everything the sources had sent by `T` has been part of an accepted request: these lines are, in order and once each, the first of
those accepted. -/
theorem C146_elasticsearch_accepted (c : Config) (hd : Distinct c) (p : Setup F) (hp : SetUp c p) (ls : Nat → Label F) (hs : ∀ t, ls t ≠ .signal)
    (number : Nat → Nat) (htk : Ticks ls number)
    (first : Str) (fs : List Str) (n : Str) (hfun : Funnel c first fs n) (hfed : ∃ u, Forwards c u first) (hn : n ∈ c.sinks)
    (hb : ∀ m ∈ fs ++ [n], Busy ls m) (hpass : ∀ m ∈ fs, PassesPulses (p.filter m)) (hroom : ∀ t, ∀ m ∈ fs ++ [n], (run p ls t).lost m = [])
    (hre : ValveReopens p ls n)
    (ext : Elastic.Ext) (interval : Nat) (resps : Nat → Elastic.Response)
    (uuids : Nat → Nat) (limit : Nat) (pfx : Option Str) (type : Str) (tags : TagMap)
    (hk : p.sink n = ⟨_, elasticImpl ext interval resps uuids, some { state := Elastic.init limit pfx type tags }⟩)
    (hclean : ∀ t m r k, (run p ls t).nodes n = some (.sink ⟨_, elasticImpl ext interval resps uuids, some { state := Elastic.init limit pfx type tags }⟩ m r) →
      r.state = some k → ∀ b ∈ k.log, Elastic.CleanFlush b)
    (hacc : ElasticAccepts p ls n ext interval resps uuids (some { state := Elastic.init limit pfx type tags })) (T : Nat) :
    ∃ t, T ≤ t ∧ ∃ received out m r k, Through (fs.map p.filter) (received.map (·.2)) out ∧ FromSources c p ls first T t received ∧
      (run p ls t).nodes n = some (.sink ⟨_, elasticImpl ext interval resps uuids, some { state := Elastic.init limit pfx type tags }⟩ m r) ∧
      r.state = some k ∧ linesIn out <+: Elastic.answered k.log := by
  have hanew := flushed_anew c hd p hp ls hs number htk first fs n hfun hfed hn hb hpass hroom hre interval (by rw [hk]; intro st; rfl) T
  have hagain := C146_flushed_again_partial c hd p hp ls hs number htk first fs n hfun hfed hn hb hpass hroom hre interval (by rw [hk]; intro st; rfl)
  have halone := fun t => C123_alone c hd p hp ls t n hn
  have hv := hre
  simp only [ValveReopens] at hv
  rw [hk] at hanew hagain halone hv
  obtain ⟨t1, t3, m, r1, r3, received, out, before, s, idx, after, a1, a2, a3, a4, a5, a6, a7, a8⟩ := hanew
  have some_state : ∀ t m r, (run p ls t).nodes n = some (.sink ⟨_, elasticImpl ext interval resps uuids, some { state := Elastic.init limit pfx type tags }⟩ m r) →
      ∃ k, r.state = some k := fun t m r h => flushes_none rfl rfl (hv t m r h)
  have replayed : ∀ t m r, (run p ls t).nodes n = some (.sink ⟨_, elasticImpl ext interval resps uuids, some { state := Elastic.init limit pfx type tags }⟩ m r) →
      ∃ j recv, r = SinkRun.steps (elasticImpl ext interval resps uuids) m j { state := some { state := Elastic.init limit pfx type tags }, queue := recv } := by
    intro t m r h
    obtain ⟨m', r', j, h1, h2⟩ := halone t
    rw [h] at h1
    simp only [Option.some.injEq, Node.sink.injEq, heq_eq_eq, true_and] at h1
    obtain ⟨rfl, rfl⟩ := h1
    exact ⟨j, _, h2⟩
  obtain ⟨g, hg⟩ := some_state t1 m r1 a3
  obtain ⟨K, hK⟩ := hacc t1 m r1 g a3 hg
  have many : ∀ K, ∃ t r more, t3 ≤ t ∧
      (run p ls t).nodes n = some (.sink ⟨_, elasticImpl ext interval resps uuids, some { state := Elastic.init limit pfx type tags }⟩ m r) ∧
      r.calls = r1.calls ++ more ∧ K ≤ (more.filter isFlush).length := by
    intro K
    induction K with
    | zero => exact ⟨t3, r3, _, Nat.le_refl _, a4, a7, Nat.zero_le _⟩
    | succ K ih =>
      obtain ⟨t, r, more, b1, b2, b3, b4⟩ := ih
      obtain ⟨t', r', more', s', idx', c1, c2, c3, c4⟩ := hagain t m r b2
      refine ⟨t', r', more ++ more', by omega, c2, by rw [c3, b3, List.append_assoc], ?_⟩
      have : 0 < (more'.filter isFlush).length := List.length_pos_of_mem (List.mem_filter.2 ⟨c4, rfl⟩)
      rw [List.filter_append, List.length_append]; omega
  obtain ⟨t, r, more, b1, b2, b3, b4⟩ := many K
  obtain ⟨k, hkk⟩ := some_state t m r b2
  obtain ⟨j1, recv1, e1⟩ := replayed t1 m r1 a3
  obtain ⟨j2, recv2, e2⟩ := replayed t m r b2
  have f1 : r1.state = (elasticImpl ext interval resps uuids).replay (some { state := Elastic.init limit pfx type tags }) r1.calls := by
    rw [e1]; exact SinkRun.steps_replay _ _ _ _ _ rfl
  have f2 : r.state = (elasticImpl ext interval resps uuids).replay (some { state := Elastic.init limit pfx type tags }) r.calls := by
    rw [e2]; exact SinkRun.steps_replay _ _ _ _ _ rfl
  rw [b3, SinkImpl.replay_append, ← f1, hg, hkk] at f2
  obtain ⟨g', q, l1, l2⟩ := replay_log ext interval resps uuids more _ k f2.symm
  cases q
  have hcl := hclean t m r k b2 hkk
  obtain ⟨b, hb1, hb2⟩ := hK t (by omega) m r k b2 hkk (by omega)
  have hstart : linesIn out <+: Elastic.answered g.log ++ g.state.buffer.map (·.line) := by
    have hcg := hclean t1 m r1 g a3 hg
    subst e1
    rw [(C86_elasticsearch_clean_partial ext interval resps uuids limit pfx type tags m j1 recv1 g hg hcg).1, ← linesIn_payload out]
    obtain ⟨x, hx⟩ := a8
    rw [← hx]
    simp only [linesIn, List.filterMap_append]
    exact List.prefix_append _ _
  refine ⟨t, by omega, received, out, m, r, k, a5, from_later a6 b1, b2, hkk, ?_⟩
  exact replay_accepted ext interval resps uuids more g k _ f2.symm hcl hstart ⟨b, hb1, hb2⟩

/-- **C123 (Elasticsearch, in the end), partial.**  A process that is told to stop (as in `C123_console_in_the_end`) exits; by then every line among what the filters make of what
was received has been part of a bulk request; if all requests were accepted in full they consist of just these lines, in order and once each; and if some failed altogether, the lines of
the accepted ones and those still in the buffer do. -/
theorem C123_elasticsearch_in_the_end_partial (c : Config) (p : Setup F) (ls : Nat → Label F) (h : Ending c p ls) (T : Nat) (hT : ∀ t < T, ls t ≠ .signal)
    (first : Str) (fs : List Str) (n : Str) (hfun : Funnel c first fs n) (hn : n ∈ c.sinks)
    (ext : Elastic.Ext) (interval : Nat) (resps : Nat → Elastic.Response)
    (uuids : Nat → Nat) (limit : Nat) (pfx : Option Str) (type : Str) (tags : TagMap)
    (hk : p.sink n = ⟨_, elasticImpl ext interval resps uuids, some { state := Elastic.init limit pfx type tags }⟩) :
    ∃ t received out m r k, (run p ls t).main = .exited ∧ Through (fs.map p.filter) (received.map (·.2)) out ∧ FromSources c p ls first T t received ∧
      (run p ls t).nodes n = some (.sink ⟨_, elasticImpl ext interval resps uuids, some { state := Elastic.init limit pfx type tags }⟩ m r) ∧
      r.state = some k ∧ (∀ l ∈ linesIn out, ∃ b ∈ k.log, ∃ m ∈ b.1, m.line = l) ∧
      ((∀ b ∈ k.log, Elastic.AcceptedFlush b) → (k.log.flatMap fun b => b.1.map (·.line)) = linesIn out) ∧
      ((∀ b ∈ k.log, Elastic.CleanFlush b) → Elastic.answered k.log ++ k.state.buffer.map (·.line) = linesIn out) := by
  obtain ⟨t, ht, hl⟩ := exits_in_the_end c p ls h
  obtain ⟨received, out, a1, a2, a3⟩ := several_at_exit c h.distinct p h.setUp ls T t hT ht first fs n hfun hn (fun m _ => hl m) (some interval)
    (by rw [hk]; intro st; rfl)
  have hv := h.reopen n hn t
  rw [hk] at a3 hv
  obtain ⟨m, r, j, recv, b1, b2, b3, b4⟩ := a3
  obtain ⟨k, hkk⟩ := flushes_none rfl rfl (hv m r b1)
  refine ⟨t, received, out, m, r, k, ht, a1, a2, b1, hkk, ?_⟩
  subst b2
  have e1 := C86_elasticsearch_partial ext interval resps uuids limit pfx type tags m j recv k b3 hkk
  have e2 := C86_elasticsearch_accepted ext interval resps uuids limit pfx type tags m j recv k b3 hkk
  have e3 := fun ha => (C86_elasticsearch_clean_partial ext interval resps uuids limit pfx type tags m j recv k hkk ha).2 b3
  rw [← linesIn_payload, b4, linesIn_payload] at e1 e2 e3
  exact ⟨e1, e2, e3⟩

/-- **C146 (Elasticsearch, valve).**  An Elasticsearch that is never away for ever opens the valve of its sink, if the times of lines can be written as dates. -/
theorem C146_elasticsearch_reopens (p : Setup F) (ls : Nat → Label F) (n : Str) (ext : Elastic.Ext) (hx : ∀ t, (ext.date t).isSome ∧ (ext.time t).isSome)
    (interval : Nat) (resps : Nat → Elastic.Response) (uuids : Nat → Nat) (limit : Nat) (pfx : Option Str) (type : Str) (tags : TagMap)
    (hk : p.sink n = ⟨_, elasticImpl ext interval resps uuids, some { state := Elastic.init limit pfx type tags }⟩)
    (hret : ElasticReturns p ls n ext interval resps uuids (some { state := Elastic.init limit pfx type tags })) : ValveReopens p ls n := by
  have body : ∀ s : Elastic.State, s.buffer ≠ [] → ∃ docs, Elastic.bulkBody ext s = some docs := by
    intro s hb
    have : ∀ ms, ∃ docs, Elastic.docsOf ext s ms = some docs := by
      intro ms
      induction ms with
      | nil => exact ⟨_, rfl⟩
      | cons m ms ih =>
        obtain ⟨ds, hds⟩ := ih
        obtain ⟨h1, h2⟩ := hx m.line.time
        obtain ⟨a, ha⟩ := Option.isSome_iff_exists.1 h1
        obtain ⟨b, hb⟩ := Option.isSome_iff_exists.1 h2
        exact ⟨_, by simp only [Elastic.docsOf, Elastic.docOf, Elastic.indexName, ha, hb, hds, Option.map_some]; rfl⟩
    obtain ⟨docs, hd⟩ := this s.buffer
    exact ⟨docs, by rw [Elastic.bulkBody, if_neg hb, hd]⟩
  have key : ∀ d (h : Hosted Elastic.State (List Elastic.Line × Elastic.Response)), h.state.buffer ≠ [] →
      (∀ d' < d, resps (h.calls + d') = .sendError ∨ resps (h.calls + d') = .error) → resps (h.calls + d) = Elastic.allAccepted h.state.buffer →
      (elasticImpl (F := F) ext interval resps uuids).valveOpen (flushes (elasticImpl (F := F) ext interval resps uuids) (d + 1) (some h)) = true := by
    intro d
    induction d with
    | zero =>
      intro h hne _ hr
      obtain ⟨docs, hdocs⟩ := body h.state hne
      rw [Nat.add_zero] at hr
      simp only [flushes, elasticImpl, Option.bind_some, Elastic.flush, if_neg hne, hdocs, hr, Elastic.allAccepted, onItems_accepted, Option.map_some,
        Option.getD_some, Elastic.valveOpen]
      rfl
    | succ d ih =>
      intro h hne hf hr
      obtain ⟨docs, hdocs⟩ := body h.state hne
      have hstep : (elasticImpl (F := F) ext interval resps uuids).flush (some h) =
          some { h with calls := h.calls + 1, log := h.log ++ [(h.state.buffer, resps h.calls)] } := by
        have := hf 0 (by omega)
        rw [Nat.add_zero] at this
        rcases this with e | e <;>
          simp only [elasticImpl, Option.bind_some, Elastic.flush, if_neg hne, hdocs, e, Option.map_some]
      rw [flushes, hstep]
      refine ih _ hne ?_ ?_
      · intro d' hd'
        have := hf (d' + 1) (by omega)
        rwa [show h.calls + (d' + 1) = h.calls + 1 + d' by omega] at this
      · rwa [show h.calls + (d + 1) = h.calls + 1 + d by omega] at hr
  intro t
  have hr := hret t
  rw [hk]
  intro m r hnode
  obtain ⟨h, h1, h2⟩ := hr m r hnode
  rw [h1]
  by_cases hb : h.state.buffer = []
  · refine ⟨0, ?_⟩
    simp [flushes, elasticImpl, Elastic.valveOpen, hb]
  · obtain ⟨d, d1, d2⟩ := h2 hb
    exact ⟨d + 1, key d h hb d1 d2⟩

/-! ## An example: a source with an Elasticsearch sink, whose first request fails -/

private def searched : Config := ⟨[['e']], [], [], [(['a'], [['e']])]⟩

private def searchedLine : LogLine := .new 5 ['p'] ['v']

private def searchedExt : Elastic.Ext := ⟨fun _ => some ['T'], fun _ => some ['D'], fun _ => ['u']⟩

/-- The second call, which is the first flush, finds no server; from then on there is one. -/
private def searchedAnswers (i : Nat) : Elastic.Response := if i ≤ 1 then .sendError else Elastic.allAccepted [⟨0, 7, searchedLine⟩]

private def searchedHost : SinkCode Int := ⟨_, elasticImpl searchedExt 1 searchedAnswers (fun _ => 7), some { state := Elastic.init 3 none [] [] }⟩

private def searchedSetup : Setup Int where
  wiring := ⟨[(['e'], [['a']])], [], [(['a'], [['e']])], [['e']]⟩
  filter _ := ⟨_, delayProcess, 10⟩
  sink _ := searchedHost
  stopOrder := [0]
  joinOrder := [['e']]

/-- One line, and then pulses and turns of the sink for ever. -/
private def searching (t : Nat) : Label Int :=
  if t = 0 then .emit 0 (.log searchedLine) else if t % 3 = 1 then .pulse (t / 3 + 1) else .act ['e'] 0

/-- One line; then everyone in turn, with a signal now and then. -/
private def searchEnds (t : Nat) : Label Int :=
  if t = 0 then .emit 0 (.log searchedLine) else if t % 4 = 0 then .act ['e'] 0 else if t % 4 = 1 then .stop 0 else
  if t % 4 = 2 then .main else .signal

private theorem searched_setUp : SetUp searched searchedSetup := ⟨rfl, by decide, by decide, fun n hn => by cases hn⟩

private theorem searched_log (ls : Nat → Label Int) (h0 : ls 0 = .emit 0 (.log searchedLine)) (hl : ∀ t i e, ls (t + 1) ≠ .emit i e) (t : Nat) :
    linesIn (((run searchedSetup ls (t + 1)).log ['e']).map (·.2)) = [searchedLine] := by
  induction t with
  | zero =>
    rw [log_succ rfl, h0]
    rfl
  | succ t ih =>
    rw [log_succ rfl, List.map_append]
    simp only [linesIn, List.filterMap_append] at ih ⊢
    rw [ih, List.filterMap_eq_nil_iff.2]
    · rfl
    intro e he
    simp only [List.map_map, List.mem_map] at he
    obtain ⟨e', he, rfl⟩ := he
    have he := arrive_mem he
    simp only [Function.comp]
    cases hlab : ls (t + 1) with
    | emit i e => exact absurd hlab (hl t i e)
    | act m now =>
      rw [hlab] at he
      simp only [offered] at he
      cases hnd : (run searchedSetup ls (t + 1)).nodes m with
      | none => simp [hnd] at he
      | some nd =>
        simp only [hnd, List.mem_flatMap, List.mem_replicate] at he
        obtain ⟨e', h1, h2, -⟩ := he
        rcases node_of _ hnd with ⟨ups, ch, q, r, g1, rfl⟩ | ⟨ups, r, g1, rfl⟩
        · cases g1
        · simp [Node.channels] at h2
    | pulse idx => rw [hlab] at he; rw [(List.mem_replicate.1 he).2]
    | stop i =>
      rw [hlab] at he
      simp only [offered] at he
      split at he
      · cases he
      · split at he
        · rw [(List.mem_replicate.1 he).2]
        · cases he
    | signal => rw [hlab] at he; cases he
    | main => rw [hlab] at he; cases he

private theorem searched_inv (ls : Nat → Label Int) (h0 : ls 0 = .emit 0 (.log searchedLine)) (hl : ∀ t i e, ls (t + 1) ≠ .emit i e) (t m : Nat) (r)
    (hr : (run searchedSetup ls t).nodes ['e'] = some (.sink searchedHost m r)) : ∃ h : Hosted Elastic.State (List Elastic.Line × Elastic.Response),
      r.state = some h ∧ (h.state.buffer = [] ∨ h.state.buffer = [⟨0, 7, searchedLine⟩]) ∧ h.log.length ≤ h.calls ∧
      ∀ i b, h.log[i]? = some b → Elastic.CleanFlush b ∧ (2 ≤ i → Elastic.AcceptedFlush b) := by
  have hd : Distinct searched := by decide
  obtain ⟨m', r', j, h1, h2⟩ : ∃ m' r' j, (run searchedSetup ls t).nodes ['e'] = some (.sink searchedHost m' r') ∧
      r' = SinkRun.steps searchedHost.impl m' j { state := searchedHost.start, queue := ((run searchedSetup ls t).log ['e']).map fun x => some x.2 } :=
    C123_alone searched hd searchedSetup searched_setUp ls t ['e'] (by decide)
  obtain ⟨r3, cs, g1, g2⟩ : ∃ (r3 : SinkRun Int searchedHost.κ) (cs : List (Event Int)), (run searchedSetup ls t).nodes ['e'] = some (.sink searchedHost 1 r3) ∧
      SinkInv searchedHost.impl (some 1) (((run searchedSetup ls t).log ['e']).map fun (x : Sender × Event Int) => x.2) r3 cs := sink_log (ls := ls) (linked hd searched_setUp.wired) (n := ['e']) (ups := [['a']]) (by decide) (iv := some 1) (fun _ => rfl) t
  rw [hr] at h1 g1
  simp only [searchedHost, Option.some.injEq, Node.sink.injEq, heq_eq_eq, true_and] at h1 g1
  obtain ⟨rfl, rfl⟩ := h1
  obtain ⟨-, rfl⟩ := g1
  have hlines : linesIn (deliveredBy r.calls) <+: [searchedLine] := by
    have hpre : linesIn (deliveredBy r.calls) <+: linesIn (((run searchedSetup ls t).log ['e']).map (·.2)) := by
      have hdel : deliveredBy r.calls = cs.filter Event.isPayload := g2.delivered
      rw [hdel, linesIn_payload, g2.split, List.append_assoc]
      simp only [linesIn, List.filterMap_append]
      exact List.prefix_append _ _
    cases t with
    | zero => exact hpre.trans (by simp [run, initial, linesIn])
    | succ t => rw [searched_log ls h0 hl t] at hpre; exact hpre
  let P : Option (Hosted Elastic.State (List Elastic.Line × Elastic.Response)) → List (Event Int) → Prop := fun s d => linesIn d <+: [searchedLine] →
    ∃ h, s = some h ∧ (h.state.buffer = [] ∨ (h.state.buffer = [⟨0, 7, searchedLine⟩] ∧ linesIn d ≠ [])) ∧ h.log.length ≤ h.calls ∧
      ∀ i b, h.log[i]? = some b → Elastic.CleanFlush b ∧ (2 ≤ i → Elastic.AcceptedFlush b)
  have short : ∀ {d : List (Event Int)} {e : Event Int}, linesIn (d ++ [e]) <+: [searchedLine] → linesIn d <+: [searchedLine] := by
    intro d e h
    refine List.IsPrefix.trans ?_ h
    simp only [linesIn, List.filterMap_append]
    exact List.prefix_append _ _
  have entries : ∀ h : Hosted Elastic.State (List Elastic.Line × Elastic.Response), h.log.length ≤ h.calls →
      (∀ i b, h.log[i]? = some b → Elastic.CleanFlush b ∧ (2 ≤ i → Elastic.AcceptedFlush b)) →
      (h.state.buffer = [] ∨ h.state.buffer = [⟨0, 7, searchedLine⟩]) →
      ∀ i b, (h.log ++ [(h.state.buffer, searchedAnswers h.calls)])[i]? = some b → Elastic.CleanFlush b ∧ (2 ≤ i → Elastic.AcceptedFlush b) := by
    intro h hlen hold hb i b hib
    rw [List.getElem?_append] at hib
    split at hib
    · exact hold i b hib
    · obtain ⟨h1, rfl⟩ := List.getElem?_eq_some_iff.1 hib
      simp only [List.length_singleton] at h1
      simp only [show i - h.log.length = 0 by omega, List.getElem_cons_zero]
      rcases hb with hb | hb
      · exact ⟨.inl hb, fun _ => .inl hb⟩
      · by_cases hc : h.calls ≤ 1
        · exact ⟨.inr (.inl (by simp only [searchedAnswers]; rw [if_pos hc])), fun h2 => by omega⟩
        · have : searchedAnswers h.calls = Elastic.allAccepted h.state.buffer := by simp only [searchedAnswers]; rw [if_neg hc, hb]
          exact ⟨.inr (.inr (.inr this)), fun _ => .inr this⟩
  have hf : ∀ s d, P s d → P ((elasticImpl (F := Int) searchedExt 1 searchedAnswers (fun _ => 7)).flush s) d := by
    intro s d hP hd
    obtain ⟨h, rfl, hb, hlen, hold⟩ := hP hd
    have hnew := entries h hlen hold (hb.imp_right (·.1))
    have hlen' : (h.log ++ [(h.state.buffer, searchedAnswers h.calls)]).length ≤ h.calls + 1 := by rw [List.length_append]; simpa using hlen
    rcases hb with hb | ⟨hb, hne⟩
    · refine ⟨{ h with calls := h.calls + 1, log := h.log ++ [(h.state.buffer, searchedAnswers h.calls)] }, ?_, .inl hb, hlen', hnew⟩
      simp only [elasticImpl, Option.bind_some, Elastic.flush, if_pos hb, Option.map_some]
    · by_cases hc : h.calls ≤ 1
      · refine ⟨{ h with calls := h.calls + 1, log := h.log ++ [(h.state.buffer, searchedAnswers h.calls)] }, ?_, .inr ⟨hb, hne⟩, hlen', hnew⟩
        simp only [elasticImpl, Option.bind_some, Elastic.flush, hb, searchedAnswers, if_pos hc, Elastic.bulkBody, Elastic.docsOf, Elastic.docOf, searchedExt,
          Elastic.indexName, Option.map_some]
        rfl
      · refine ⟨{ state := { h.state with buffer := [] }, calls := h.calls + 1, log := h.log ++ [(h.state.buffer, searchedAnswers h.calls)] }, ?_, .inl rfl, hlen', hnew⟩
        simp only [elasticImpl, Option.bind_some, Elastic.flush, hb, searchedAnswers, if_neg hc, Elastic.bulkBody, Elastic.docsOf, Elastic.docOf, searchedExt,
          Elastic.indexName, Option.map_some, Elastic.allAccepted, onItems_accepted]
        rfl
  have hind := SinkRun.induction (elasticImpl (F := Int) searchedExt 1 searchedAnswers (fun _ => 7)) P P ?_ ?_ ?_ hf (fun s d h _ => hf s d h) 1 j
    (some { state := Elastic.init 3 none [] [] }) ?_ (((run searchedSetup ls t).log ['e']).map fun x => some x.2)
  · have hP : P r.state (deliveredBy r.calls) := by
      rw [h2]
      cases hret : (SinkRun.steps (elasticImpl (F := Int) searchedExt 1 searchedAnswers (fun _ => 7)) 1 j
        { state := some { state := Elastic.init 3 none [] [] }, queue := ((run searchedSetup ls t).log ['e']).map fun x => some x.2 }).returned with
      | false => exact hind.1 hret
      | true => exact hind.2 hret
    obtain ⟨h, e1, e2, e3⟩ := hP hlines
    exact ⟨h, e1, e2.imp_right (·.1), e3⟩
  · intro s d x hP _ hd
    obtain ⟨h, rfl, hb, hlen⟩ := hP (short hd)
    exact ⟨h, rfl, hb.imp_right fun hb => ⟨hb.1, by simpa [linesIn] using hb.2⟩, hlen⟩
  · intro s d x hP _ hd
    obtain ⟨h, rfl, hb, hlen, hold⟩ := hP (short hd)
    have hd' : linesIn d ++ [x] <+: [searchedLine] := by simpa [linesIn, List.filterMap_append] using hd
    have hnil : linesIn d = [] := by
      have := hd'.length_le
      simp at this
      exact this
    rw [hnil] at hd' hb
    have hx : x = searchedLine := by simpa using hd'
    subst hx
    rcases hb with hb | hb
    · exact ⟨_, rfl, .inr ⟨by simp [Elastic.deliverLine, hb], by simp [linesIn, List.filterMap_append]⟩, Nat.le_succ_of_le hlen, hold⟩
    · exact absurd rfl hb.2
  · intro s d x hP _ hd
    obtain ⟨h, rfl, hb, hlen⟩ := hP (short hd)
    exact ⟨h, rfl, hb.imp_right fun hb => ⟨hb.1, by simpa [linesIn] using hb.2⟩, hlen⟩
  · intro _; exact ⟨_, rfl, .inl rfl, Nat.le_refl 0, fun i b h => by simp at h⟩

private theorem searched_returns (ls : Nat → Label Int) (h0 : ls 0 = .emit 0 (.log searchedLine)) (hl : ∀ t i e, ls (t + 1) ≠ .emit i e) :
    ElasticReturns searchedSetup ls ['e'] searchedExt 1 searchedAnswers (fun _ => 7) (some { state := Elastic.init 3 none [] [] }) := by
  intro t m r hr
  obtain ⟨h, e1, e2, -⟩ := searched_inv ls h0 hl t m r hr
  refine ⟨h, e1, fun hne => ?_⟩
  rcases e2 with e2 | e2
  · exact absurd e2 hne
  · refine ⟨2 - h.calls, fun d hd => .inl ?_, ?_⟩
    · simp only [searchedAnswers]; rw [if_pos (by omega)]
    · simp only [searchedAnswers]; rw [if_neg (by omega), e2]

/-- What `C146_elasticsearch_accepted` asks of the answers. -/
private theorem searched_accepts (ls : Nat → Label Int) (h0 : ls 0 = .emit 0 (.log searchedLine)) (hl : ∀ t i e, ls (t + 1) ≠ .emit i e) :
    ElasticAccepts searchedSetup ls ['e'] searchedExt 1 searchedAnswers (fun _ => 7) (some { state := Elastic.init 3 none [] [] }) ∧
    ∀ t m r k, (run searchedSetup ls t).nodes ['e'] = some (.sink searchedHost m r) → r.state = some k → ∀ b ∈ k.log, Elastic.CleanFlush b := by
  constructor
  · intro t m r h _ _
    refine ⟨3, fun t' _ m' r' h' hr' hs' hlen => ?_⟩
    obtain ⟨g, e1, -, -, e4⟩ := searched_inv ls h0 hl t' m' r' hr'
    rw [hs'] at e1
    cases e1
    have hi : h.log.length + 2 < h'.log.length := by omega
    refine ⟨h'.log[h.log.length + 2], List.mem_drop_iff_getElem.2 ⟨2, by omega, rfl⟩, (e4 _ _ (List.getElem?_eq_getElem hi)).2 (by omega)⟩
  · intro t m r k hr hs b hb
    obtain ⟨g, e1, -, -, e4⟩ := searched_inv ls h0 hl t m r hr
    cases hs.symm.trans e1
    obtain ⟨i, hi⟩ := List.getElem?_of_mem hb
    exact (e4 i b hi).1

private theorem searched_funnel : Funnel searched ['e'] [] ['e'] := by
  refine .sources (.inl (by decide)) ?_
  rintro u ⟨fs, h1, -⟩
  simp only [searched, List.mem_append, List.mem_cons, Prod.mk.injEq, List.not_mem_nil, or_false, false_or] at h1
  obtain ⟨rfl, -⟩ := h1; decide

/-- All that `C146_elasticsearch_partial` asks for; what `C146_elasticsearch_accepted` asks for besides is in `searched_accepts`. -/
example : Distinct searched ∧ SetUp searched searchedSetup ∧ (∀ t, searching t ≠ .signal) ∧ Ticks searching (fun t => (t + 1) / 3) ∧
    Funnel searched ['e'] [] ['e'] ∧ (∃ u, Forwards searched u ['e']) ∧ Busy searching ['e'] ∧ (∀ t, (run searchedSetup searching t).lost ['e'] = []) ∧
    ValveReopens searchedSetup searching ['e'] ∧
    ElasticAccepts searchedSetup searching ['e'] searchedExt 1 searchedAnswers (fun _ => 7) (some { state := Elastic.init 3 none [] [] }) := by
  have hno : ∀ t i e, searching (t + 1) ≠ .emit i e := by
    intro t i e h
    simp only [searching] at h
    rw [if_neg (by omega)] at h
    split at h <;> cases h
  refine ⟨by decide, searched_setUp, ?_, ⟨rfl, ?_, ?_, ?_⟩, searched_funnel, ⟨['a'], [['e']], by decide, by decide⟩, ?_,
    fun t => by rw [lost_settled (Nat.zero_le t) fun k _ => rfl]; rfl, ?_, (searched_accepts _ rfl hno).1⟩
  · intro t h; simp only [searching] at h
    split at h
    · cases h
    split at h <;> cases h
  · intro t idx h
    simp only [searching] at h
    split at h
    · cases h
    split at h
    · injection h with h; constructor <;> omega
    · cases h
  · intro t h
    have : t % 3 ≠ 1 := by
      intro h2
      exact h (t / 3 + 1) (by simp only [searching]; rw [if_neg (by omega), if_pos h2])
    show (t + 1 + 1) / 3 = (t + 1) / 3
    omega
  · intro t; exact ⟨3 * t + 1, by omega, t + 1, by simp only [searching]; rw [if_neg (by omega), if_pos (by omega)]; congr 1; omega⟩
  · intro t; exact ⟨3 * t + 2, by omega, 0, by simp only [searching]; rw [if_neg (by omega), if_neg (by omega)]⟩
  · refine C146_elasticsearch_reopens _ _ _ searchedExt (fun _ => ⟨rfl, rfl⟩) 1 searchedAnswers (fun _ => 7) 3 none [] [] rfl (searched_returns _ rfl hno)

/-- All that `C123_elasticsearch_in_the_end_partial` asks for. -/
example : Ending searched searchedSetup searchEnds ∧ Funnel searched ['e'] [] ['e'] ∧ ∀ t < 1, searchEnds t ≠ .signal := by
  have label : ∀ t, 1 ≤ t → searchEnds t = if t % 4 = 0 then .act ['e'] 0 else if t % 4 = 1 then .stop 0 else
      if t % 4 = 2 then .main else .signal := by
    intro t ht; simp only [searchEnds]; rw [if_neg (by omega)]
  have again : ∀ r t, r < 4 → ∃ t' ≥ t, 1 ≤ t' ∧ t' % 4 = r := fun r t hr => ⟨4 * (t + 1) + r, by omega, by omega, by omega⟩
  refine ⟨⟨by decide, searched_setUp, ?_, fun _ _ => rfl, ?_, ⟨?_, ?_, ?_⟩, ⟨3, rfl⟩⟩, searched_funnel, ?_⟩
  · rintro n (h | ⟨fs, h⟩)
    · exact .source ['a'] n (by decide) ⟨[['e']], by decide, h⟩
    · cases h
  · intro n hn
    obtain rfl : n = ['e'] := by simpa [searched] using hn
    refine C146_elasticsearch_reopens _ _ _ searchedExt (fun _ => ⟨rfl, rfl⟩) 1 searchedAnswers (fun _ => 7) 3 none [] [] rfl (searched_returns _ rfl ?_)
    intro t i e h
    rw [label _ (by omega)] at h
    split at h
    · cases h
    split at h
    · cases h
    split at h <;> cases h
  · intro n hn t
    obtain rfl : n = ['e'] := by simpa [searchedSetup] using hn
    obtain ⟨t', h1, h2, h3⟩ := again 0 t (by omega)
    exact ⟨t', h1, 0, by rw [label _ h2, h3]; rfl⟩
  · intro i hi t
    obtain rfl : i = 0 := by simp only [searchedSetup, List.length_singleton] at hi; omega
    obtain ⟨t', h1, h2, h3⟩ := again 1 t (by omega)
    exact ⟨t', h1, by rw [label _ h2, h3]; rfl⟩
  · intro t
    obtain ⟨t', h1, h2, h3⟩ := again 2 t (by omega)
    exact ⟨t', h1, by rw [label _ h2, h3]; rfl⟩
  · intro t ht
    obtain rfl : t = 0 := by omega
    intro h; cases h

private def searchedRequests : Node Int → Nat
  | .sink _ _ r => (deliveredBy r.calls).length
  | _ => 0

/-- The process, run. -/
example : (run searchedSetup searchEnds 60).main = .exited ∧ ((run searchedSetup searchEnds 60).nodes ['e']).map searchedRequests = some 1 := by decide +kernel

/-- What such a sink is left with if the request at shutdown fails. -/
example : let r := (SinkRun.steps (elasticImpl (F := Int) searchedExt 1 (fun _ => .sendError) (fun _ => 7)) 1 6
      { state := some { state := Elastic.init 3 none [] [] }, queue := [some (.log searchedLine), some .shutdown] })
    r.returned = true ∧ ∃ h, r.state = some h ∧ h.state.buffer = [⟨0, 7, searchedLine⟩] ∧ Elastic.answered h.log = [] ∧ ∀ b ∈ h.log, Elastic.CleanFlush b :=
  ⟨rfl, _, rfl, rfl, rfl, fun b hb => by obtain rfl := List.mem_singleton.1 hb; exact .inr (.inl rfl)⟩

/-- What such a sink is left with if its requests are accepted: nothing, having made one request. -/
example : let r := (SinkRun.steps (elasticImpl (F := Int) searchedExt 1 (fun _ => Elastic.allAccepted [⟨0, 7, searchedLine⟩]) (fun _ => 7)) 1 6
      { state := some { state := Elastic.init 3 none [] [] }, queue := [some (.log searchedLine), some .shutdown] })
    r.returned = true ∧ ∃ h, r.state = some h ∧ h.state.buffer = [] ∧ h.log = [([⟨0, 7, searchedLine⟩], Elastic.allAccepted [⟨0, 7, searchedLine⟩])] ∧
      ∀ b ∈ h.log, Elastic.AcceptedFlush b :=
  ⟨rfl, _, rfl, rfl, rfl, fun b hb => by obtain rfl := List.mem_singleton.1 hb; exact .inr rfl⟩

end Verif
