import Verif.Spec.Lua
import Verif.Props.Tags
import Verif.Props.Filter
/-!
# C94-C96: scripts of the programmable filter

Theorems range over every payload, every argument and every script.
-/
namespace Verif
open Lua
variable {F : Type} [F64 F]

private theorem idx_iff {n : Int} {len : Nat} (hn : IsI64 n) (hlen : len < 2 ^ 63) (i : Nat) :
    (idx n len = i ∧ i < len) ↔ Addresses n len i := by
  obtain ⟨h1, h2⟩ := hn
  simp only [idx, Addresses]
  split <;> omega

private theorem split_at {α : Type} {xs : List α} {k : Nat} {x : α} (h : xs[k]? = some x) :
    ∃ pre post, xs = pre ++ x :: post ∧ pre.length = k := by
  obtain ⟨hk, h⟩ := List.getElem?_eq_some_iff.1 h
  refine ⟨xs.take k, xs.drop (k + 1), ?_, by simp; omega⟩
  rw [← h]; simp

private theorem onMetric_at {c : Conv F} {p : Payload F} {pre post : List (Telemetry F)} {m : Telemetry F}
    (hp : p.metrics = pre ++ m :: post) {i : Val F} (hi : Addresses (c.toInteger i) p.metrics.length pre.length)
    (h64 : IsI64 (c.toInteger i)) (hlen : p.metrics.length < 2 ^ 63) (f : Telemetry F → Telemetry F × Ret F) :
    onMetric c p i f = .ok { p with metrics := pre ++ (f m).1 :: post } (f m).2 := by
  have hk := ((idx_iff h64 hlen _).2 hi).1
  have hg : p.metrics[pre.length]? = some m := by rw [hp]; simp
  simp only [onMetric, hk, hg]
  congr 2
  rw [hp]; simp

private theorem onLog_at {c : Conv F} {p : Payload F} {pre post : List LogLine} {m : LogLine}
    (hp : p.logs = pre ++ m :: post) {i : Val F} (hi : Addresses (c.toInteger i) p.logs.length pre.length)
    (h64 : IsI64 (c.toInteger i)) (hlen : p.logs.length < 2 ^ 63) (f : LogLine → LogLine × Ret F) :
    onLog c p i f = .ok { p with logs := pre ++ (f m).1 :: post } (f m).2 := by
  have hk := ((idx_iff h64 hlen _).2 hi).1
  have hg : p.logs[pre.length]? = some m := by rw [hp]; simp
  simp only [onLog, hk, hg]
  congr 2
  rw [hp]; simp

private theorem get_or (own : Option TagMap) (k : Str) (d : TagMap) : getFromTags own k d = (ownTag own k).or (d.get k) := by
  cases own with
  | none => rfl
  | some t => simp only [getFromTags, ownTag, Option.bind_some]; cases t.get k <;> rfl

private theorem ownTag_insert (own : Option TagMap) (k v x : Str) :
    ownTag (insertTag own k v).1 x = if x = k then some v else ownTag own x := by
  cases own with
  | none => simp [insertTag, ownTag, TagMap.set, TagMap.get, eq_comm]
  | some t => simp [insertTag, ownTag, TagMap.get_set, eq_comm]

private theorem ownTag_remove {own : Option TagMap} (ho : OwnOk own) (k x : Str) :
    ownTag (removeTag own k).1 x = if x = k then none else ownTag own x := by
  cases own with
  | none => simp [removeTag, ownTag]
  | some t => simp [removeTag, ownTag, TagMap.get_erase (ho t rfl), eq_comm]

private theorem insert_ret (own : Option TagMap) (k v : Str) : (insertTag own k v).2 = ownTag own k := by
  cases own <;> rfl

private theorem remove_ret (own : Option TagMap) (k : Str) : (removeTag own k).2 = ownTag own k := by
  cases own <;> rfl

/-- **C94 (metrics, reading).**  Calls that name an existing metric answer with its name, or with its tag, or, if it has no such
tag, that of the filter, or else `nil`; nothing changes. -/
theorem C94_metric_reads (c : Conv F) (env : Env) (now : Int) (p : Payload F) (pre post : List (Telemetry F)) (m : Telemetry F)
    (hp : p.metrics = pre ++ m :: post) (i : Val F) (hi : Addresses (c.toInteger i) p.metrics.length pre.length)
    (h64 : IsI64 (c.toInteger i)) (hlen : p.metrics.length < 2 ^ 63) :
    (Call.metricName i).apply c env now p = .ok p (.str m.name) ∧
    ∀ key k, c.toStr key = some k →
      (Call.metricTagValue i key).apply c env now p = .ok p (.ofStr ((ownTag m.tags k).or (env.globalTags.get k))) := by
  have hsame : { p with metrics := pre ++ m :: post } = p := by rw [← hp]
  refine ⟨?_, ?_⟩
  · simp only [Call.apply, onMetric_at hp hi h64 hlen, hsame]
  · intro key k hk
    simp only [Call.apply, withStr, hk, onMetric_at hp hi h64 hlen, hsame, get_or]

/-- **C94 (metrics, writing).**  Calls that name an existing metric change its name, or one tag, and nothing else; the answer is the
tag's value before. -/
theorem C94_metric_writes (c : Conv F) (env : Env) (now : Int) (p : Payload F) (pre post : List (Telemetry F)) (m : Telemetry F)
    (hp : p.metrics = pre ++ m :: post) (i : Val F) (hi : Addresses (c.toInteger i) p.metrics.length pre.length)
    (h64 : IsI64 (c.toInteger i)) (hlen : p.metrics.length < 2 ^ 63) (hm : OwnOk m.tags) (key val : Val F) (k v : Str)
    (hk : c.toStr key = some k) (hv : c.toStr val = some v) :
    (Call.setMetricName i val).apply c env now p = .ok { p with metrics := pre ++ { m with name := v } :: post } .nothing ∧
    (∃ tags, (Call.metricSetTag i key val).apply c env now p =
        .ok { p with metrics := pre ++ { m with tags := tags } :: post } (.ofStr (ownTag m.tags k)) ∧
      ∀ x, ownTag tags x = if x = k then some v else ownTag m.tags x) ∧
    ∃ tags, (Call.metricRemoveTag i key).apply c env now p =
        .ok { p with metrics := pre ++ { m with tags := tags } :: post } (.ofStr (ownTag m.tags k)) ∧
      ∀ x, ownTag tags x = if x = k then none else ownTag m.tags x := by
  refine ⟨?_, ⟨(insertTag m.tags k v).1, ?_, ownTag_insert _ _ _⟩, ⟨(removeTag m.tags k).1, ?_, ownTag_remove hm _⟩⟩
  · simp only [Call.apply, hv, onMetric_at hp hi h64 hlen]
  · simp only [Call.apply, withStr, hk, hv, onMetric_at hp hi h64 hlen, insert_ret]
  · simp only [Call.apply, withStr, hk, onMetric_at hp hi h64 hlen, remove_ret]

/-- **C94 (log lines, reading).** -/
theorem C94_log_reads (c : Conv F) (env : Env) (now : Int) (p : Payload F) (pre post : List LogLine) (l : LogLine)
    (hp : p.logs = pre ++ l :: post) (i : Val F) (hi : Addresses (c.toInteger i) p.logs.length pre.length)
    (h64 : IsI64 (c.toInteger i)) (hlen : p.logs.length < 2 ^ 63) :
    (Call.logValue i).apply c env now p = .ok p (.str l.value) ∧
    (Call.logPath i).apply c env now p = .ok p (.str l.path) ∧
    ∀ key k, c.toStr key = some k →
      (Call.logTagValue i key).apply c env now p = .ok p (.ofStr ((ownTag l.tags k).or (env.globalTags.get k))) ∧
      (Call.logFieldValue i key).apply c env now p = .ok p (.ofStr (l.fields.get k)) := by
  have hsame : { p with logs := pre ++ l :: post } = p := by rw [← hp]
  refine ⟨?_, ?_, ?_⟩
  · simp only [Call.apply, onLog_at hp hi h64 hlen, hsame]
  · simp only [Call.apply, onLog_at hp hi h64 hlen, hsame]
  · intro key k hk
    simp only [Call.apply, withStr, hk, onLog_at hp hi h64 hlen, hsame, get_or, and_self]

/-- **C94 (log lines, writing).** -/
theorem C94_log_writes (c : Conv F) (env : Env) (now : Int) (p : Payload F) (pre post : List LogLine) (l : LogLine)
    (hp : p.logs = pre ++ l :: post) (i : Val F) (hi : Addresses (c.toInteger i) p.logs.length pre.length)
    (h64 : IsI64 (c.toInteger i)) (hlen : p.logs.length < 2 ^ 63) (hm : OwnOk l.tags) (key val : Val F) (k v : Str)
    (hk : c.toStr key = some k) (hv : c.toStr val = some v) :
    (Call.logSetValue i val).apply c env now p = .ok { p with logs := pre ++ { l with value := v } :: post } .nil ∧
    (∃ fields, (Call.logSetField i key val).apply c env now p =
        .ok { p with logs := pre ++ { l with fields := fields } :: post } (.ofStr (l.fields.get k)) ∧
      ∀ x, fields.get x = if x = k then some v else l.fields.get x) ∧
    (∃ tags, (Call.logSetTag i key val).apply c env now p =
        .ok { p with logs := pre ++ { l with tags := tags } :: post } (.ofStr (ownTag l.tags k)) ∧
      ∀ x, ownTag tags x = if x = k then some v else ownTag l.tags x) ∧
    ∃ tags, (Call.logRemoveTag i key).apply c env now p =
        .ok { p with logs := pre ++ { l with tags := tags } :: post } (.ofStr (ownTag l.tags k)) ∧
      ∀ x, ownTag tags x = if x = k then none else ownTag l.tags x := by
  refine ⟨?_, ⟨l.fields.set k v, ?_, ?_⟩, ⟨(insertTag l.tags k v).1, ?_, ownTag_insert _ _ _⟩,
    ⟨(removeTag l.tags k).1, ?_, ownTag_remove hm _⟩⟩
  · simp only [Call.apply, withStr, hv, onLog_at hp hi h64 hlen]
  · simp only [Call.apply, withStr, hk, hv, onLog_at hp hi h64 hlen]
  · intro x; simp [TagMap.get_set, eq_comm]
  · simp only [Call.apply, withStr, hk, hv, onLog_at hp hi h64 hlen, insert_ret]
  · simp only [Call.apply, withStr, hk, onLog_at hp hi h64 hlen, remove_ret]

/-- **C94 (pushing and clearing).**  A pushed metric is of kind set, has the time of the call and the tags of the filter, and comes
last; so does a pushed line, which has the filter's path.  Clearing removes all metrics, or all lines. -/
theorem C94_push_clear (c : Conv F) (env : Env) (now : Int) (p : Payload F) :
    (∀ name val s, c.toStr name = some s → ∃ m, (Call.pushMetric name val).apply c env now p =
        .ok { p with metrics := p.metrics ++ [m] } .nothing ∧
      m.name = s ∧ m.value = .set (c.toNumber val) ∧ m.timestamp = now ∧ MadeMetric m ∧
      ∀ k, ownTag m.tags k = env.globalTags.get k) ∧
    (∀ line s, c.toStr line = some s → ∃ l, (Call.pushLog line).apply c env now p = .ok { p with logs := p.logs ++ [l] } .nothing ∧
      l.path = env.path ∧ l.value = s ∧ l.time = now ∧ l.fields = [] ∧ ∀ k, ownTag l.tags k = env.globalTags.get k) ∧
    (Call.clearMetrics).apply c env now p = .ok { p with metrics := [] } .nothing ∧
    (Call.clearLogs).apply c env now p = .ok { p with logs := [] } .nothing := by
  have htag : ∀ (m : TagMap) k, ownTag (overlayTags none m) k = m.get k := by
    intro m k
    cases m with
    | nil => rfl
    | cons a m => rfl
  refine ⟨?_, ?_, rfl, rfl⟩
  · intro name val s hs
    simp only [Call.apply, hs]
    exact ⟨_, rfl, rfl, rfl, rfl, ⟨⟨_, rfl⟩, rfl, rfl, rfl⟩, htag _⟩
  · intro line s hs
    simp only [Call.apply, hs]
    exact ⟨_, rfl, rfl, rfl, rfl, rfl, htag _⟩

/-- **C94 (missing strings).**  A call that lacks a string it needs changes nothing: it answers `nil`, or nothing, or raises
an error that the script can see. -/
theorem C94_missing_strings (c : Conv F) (env : Env) (now : Int) (p : Payload F) (a : Call F)
    (h : ∃ s ∈ a.strings, c.toStr s = none) :
    a.apply c env now p = .luaError ∨ a.apply c env now p = .ok p .nil ∨ a.apply c env now p = .ok p .nothing := by
  obtain ⟨s, hs, h⟩ := h
  cases a <;> simp only [Call.strings, List.mem_cons, List.not_mem_nil, or_false] at hs
  all_goals first
    | (subst hs; simp [Call.apply, withStr, h])
    | (rcases hs with rfl | rfl
       · simp [Call.apply, withStr, h]
       · simp only [Call.apply, withStr, h]; split <;> simp)

/-- **C94, partial.**  A call panics exactly if it has the strings it needs and names a metric or line that does not exist.
Missing: it should not panic then either, see `C94_out_of_range_false`; and `metric_query`, see `C94_query_false`. -/
theorem C94_panics_partial (c : Conv F) (env : Env) (now : Int) (p : Payload F) (a : Call F) (h64 : ∀ v, IsI64 (c.toInteger v))
    (hlen : p.metrics.length < 2 ^ 63) (hlen' : p.logs.length < 2 ^ 63) :
    a.apply c env now p = .panic ↔ (∀ s ∈ a.strings, c.toStr s ≠ none) ∧ a.target.missing c p := by
  have hM : ∀ i f, onMetric c p i f = .panic ↔ Target.missing c p (.metric i) := by
    intro i f
    simp only [onMetric, Target.missing]
    cases hg : p.metrics[idx (c.toInteger i) p.metrics.length]? with
    | none =>
      simp only [true_iff]
      rintro ⟨k, hk⟩
      obtain ⟨h1, h2⟩ := (idx_iff (h64 i) hlen k).2 hk
      rw [h1] at hg
      have := List.getElem?_eq_none_iff.1 hg
      omega
    | some m =>
      simp only [reduceCtorEq, false_iff, Classical.not_not]
      exact ⟨_, (idx_iff (h64 i) hlen _).1 ⟨rfl, (List.getElem?_eq_some_iff.1 hg).1⟩⟩
  have hL : ∀ i f, onLog c p i f = .panic ↔ Target.missing c p (.log i) := by
    intro i f
    simp only [onLog, Target.missing]
    cases hg : p.logs[idx (c.toInteger i) p.logs.length]? with
    | none =>
      simp only [true_iff]
      rintro ⟨k, hk⟩
      obtain ⟨h1, h2⟩ := (idx_iff (h64 i) hlen' k).2 hk
      rw [h1] at hg
      have := List.getElem?_eq_none_iff.1 hg
      omega
    | some m =>
      simp only [reduceCtorEq, false_iff, Classical.not_not]
      exact ⟨_, (idx_iff (h64 i) hlen' _).1 ⟨rfl, (List.getElem?_eq_some_iff.1 hg).1⟩⟩
  cases a with
  | clearLogs => simp [Call.apply, Call.target, Target.missing]
  | clearMetrics => simp [Call.apply, Call.target, Target.missing]
  | pushLog s => simp only [Call.apply, Call.target, Target.missing, and_false, iff_false]; split <;> simp
  | pushMetric s x =>
    simp only [Call.target, Target.missing, and_false, iff_false]
    cases hs : c.toStr s with
    | none => simp [Call.apply, hs]
    | some n => obtain ⟨m, h, -⟩ := (C94_push_clear c env now p).1 s x n hs; rw [h]; simp
  | setMetricName i s => cases hs : c.toStr s <;> simp [Call.apply, Call.strings, Call.target, hs, hM]
  | logRemoveTag i s => cases hs : c.toStr s <;> simp [Call.apply, withStr, Call.strings, Call.target, hs, hL]
  | logSetTag i s t => cases hs : c.toStr s <;> cases ht : c.toStr t <;> simp [Call.apply, withStr, Call.strings, Call.target, hs, ht, hL]
  | logTagValue i s => cases hs : c.toStr s <;> simp [Call.apply, withStr, Call.strings, Call.target, hs, hL]
  | logSetField i s t => cases hs : c.toStr s <;> cases ht : c.toStr t <;> simp [Call.apply, withStr, Call.strings, Call.target, hs, ht, hL]
  | logSetValue i s => cases hs : c.toStr s <;> simp [Call.apply, withStr, Call.strings, Call.target, hs, hL]
  | logFieldValue i s => cases hs : c.toStr s <;> simp [Call.apply, withStr, Call.strings, Call.target, hs, hL]
  | logValue i => simp [Call.apply, Call.strings, Call.target, hL]
  | logPath i => simp [Call.apply, Call.strings, Call.target, hL]
  | metricQuery i x => simp [Call.apply, Call.strings, Call.target, hM]
  | metricRemoveTag i s => cases hs : c.toStr s <;> simp [Call.apply, withStr, Call.strings, Call.target, hs, hM]
  | metricSetTag i s t => cases hs : c.toStr s <;> cases ht : c.toStr t <;> simp [Call.apply, withStr, Call.strings, Call.target, hs, ht, hM]
  | metricTagValue i s => cases hs : c.toStr s <;> simp [Call.apply, withStr, Call.strings, Call.target, hs, hM]
  | metricName i => simp [Call.apply, Call.strings, Call.target, hM]

/-- **C94 is false** of scripts that name a metric or line that does not exist: such as a script whose `tick` reads the first
log line.  The thread panics. -/
theorem C94_out_of_range_false (c : Conv F) (env : Env) (now : Int) (i : Val F) :
    (Call.logValue i).apply c env now ⟨[], []⟩ = .panic := by simp [Call.apply, onLog]

/-- **C94 is false** of `metric_query`: it does not use its second argument at all, and for a percentile between 0 and 1, which Lua
converts to the integer 0, it panics whatever metrics there are. -/
theorem C94_query_false (c : Conv F) (env : Env) (now : Int) (p : Payload F) (hlen : p.metrics.length < 2 ^ 63) (a : Val F) :
    (∀ b b', (Call.metricQuery a b).apply c env now p = (Call.metricQuery a b').apply c env now p) ∧
    (c.toInteger a = 0 → ∀ b, (Call.metricQuery a b).apply c env now p = .panic) := by
  refine ⟨fun _ _ => rfl, ?_⟩
  intro h b
  simp only [Call.apply, onMetric, h]
  have : p.metrics[idx 0 p.metrics.length]? = none := by
    apply List.getElem?_eq_none
    simp only [idx]
    split <;> omega
  rw [this]

/-! ## C95: what no script can do -/

private theorem left_refl {α : Type} {r : α → α → Prop} {made : α → Prop} (hr : ∀ a, r a a) (xs : List α) : Left r made xs xs := by
  refine ⟨xs, [], by simp, by simp, .inr ⟨rfl, ?_⟩⟩
  intro i a b ha hb
  rw [ha] at hb; cases hb; exact hr a

private theorem left_add {α : Type} {r : α → α → Prop} {made : α → Prop} {old new : List α} (h : Left r made old new) {x : α}
    (hx : made x) : Left r made old (new ++ [x]) := by
  obtain ⟨kept, added, rfl, h1, h2⟩ := h
  refine ⟨kept, added ++ [x], by simp, ?_, h2⟩
  intro y hy
  rcases List.mem_append.1 hy with hy | hy
  · exact h1 y hy
  · simp only [List.mem_singleton] at hy; subst hy; exact hx

private theorem left_set {α : Type} {r : α → α → Prop} {made : α → Prop} (htr : ∀ a b c, r a b → r b c → r a c)
    (hmade : ∀ a b, made a → r a b → made b) {old new : List α} (h : Left r made old new) {k : Nat} {x y : α}
    (hk : new[k]? = some x) (hxy : r x y) : Left r made old (new.set k y) := by
  obtain ⟨kept, added, rfl, h1, h2⟩ := h
  by_cases hlt : k < kept.length
  · refine ⟨kept.set k y, added, by rw [List.set_append_left _ _ hlt], h1, ?_⟩
    rcases h2 with rfl | ⟨h2, h3⟩
    · simp at hlt
    · right
      refine ⟨by simpa using h2, ?_⟩
      intro i a b ha hb
      rw [List.getElem?_append_left hlt] at hk
      by_cases hik : k = i
      · subst hik
        rw [List.getElem?_set_self hlt] at hb
        cases hb
        exact htr _ _ _ (h3 k a x ha hk) hxy
      · rw [List.getElem?_set_ne hik] at hb
        exact h3 i a b ha hb
  · have hge : kept.length ≤ k := by omega
    refine ⟨kept, added.set (k - kept.length) y, by rw [List.set_append_right _ _ hge], ?_, h2⟩
    intro z hz
    rw [List.getElem?_append_right hge] at hk
    rcases List.mem_or_eq_of_mem_set hz with hz | rfl
    · exact h1 z hz
    · exact hmade x _ (h1 x (List.mem_of_getElem? hk)) hxy

private theorem retouched_refl (m : Telemetry F) : Retouched m m := rfl
private theorem retouched_trans (a b c : Telemetry F) (h1 : Retouched a b) (h2 : Retouched b c) : Retouched a c := by
  unfold Retouched at *; rw [h1] at h2; exact h2
private theorem retouchedLog_refl (m : LogLine) : RetouchedLog m m := rfl
private theorem retouchedLog_trans (a b c : LogLine) (h1 : RetouchedLog a b) (h2 : RetouchedLog b c) : RetouchedLog a c := by
  unfold RetouchedLog at *; rw [h1] at h2; exact h2
private theorem made_retouched (a b : Telemetry F) (h1 : MadeMetric a) (h2 : Retouched a b) : MadeMetric b := by
  unfold Retouched at h2; rw [h2]; exact h1

/-- A script's effect on a payload. -/
private def Fine (env : Env) (p p' : Payload F) : Prop :=
  Left Retouched MadeMetric p.metrics p'.metrics ∧ Left RetouchedLog (fun l => l.path = env.path) p.logs p'.logs

private theorem call_fine {c : Conv F} {env : Env} {now : Int} {p0 p p' : Payload F} {a : Call F} {r : Ret F} (h : Fine env p0 p)
    (ha : a.apply c env now p = .ok p' r) : Fine env p0 p' := by
  obtain ⟨h1, h2⟩ := h
  have hM : ∀ i f, (∀ m, Retouched m (f m).1) → onMetric c p i f = .ok p' r → Fine env p0 p' := by
    intro i f hf hon
    simp only [onMetric] at hon
    split at hon
    · cases hon
    · rename_i m hm
      cases hon
      exact ⟨left_set retouched_trans made_retouched h1 hm (hf m), h2⟩
  have hL : ∀ i f, (∀ m, RetouchedLog m (f m).1) → onLog c p i f = .ok p' r → Fine env p0 p' := by
    intro i f hf hon
    simp only [onLog] at hon
    split at hon
    · cases hon
    · rename_i m hm
      cases hon
      refine ⟨h1, left_set retouchedLog_trans ?_ h2 hm (hf m)⟩
      intro a b h1 h2
      unfold RetouchedLog at h2; rw [h2]; exact h1
  have hS : ∀ s (f : Str → Out F), (∀ k, f k = .ok p' r → Fine env p0 p') → withStr c p s f = .ok p' r → Fine env p0 p' := by
    intro s f hf hon
    simp only [withStr] at hon
    split at hon
    · exact hf _ hon
    · cases hon; exact ⟨h1, h2⟩
  cases a with
  | clearLogs => cases ha; exact ⟨h1, [], [], rfl, by simp, .inl rfl⟩
  | clearMetrics => cases ha; exact ⟨⟨[], [], rfl, by simp, .inl rfl⟩, h2⟩
  | pushLog s =>
    simp only [Call.apply] at ha
    split at ha
    · cases ha; exact ⟨h1, left_add h2 rfl⟩
    · cases ha; exact ⟨h1, h2⟩
  | pushMetric s x =>
    cases hs : c.toStr s with
    | none => simp only [Call.apply, hs] at ha; cases ha; exact ⟨h1, h2⟩
    | some n =>
      obtain ⟨m, g1, -, -, -, g2, -⟩ := (C94_push_clear c env now p).1 s x n hs
      rw [g1] at ha; cases ha
      exact ⟨left_add h1 g2, h2⟩
  | setMetricName i s =>
    simp only [Call.apply] at ha
    split at ha
    · cases ha
    · exact hM _ _ (fun _ => by rfl) ha
  | logRemoveTag i s => refine hS _ _ ?_ ha; intro _ h; exact hL _ _ (fun _ => by rfl) h
  | logSetTag i s t => refine hS _ _ ?_ ha; intro _ h; refine hS _ _ ?_ h; intro _ h; exact hL _ _ (fun _ => by rfl) h
  | logTagValue i s => refine hS _ _ ?_ ha; intro _ h; exact hL _ _ (fun _ => by rfl) h
  | logSetField i s t => refine hS _ _ ?_ ha; intro _ h; refine hS _ _ ?_ h; intro _ h; exact hL _ _ (fun _ => by rfl) h
  | logSetValue i s => refine hS _ _ ?_ ha; intro _ h; exact hL _ _ (fun _ => by rfl) h
  | logFieldValue i s => refine hS _ _ ?_ ha; intro _ h; exact hL _ _ (fun _ => by rfl) h
  | logValue i => exact hL _ _ (fun _ => by rfl) ha
  | logPath i => exact hL _ _ (fun _ => by rfl) ha
  | metricQuery i x => exact hM _ _ (fun _ => by rfl) ha
  | metricRemoveTag i s => refine hS _ _ ?_ ha; intro _ h; exact hM _ _ (fun _ => by rfl) h
  | metricSetTag i s t => refine hS _ _ ?_ ha; intro _ h; refine hS _ _ ?_ h; intro _ h; exact hM _ _ (fun _ => by rfl) h
  | metricTagValue i s => refine hS _ _ ?_ ha; intro _ h; exact hM _ _ (fun _ => by rfl) h
  | metricName i => exact hM _ _ (fun _ => by rfl) ha

/-- **C95.**  Whatever a script does, if its function returns then the metrics and lines left are: those it was given, in order and
with values, times and paths as they were, or none of those; and after them ones it made itself. -/
theorem C95_limits {L : Type} (c : Conv F) (env : Env) (clock : Nat → Int) (prog : Prog F L) (t : Nat) (p p' : Payload F) (l : L)
    (h : prog.run c env clock t p = .ok l p') :
    Left Retouched MadeMetric p.metrics p'.metrics ∧ Left RetouchedLog (fun l => l.path = env.path) p.logs p'.logs := by
  suffices ∀ (prog : Prog F L) t q, Fine env p q → prog.run c env clock t q = .ok l p' → Fine env p p' from
    this prog t p ⟨left_refl retouched_refl _, left_refl retouchedLog_refl _⟩ h
  intro prog
  induction prog with
  | done l' => intro t q hq h; simp only [Prog.run] at h; cases h; exact hq
  | error l' => intro t q hq h; simp only [Prog.run] at h; cases h
  | call a k ih =>
    intro t q hq h
    simp only [Prog.run] at h
    split at h
    · cases h
    · cases h
    · rename_i p1 r hr
      exact ih r _ _ (call_fine hq hr) h

/-- **C95 (filter).**  What the filter sends on for a metric: the failure counter, or lines the script made, and the metric, with at
most name and tags changed, or not, and after it metrics the script made. -/
theorem C95_filter_output {L : Type} (fns : Functions F L) (spoilt : L → L) (c : Conv F) (env : Env) (clock : Nat → Int)
    (script : Script F L) (hscript : ∀ l fn p, callFn fns spoilt c env clock l fn p = some (script l fn p))
    (fail : LuaFn → Event F) (n : Nat) (r : FilterRun F (Programmable F L)) (hb : r.events = []) (now : Int) (m : Telemetry F) :
    let r' := r.step (programmableProcess script fail) n (some (now, .telemetry m))
    r'.sent = r.sent ++ [fail .processMetric] ∨
    ∃ (logs : List LogLine) (kept made : List (Telemetry F)), r'.sent = r.sent ++ (logs.map Event.log ++ kept.map Event.telemetry ++ made.map Event.telemetry) ∧
      (∀ l ∈ logs, l.path = env.path) ∧ (kept = [] ∨ ∃ m', kept = [m'] ∧ Retouched m m') ∧ ∀ x ∈ made, MadeMetric x := by
  obtain ⟨-, h1, h2⟩ := C73_script_output script fail n r hb now (.telemetry m) .processMetric ⟨[m], []⟩ []
    (.inl ⟨m, rfl, rfl, rfl, rfl⟩) _ _ rfl
  have hcall := hscript r.state.lua .processMetric ⟨[m], []⟩
  simp only [callFn] at hcall
  cases hres : (script r.state.lua .processMetric ⟨[m], []⟩).2 with
  | noSuchFunction => exact .inl (h2 (by rw [hres]; intro p h; cases h)).1
  | error => exact .inl (h2 (by rw [hres]; intro p h; cases h)).1
  | ok p =>
    right
    have hsent := (h1 p hres).2
    split at hcall
    · rw [← Option.some.inj hcall] at hres; cases hres
    · split at hcall
      · cases hcall
      · rw [← Option.some.inj hcall] at hres; cases hres
      · rw [← Option.some.inj hcall] at hres; cases hres
      · rename_i l' p' hrun
        rw [← Option.some.inj hcall] at hres; cases hres
        obtain ⟨⟨kept, made, g1, g2, g3⟩, ⟨kl, ml, k1, k2, k3⟩⟩ := C95_limits c env clock _ 0 _ _ _ hrun
        refine ⟨p.logs, kept, made, by rw [hsent, g1]; simp, ?_, ?_, g2⟩
        · have : kl = [] := by
            rcases k3 with k3 | ⟨k3, -⟩
            · exact k3
            · exact List.eq_nil_of_length_eq_zero k3
          rw [k1, this]; exact k2
        · rcases g3 with g3 | ⟨g3, g4⟩
          · exact .inl g3
          · right
            match kept, g3 with
            | [m'], _ => exact ⟨m', rfl, g4 0 m m' rfl rfl⟩

/-! ## C96: the interpreter's stack -/

private theorem depthAfter_eq {L : Type} (d : Nat) (x : L × LuaResult F) : depthAfter d x = d + if failed x.2 then 1 else 0 := by
  obtain ⟨l, r⟩ := x
  cases r <;> simp [depthAfter, failed]

private theorem stack_count {L : Type} (script : Script F L) (fail : LuaFn → Event F) (es : List (Event F)) : ∀ s d,
    (stackRun script fail s d es).2 = d + (results script fail s es).countP failed := by
  induction es with
  | nil => intro s d; rfl
  | cons e es ih =>
    intro s d
    simp only [stackRun, results, ih, List.countP_append]
    rw [← Nat.add_assoc]
    congr 1
    cases e with
    | telemetry m => simp only [depthStep, depthAfter_eq, List.countP_cons, List.countP_nil, Nat.zero_add]
    | log l => simp only [depthStep, depthAfter_eq, List.countP_cons, List.countP_nil, Nat.zero_add]
    | timerFlush i =>
      by_cases h : i ≤ s.lastFlushIdx
      · simp [depthStep, h]
      · simp only [depthStep, depthAfter_eq, ge_iff_le, if_neg h, List.countP_cons, List.countP_nil, Nat.zero_add]
    | raw r => rfl
    | shutdown => rfl

/-- **C96, partial.**  After any events, the interpreter's stack holds one value for every call that failed.  So it is as after start-up
if none has.  Missing: calls that failed, see `C96_stack_grows_false`. -/
theorem C96_stack_partial {L : Type} (script : Script F L) (fail : LuaFn → Event F) (l : L) (es : List (Event F)) :
    (stackRun script fail { lua := l } 0 es).2 = (results script fail { lua := l } es).countP failed ∧
    ((∀ r ∈ results script fail { lua := l } es, ∃ p, r = .ok p) → (stackRun script fail { lua := l } 0 es).2 = 0) := by
  have := stack_count script fail es { lua := l } 0
  rw [Nat.zero_add] at this
  refine ⟨this, ?_⟩
  intro h
  rw [this, List.countP_eq_zero]
  intro r hr
  obtain ⟨p, rfl⟩ := h r hr
  simp [failed]

/-- **C96 is false** of scripts that do not define every function, such as one without `process_log`: there is no bound on the
depth of the stack, although Lua guarantees room for 20 values only. -/
theorem C96_stack_grows_false {L : Type} (script : Script F L) (fail : LuaFn → Event F) (l : L)
    (h : ∀ l p, (script l .processLog p).2 = .noSuchFunction) :
    ∀ bound, ∃ es, bound < (stackRun script fail { lua := l } 0 es).2 := by
  intro bound
  let line : Event F := .log (.new 0 [] [])
  refine ⟨List.replicate (bound + 1) line, ?_⟩
  have hall : ∀ n s, (results script fail s (List.replicate n line)).countP failed = n := by
    intro n
    induction n with
    | zero => intro s; rfl
    | succ n ih =>
      intro s
      simp only [List.replicate_succ, line, results, List.countP_append, h]
      have := ih (programmableProcess script fail 0 s line []).1
      simp only [line] at this
      rw [this]
      simp only [List.countP_cons, List.countP_nil, failed, if_true]
      omega
  rw [(C96_stack_partial script fail l _).1, hall]
  omega

/-! ## Examples -/

/-- Lua's conversions, for integers. -/
private def conv : Conv Int where
  toInteger | .num x => x | _ => 0
  toNumber | .num x => x | _ => 0
  toStr | .str s => some s | _ => none

private def two : Payload Int := ⟨[⟨['a'], .sum 3, true, some [(['k'], ['v'])], 7, none, none⟩, ⟨['b'], .set 4, false, none, 8, none, none⟩],
  [.new 5 ['p'] ['x']]⟩

private def env : Env := ⟨[(['g'], ['h'])], ['f']⟩

/-- Both indices of the second metric, and a script that uses them. -/
example : Addresses (conv.toInteger (.num 2)) two.metrics.length 1 ∧ Addresses (conv.toInteger (.num (-1))) two.metrics.length 1 ∧
    IsI64 (conv.toInteger (.num (-1))) ∧ OwnOk (some [(['k'], ['v'])]) := by
  refine ⟨⟨by decide, by decide⟩, ⟨by decide, by decide⟩, ⟨by decide, by decide⟩, ?_⟩
  intro m hm; cases hm; decide

/-- Renames the second metric, tags it, pushes one and fails if the tag of the filter is not seen. -/
private def prog : Prog Int Unit :=
  .call (.setMetricName (.num 2) (.str ['z'])) fun _ =>
  .call (.metricSetTag (.num (-1)) (.str ['k']) (.str ['w'])) fun _ =>
  .call (.pushMetric (.str ['n']) (.num 9)) fun _ =>
  .call (.metricTagValue (.num 1) (.str ['g'])) fun
    | .str _ => .done ()
    | _ => .error ()

example : ∃ l p, prog.run conv env (fun t => t) 0 two = .ok l p ∧ p.metrics.map (·.name) = [['a'], ['z'], ['n']] ∧
    p.metrics.map (·.timestamp) = [7, 8, 2] ∧ p.metrics.map (·.tags) = [some [(['k'], ['v'])], some [(['k'], ['w'])], some [(['g'], ['h'])]] :=
  ⟨_, _, rfl, rfl, rfl, rfl⟩

/-- The hypotheses of the theorems on panics and on the filter's output can be met: a script that does nothing, and one without
`process_log`. -/
example : (∀ l fn p, callFn (fun l fn => if fn = .processLog then none else some (.done l)) id conv env (fun _ => 0) l fn p =
    some ((fun (l : Unit) fn p => (l, if fn = LuaFn.processLog then .noSuchFunction else .ok p) : Script Int Unit) l fn p)) := by
  intro l fn p
  cases fn <;> rfl

example : (Call.metricName (.num 3)).apply conv env 0 two = .panic := rfl

end Verif
