import Verif.Spec.Scripts
import Verif.Props.Lua
/-!
# C108: the example scripts

Theorems range over every history of events.
-/
namespace Verif
open Lua
variable {F : Type} [F64 F]

/-! ## Scripts that count -/

/-- A script that counts metrics and lines, renames metrics by `f` and reports at ticks. -/
private structure Counting (fns : Functions F F) (c : Conv F) (env : Env) (f : Str → Str) (text : F → Str) (name : Str) : Prop where
  metric : ∀ now x m, callFn fns id c env (fun _ => now) x .processMetric ⟨[m], []⟩ =
    some (F64.add x (F64.ofNat 1), .ok ⟨[{ m with name := f m.name }], []⟩)
  log : ∀ now x l, callFn fns id c env (fun _ => now) x .processLog ⟨[], [l]⟩ = some (F64.add x (F64.ofNat 1), .ok ⟨[], [l]⟩)
  tick : ∀ now x, ∃ line metric, callFn fns id c env (fun _ => now) x .tick ⟨[], []⟩ = some (F64.ofNat 0, .ok ⟨[metric], [line]⟩) ∧
    metric.name = name ∧ metric.value = .set x ∧ metric.timestamp = now ∧
    line.value = "count_per_tick: ".toList ++ text x ∧ line.path = env.path ∧ line.time = now

private def tally (s : F × Nat) : Int × Event F → F × Nat
  | (_, .telemetry _) | (_, .log _) => (F64.add s.1 (F64.ofNat 1), s.2)
  | (_, .timerFlush i) => if s.2 ≥ i then s else (F64.ofNat 0, i)
  | _ => s

private theorem step_tally {fns : Functions F F} {c : Conv F} {env : Env} {f : Str → Str} {text : F → Str} {name : Str}
    (h : Counting fns c env f text name) (fail : LuaFn → Event F) (n : Nat) (r : FilterRun F (Programmable F F)) (hr : r.events = [])
    (i : Int × Event F) :
    (r.step (withScript fns c env fail) n (some i)).events = [] ∧
    ((r.step (withScript fns c env fail) n (some i)).state.lua, (r.step (withScript fns c env fail) n (some i)).state.lastFlushIdx) =
      tally (r.state.lua, r.state.lastFlushIdx) i := by
  obtain ⟨now, e⟩ := i
  cases e with
  | telemetry m => simp [FilterRun.step, withScript, programmableProcess, runLua, h.metric, tally]
  | log l => simp [FilterRun.step, withScript, programmableProcess, runLua, h.log, tally]
  | raw x => simp [FilterRun.step, withScript, programmableProcess, tally]
  | shutdown => simp [FilterRun.step, tally, hr]
  | timerFlush j =>
    obtain ⟨line, metric, ht, -⟩ := h.tick now r.state.lua
    by_cases hj : j ≤ r.state.lastFlushIdx
    · simp [FilterRun.step, withScript, programmableProcess, tally, hj, hr]
    · simp [FilterRun.step, withScript, programmableProcess, tally, hj, runLua, ht]

private theorem received_tally {fns : Functions F F} {c : Conv F} {env : Env} {f : Str → Str} {text : F → Str} {name : Str}
    (h : Counting fns c env f text name) (fail : LuaFn → Event F) (n : Nat) (hist : List (Int × Event F)) (r : FilterRun F (Programmable F F))
    (hr : r.events = []) :
    let r' := hist.foldl (fun r i => r.step (withScript fns c env fail) n (some i)) r
    r'.events = [] ∧ (r'.state.lua, r'.state.lastFlushIdx) = hist.foldl tally (r.state.lua, r.state.lastFlushIdx) := by
  induction hist generalizing r with
  | nil => exact ⟨hr, rfl⟩
  | cons i hist ih =>
    obtain ⟨h1, h2⟩ := step_tally h fail n r hr i
    have := ih _ h1
    rw [h2] at this
    exact this

private theorem tally_last (hist : List (Int × Event F)) : ∀ s : F × Nat,
    s.2 ≤ (hist.foldl tally s).2 ∧ (∀ t j, (t, Event.timerFlush j) ∈ hist → j ≤ (hist.foldl tally s).2) ∧
    ((hist.foldl tally s).2 = s.2 ∨ ∃ t, (t, Event.timerFlush (hist.foldl tally s).2) ∈ hist) := by
  induction hist with
  | nil => intro s; simp
  | cons i hist ih =>
    intro s
    obtain ⟨h1, h2, h3⟩ := ih (tally s i)
    simp only [List.foldl_cons, List.mem_cons]
    obtain ⟨now, e⟩ := i
    have hle : s.2 ≤ (tally s (now, e)).2 := by
      cases e with
      | timerFlush j =>
        simp only [tally]; split
        · exact Nat.le_refl _
        · dsimp only; omega
      | _ => exact Nat.le_refl _
    refine ⟨Nat.le_trans hle h1, ?_, ?_⟩
    · rintro t j (hj | hj)
      · cases hj
        refine Nat.le_trans ?_ h1
        simp only [tally]; split
        · assumption
        · exact Nat.le_refl _
      · exact h2 t j hj
    · rcases h3 with h3 | ⟨t, h3⟩
      · rw [h3]
        cases e with
        | timerFlush j =>
          simp only [tally]
          split
          · exact .inl rfl
          · exact .inr ⟨now, .inl rfl⟩
        | _ => exact .inl rfl
      · exact .inr ⟨t, .inr h3⟩

private theorem tally_count (since : List (Int × Event F)) : ∀ s : F × Nat,
    (∀ t j, (t, Event.timerFlush j) ∈ since → j ≤ s.2) → (since.foldl tally s).1 = countOn s.1 (since.countP isCounted) := by
  induction since with
  | nil => intro s _; rfl
  | cons i since ih =>
    intro s h
    obtain ⟨now, e⟩ := i
    have ht : ∀ t j, (t, Event.timerFlush j) ∈ since → j ≤ s.2 := fun t j hj => h t j (List.mem_cons_of_mem _ hj)
    cases e with
    | telemetry m => simpa [tally, List.countP_cons, isCounted, countOn] using ih (F64.add s.1 (F64.ofNat 1), s.2) ht
    | log l => simpa [tally, List.countP_cons, isCounted, countOn] using ih (F64.add s.1 (F64.ofNat 1), s.2) ht
    | timerFlush j =>
      have hj := h now j (by simp)
      simp [tally, hj, ih s ht, isCounted]
    | raw x => simp [tally, ih s ht, isCounted]
    | shutdown => simp [tally, ih s ht, isCounted]

private theorem tally_since {hist since : List (Int × Event F)} (h : SinceFlush hist since) :
    (hist.foldl tally (F64.ofNat 0, 0)).1 = counted since := by
  rcases h with ⟨rfl, h⟩ | ⟨before, t, i, rfl, hb, h⟩
  · exact tally_count _ _ fun t j hj => Nat.le_of_eq (h t j hj)
  · rw [List.foldl_append, List.foldl_cons]
    have hl := tally_last before (F64.ofNat 0, 0)
    have hlt : (before.foldl tally (F64.ofNat 0, 0)).2 < i := by
      rcases hl.2.2 with h0 | ⟨t', h0⟩
      · rw [h0]; exact hb.1
      · exact hb.2 _ _ h0
    have ht : tally (before.foldl tally (F64.ofNat 0, 0)) (t, .timerFlush i) = (F64.ofNat 0, i) := by
      simp [tally]; omega
    rw [ht]
    exact tally_count _ _ h

private theorem tally_new (hist : List (Int × Event F)) (i : Nat) :
    i ≤ (hist.foldl tally ((F64.ofNat 0 : F), 0)).2 ↔ ¬ NewFlush hist i := by
  have hl := tally_last hist ((F64.ofNat 0 : F), 0)
  constructor
  · intro h hi
    rcases hl.2.2 with h0 | ⟨t', h0⟩
    · have := hi.1; dsimp only at h0; omega
    · have := hi.2 _ _ h0; omega
  · intro hi
    by_cases h0 : i = 0
    · omega
    · have : ∃ t j, (t, Event.timerFlush j) ∈ hist ∧ i ≤ j := Classical.byContradiction fun hne =>
        hi ⟨by omega, fun t j hj => Nat.lt_of_not_le fun hle => hne ⟨t, j, hj, hle⟩⟩
      obtain ⟨t, j, hj, hle⟩ := this
      exact Nat.le_trans hle (hl.2.1 t j hj)

private theorem counting {fns : Functions F F} {c : Conv F} {env : Env} {f : Str → Str} {text : F → Str} {name : Str}
    (h : Counting fns c env f text name) (fail : LuaFn → Event F) (n : Nat) (hist : List (Int × Event F)) :
    let p := withScript fns c env fail
    let r := received p n { lua := F64.ofNat 0 } hist
    (∀ now m, (r.step p n (some (now, .telemetry m))).sent = r.sent ++ [.telemetry { m with name := f m.name }]) ∧
    (∀ now l, (r.step p n (some (now, .log l))).sent = r.sent ++ [.log l]) ∧
    (∀ now x, (r.step p n (some (now, .raw x))).sent = r.sent ++ [.raw x]) ∧
    (∀ now i since, NewFlush hist i → SinceFlush hist since → ∃ sent,
      (r.step p n (some (now, .timerFlush i))).sent = r.sent ++ sent ∧ Report text name env now (counted since) i sent) ∧
    (∀ now i, ¬ NewFlush hist i → (r.step p n (some (now, .timerFlush i))).sent = r.sent) := by
  obtain ⟨he, ht⟩ := received_tally h fail n hist { state := { lua := F64.ofNat 0 } } rfl
  have h1 := congrArg Prod.fst ht
  have h2 := congrArg Prod.snd ht
  dsimp only at h1 h2
  intro p r
  change r.events = [] at he
  change r.state.lua = _ at h1
  change r.state.lastFlushIdx = _ at h2
  have hl := tally_new hist
  rw [← h2] at hl
  refine ⟨fun now m => ?_, fun now l => ?_, fun now x => ?_, fun now i since hi hs => ?_, fun now i hi => ?_⟩
  · simp [FilterRun.step, p, withScript, programmableProcess, runLua, h.metric, he]
  · simp [FilterRun.step, p, withScript, programmableProcess, runLua, h.log, he]
  · simp [FilterRun.step, p, withScript, programmableProcess, he]
  · obtain ⟨line, metric, hc, hrest⟩ := h.tick now r.state.lua
    rw [h1, tally_since hs] at hrest
    refine ⟨_, ?_, line, metric, rfl, hrest⟩
    have hn : ¬ (i ≤ r.state.lastFlushIdx) := fun h => absurd hi ((hl i).1 h)
    simp [FilterRun.step, p, withScript, programmableProcess, runLua, hc, hn, he]
  · have hle : i ≤ r.state.lastFlushIdx := (hl i).2 hi
    simp [FilterRun.step, p, withScript, programmableProcess, hle, he]

private theorem tick_report {c : Conv F} (hc : Plain c) (env : Env) (text : F → Str) (name : String) (now : Int) (x : F) :
    ∃ line metric, (tickCount text name x).run c env (fun _ => now) 0 ⟨[], []⟩ = .ok (F64.ofNat 0) ⟨[metric], [line]⟩ ∧
      metric.name = name.toList ∧ metric.value = .set x ∧ metric.timestamp = now ∧
      line.value = "count_per_tick: ".toList ++ text x ∧ line.path = env.path ∧ line.time = now := by
  obtain ⟨m, h1, h2, h3, h4, -⟩ := (C94_push_clear c env now ⟨[], []⟩).1 (.str name.toList) (.num x) _ (hc.str _)
  obtain ⟨l, g1, g2, g3, g4, -⟩ := (C94_push_clear c env now ⟨[m], []⟩).2.1 (.str ("count_per_tick: ".toList ++ text x)) _ (hc.str _)
  refine ⟨l, m, ?_, h2, by rw [h3, hc.num], h4, g3, g2, g4⟩
  simp only [tickCount, Prog.run, h1, List.nil_append, g1]

private theorem idx_one (n : Nat) : idx 1 n = 0 := by simp [idx]

/-- **C108 (keep_count).**  After any events, the script passes metrics, lines and raw events on as they are; at every flush with
a new index it sends a line and a metric `count_per_tick` with the number of metrics and lines since the last such flush, and then
the flush; a flush seen before is dropped. -/
theorem C108_keep_count (text : F → Str) (c : Conv F) (hc : Plain c) (env : Env) (fail : LuaFn → Event F) (n : Nat)
    (hist : List (Int × Event F)) :
    let p := withScript (keepCount text) c env fail
    let r := received p n { lua := F64.ofNat 0 } hist
    (∀ now m, (r.step p n (some (now, .telemetry m))).sent = r.sent ++ [.telemetry m]) ∧
    (∀ now l, (r.step p n (some (now, .log l))).sent = r.sent ++ [.log l]) ∧
    (∀ now x, (r.step p n (some (now, .raw x))).sent = r.sent ++ [.raw x]) ∧
    (∀ now i since, NewFlush hist i → SinceFlush hist since → ∃ sent,
      (r.step p n (some (now, .timerFlush i))).sent = r.sent ++ sent ∧
        Report text "count_per_tick".toList env now (counted since) i sent) ∧
    (∀ now i, ¬ NewFlush hist i → (r.step p n (some (now, .timerFlush i))).sent = r.sent) :=
  counting (f := id) ⟨fun _ _ _ => rfl, fun _ _ _ => rfl, fun now x => by
    obtain ⟨l, m, h, h'⟩ := tick_report hc env text "count_per_tick" now x
    exact ⟨l, m, by simp only [callFn, keepCount, h], h'⟩⟩ fail n hist

/-- The same of collectd_scrub, which renames metrics. -/
private theorem scrub_counting (text : F → Str) (c : Conv F) (hc : Plain c) (env : Env) :
    Counting (collectdScrub text) c env (fun name => (scrub name).getD name) text "cernan_bridge.count_per_tick".toList := by
  refine ⟨fun now x m => ?_, fun _ _ _ => rfl, fun now x => ?_⟩
  · have h1 : c.toInteger (one : Val F) = 1 := hc.one
    cases hs : scrub m.name with
    | none => simp [callFn, collectdScrub, Prog.run, Call.apply, onMetric, h1, idx_one, hs]
    | some s => simp [callFn, collectdScrub, Prog.run, Call.apply, onMetric, h1, idx_one, hs, hc.str]
  · obtain ⟨l, m, h, h'⟩ := tick_report hc env text "cernan_bridge.count_per_tick" now x
    exact ⟨l, m, by simp only [callFn, collectdScrub, h], h'⟩

private theorem isWord_iff (c : Char) : isWord c = true ↔ WordChar c := by
  simp only [isWord, WordChar, Char.isAlphanum, Char.isAlpha, Char.isUpper, Char.isLower, Char.isDigit, Bool.or_eq_true, Bool.and_eq_true,
    decide_eq_true_eq, beq_iff_eq, Char.le_def]
  simp only [ge_iff_le]
  constructor
  · rintro (((h | h) | h) | h)
    · exact .inr (.inl h)
    · exact .inl h
    · exact .inr (.inr (.inl h))
    · exact .inr (.inr (.inr h))
  · rintro (h | h | h | h)
    · exact .inl (.inl (.inr h))
    · exact .inl (.inl (.inl h))
    · exact .inl (.inr h)
    · exact .inr h

private theorem scrub_some {name host rest : Str} (h : HasHost name host rest) : scrub name = some ("collectd".toList ++ rest) := by
  obtain ⟨c, hc, rfl, hh, hw, hr⟩ := h
  replace hw : ∀ c ∈ host, isWord c = true := fun c hc => (isWord_iff c).2 (hw c hc)
  replace hr : ∀ c ∈ rest.head?, isWord c = false := fun c hc => Bool.eq_false_iff.2 fun h => hr c hc ((isWord_iff c).1 h)
  have h1 : (host ++ rest).takeWhile isWord = host := by
    rw [List.takeWhile_append_of_pos hw]
    cases rest with
    | nil => simp
    | cons x rest => simp [hr x rfl]
  have h2 : (host ++ rest).dropWhile isWord = rest := by
    rw [List.dropWhile_append_of_pos hw]
    cases rest with
    | nil => rfl
    | cons x rest => simp [hr x rfl]
  have hp : "collectd".toList.isPrefixOf ("collectd".toList ++ c :: host ++ rest) = true := by
    rw [List.append_assoc]; simp [List.isPrefixOf]
  have hd : ("collectd".toList ++ c :: host ++ rest).drop 8 = c :: (host ++ rest) := by simp
  simp only [scrub, hp, if_true, hd, h1, h2]
  rw [if_pos ⟨hc, hh⟩]

private theorem scrub_none {name : Str} (h : ¬ ∃ host rest, HasHost name host rest) : scrub name = none := by
  simp only [scrub]
  split
  · rename_i hp
    obtain ⟨tl, htl⟩ := List.isPrefixOf_iff_prefix.1 hp
    have hd : name.drop 8 = tl := by rw [← htl]; simp
    rw [hd]
    cases tl with
    | nil => rfl
    | cons c rest =>
      dsimp only
      split
      · rename_i hc
        refine absurd ⟨rest.takeWhile isWord, rest.dropWhile isWord, c, hc.1, ?_, hc.2, ?_, ?_⟩ h
        · rw [← htl]; simp
        · intro x hx; exact (isWord_iff x).1 (List.all_eq_true.1 List.all_takeWhile x hx)
        · intro x hx
          cases hx' : rest.dropWhile isWord with
          | nil => rw [hx'] at hx; cases hx
          | cons y ys =>
            rw [hx'] at hx; cases hx
            have := List.head_dropWhile_not isWord (l := rest) (by rw [hx']; simp)
            rw [← isWord_iff]
            simpa [hx'] using this
      · rfl
  · rfl

/-- **C108 (collectd_scrub).**  After any events, a metric `collectd.HOST…` or `collectd@HOST…` is passed on as `collectd…`, all
else unchanged, and any other metric, line or raw event as it is; counts are reported as by keep_count. -/
theorem C108_collectd_scrub (text : F → Str) (c : Conv F) (hc : Plain c) (env : Env) (fail : LuaFn → Event F) (n : Nat)
    (hist : List (Int × Event F)) :
    let p := withScript (collectdScrub text) c env fail
    let r := received p n { lua := F64.ofNat 0 } hist
    (∀ now m host rest, HasHost m.name host rest →
      (r.step p n (some (now, .telemetry m))).sent = r.sent ++ [.telemetry { m with name := "collectd".toList ++ rest }]) ∧
    (∀ now m, (¬ ∃ host rest, HasHost m.name host rest) → (r.step p n (some (now, .telemetry m))).sent = r.sent ++ [.telemetry m]) ∧
    (∀ now l, (r.step p n (some (now, .log l))).sent = r.sent ++ [.log l]) ∧
    (∀ now x, (r.step p n (some (now, .raw x))).sent = r.sent ++ [.raw x]) ∧
    (∀ now i since, NewFlush hist i → SinceFlush hist since → ∃ sent,
      (r.step p n (some (now, .timerFlush i))).sent = r.sent ++ sent ∧
        Report text "cernan_bridge.count_per_tick".toList env now (counted since) i sent) ∧
    (∀ now i, ¬ NewFlush hist i → (r.step p n (some (now, .timerFlush i))).sent = r.sent) := by
  obtain ⟨h1, h2⟩ := counting (scrub_counting text c hc env) fail n hist
  refine ⟨fun now m host rest h => ?_, fun now m h => ?_, h2⟩
  · have := h1 now m
    rw [scrub_some h] at this
    exact this
  · have := h1 now m
    rw [scrub_none h] at this
    exact this

/-- **C108 (frau_im_mond).**  Every metric is renamed; flushes seen before are dropped; all else passes. -/
theorem C108_frau_im_mond (c : Conv F) (hc : Plain c) (env : Env) (fail : LuaFn → Event F) (n : Nat) (l : F)
    (hist : List (Int × Event F)) :
    let p := withScript frauImMond c env fail
    let r := received p n { lua := l } hist
    (∀ now m, (r.step p n (some (now, .telemetry m))).sent = r.sent ++ [.telemetry { m with name := "frau_im_mond".toList }]) ∧
    (∀ now l, (r.step p n (some (now, .log l))).sent = r.sent ++ [.log l]) ∧
    (∀ now x, (r.step p n (some (now, .raw x))).sent = r.sent ++ [.raw x]) ∧
    (∀ now i, NewFlush hist i → (r.step p n (some (now, .timerFlush i))).sent = r.sent ++ [.timerFlush i]) ∧
    (∀ now i, ¬ NewFlush hist i → (r.step p n (some (now, .timerFlush i))).sent = r.sent) := by
  intro p r
  have h1 : c.toInteger (one : Val F) = 1 := hc.one
  have hp : ∀ now s m res, p now s (.telemetry m) res = (s, res ++ [.telemetry { m with name := "frau_im_mond".toList }], .ok ()) := by
    intro now s m res
    simp [p, withScript, programmableProcess, runLua, callFn, frauImMond, Prog.run, Call.apply, onMetric, h1, idx_one, hc.str]
  have hl : ∀ now s l res, p now s (.log l) res = (s, res ++ [.log l], .ok ()) := by
    intro now s l res
    simp [p, withScript, programmableProcess, runLua, callFn, frauImMond, Prog.run]
  have he : ∀ (hist : List (Int × Event F)) (r : FilterRun F (Programmable F F)) (s : F × Nat),
      r.events = [] ∧ r.state.lastFlushIdx = s.2 →
      (hist.foldl (fun r i => r.step p n (some i)) r).events = [] ∧
      (hist.foldl (fun r i => r.step p n (some i)) r).state.lastFlushIdx = (hist.foldl tally s).2 := by
    intro hist
    induction hist with
    | nil => intro r s h; exact h
    | cons i hist ih =>
      intro r s h
      refine ih _ (tally s i) ?_
      obtain ⟨now, e⟩ := i
      cases e with
      | telemetry m => simp [FilterRun.step, hp, tally, h]
      | log l => simp [FilterRun.step, hl, tally, h]
      | raw x => simp [FilterRun.step, p, withScript, programmableProcess, tally, h]
      | shutdown => exact h
      | timerFlush j =>
        by_cases hj : j ≤ s.2 <;>
          simp [FilterRun.step, p, withScript, programmableProcess, hj, runLua, callFn, frauImMond, Prog.run, tally, h]
  obtain ⟨hr, h2⟩ : r.events = [] ∧ r.state.lastFlushIdx = _ := he hist { state := { lua := l } } (F64.ofNat 0, 0) ⟨rfl, rfl⟩
  refine ⟨fun now m => ?_, fun now l => ?_, fun now x => ?_, fun now i hi => ?_, fun now i hi => ?_⟩
  · simp [FilterRun.step, hp, hr]
  · simp [FilterRun.step, hl, hr]
  · simp [FilterRun.step, p, withScript, programmableProcess, hr]
  · have hj : ¬ i ≤ r.state.lastFlushIdx := by rw [h2]; exact fun h => absurd hi ((tally_new hist i).1 h)
    simp [FilterRun.step, p, withScript, programmableProcess, hj, runLua, callFn, frauImMond, Prog.run, hr]
  · have hj : i ≤ r.state.lastFlushIdx := by rw [h2]; exact (tally_new hist i).2 hi
    simp [FilterRun.step, p, withScript, programmableProcess, hj, hr]

/-- **C108 (no panic).**  No call of a function of an example script, with what the filter calls it with, panics or fails. -/
theorem C108_no_panic (text : F → Str) (c : Conv F) (hc : Plain c) (env : Env) (clock : Nat → Int) (fns : Functions F F)
    (hf : fns = keepCount text ∨ fns = collectdScrub text ∨ fns = frauImMond) (l : F) (fn : LuaFn) (p : Payload F) (hp : Given fn p) :
    ∃ l' p', callFn fns id c env clock l fn p = some (l', .ok p') := by
  have h1 : c.toInteger (one : Val F) = 1 := hc.one
  have htick : ∀ name, ∃ l' p', (tickCount text name l).run c env clock 0 ⟨[], []⟩ = .ok l' p' := by
    intro name
    obtain ⟨m, g1, -⟩ := (C94_push_clear c env (clock 0) ⟨[], []⟩).1 (.str name.toList) (.num l) _ (hc.str _)
    obtain ⟨x, g2, -⟩ := (C94_push_clear c env (clock 1) ⟨[m], []⟩).2.1 (.str ("count_per_tick: ".toList ++ text l)) _ (hc.str _)
    exact ⟨F64.ofNat 0, ⟨[m], [x]⟩, by simp only [tickCount, Prog.run, g1, List.nil_append, g2]⟩
  rcases hf with rfl | rfl | rfl
  · cases fn with
    | processMetric => exact ⟨_, _, rfl⟩
    | processLog => exact ⟨_, _, rfl⟩
    | tick =>
      cases (show p = _ from hp)
      obtain ⟨l', p', h⟩ := htick "count_per_tick"
      exact ⟨l', p', by simp only [callFn, keepCount, h]⟩
  · cases fn with
    | processMetric =>
      obtain ⟨m, rfl⟩ := hp
      cases hs : scrub m.name with
      | none => exact ⟨_, _, by simp [callFn, collectdScrub, Prog.run, Call.apply, onMetric, h1, idx_one, hs]; exact ⟨rfl, rfl⟩⟩
      | some s => exact ⟨_, _, by simp [callFn, collectdScrub, Prog.run, Call.apply, onMetric, h1, idx_one, hs, hc.str]; exact ⟨rfl, rfl⟩⟩
    | processLog => exact ⟨_, _, rfl⟩
    | tick =>
      cases (show p = _ from hp)
      obtain ⟨l', p', h⟩ := htick "cernan_bridge.count_per_tick"
      exact ⟨l', p', by simp only [callFn, collectdScrub, h]⟩
  · cases fn with
    | processMetric =>
      obtain ⟨m, rfl⟩ := hp
      exact ⟨_, _, by simp [callFn, frauImMond, Prog.run, Call.apply, onMetric, h1, idx_one, hc.str]; exact ⟨rfl, rfl⟩⟩
    | processLog => exact ⟨_, _, rfl⟩
    | tick => exact ⟨_, _, rfl⟩

/-- **C108 is false** of hosts with a hyphen in their name: collectd_scrub leaves what follows the hyphen, so that the metrics of
two such hosts get different names.  (The script of the same name that the tests use has the hyphen in its pattern.) -/
theorem C108_hyphen_false :
    scrub "collectd.web-1.cpu".toList = some "collectd-1.cpu".toList ∧ scrub "collectd.web-2.cpu".toList = some "collectd-2.cpu".toList := by
  decide +kernel

/-- Conversions of whole numbers. -/
def plainConv : Conv Int where
  toInteger v := match v with | .num x => x | _ => 0
  toNumber v := match v with | .num x => x | _ => 0
  toStr v := match v with | .str s => some s | _ => none

example : Plain plainConv := ⟨fun _ => rfl, fun _ => rfl, rfl⟩

/-- A history: a metric, a flush, a line, the flush again, a metric. -/
def scriptHistory : List (Int × Event Int) :=
  [(1, .telemetry ⟨"a".toList, .sum 1, false, none, 5, none, none⟩), (2, .timerFlush 1), (3, .log ⟨5, ['q'], ['x'], [], none⟩),
    (4, .timerFlush 1), (5, .telemetry ⟨"collectd.web.cpu".toList, .sum 1, false, none, 5, none, none⟩)]

/-- What comes after its last new flush, and a flush that is new. -/
example : SinceFlush scriptHistory (scriptHistory.drop 2) ∧ NewFlush scriptHistory 2 ∧ (counted (scriptHistory.drop 2) : Int) = 2 := by
  refine ⟨.inr ⟨scriptHistory.take 1, 2, 1, rfl, ⟨by decide, ?_⟩, ?_⟩, ⟨by decide, ?_⟩, by decide⟩
  · intro t j h; simp [scriptHistory] at h
  · intro t j h; simp [scriptHistory] at h; omega
  · intro t j h; simp [scriptHistory] at h; omega

/-- What the filter has sent of it and of a further flush. -/
example : (((received (withScript (collectdScrub fun x => (toString x).toList) plainConv ⟨[], []⟩ fun _ => .shutdown) 1 { lua := 0 }
      (scriptHistory ++ [(6, .timerFlush 2)])).sent).map fun
    | .telemetry m => (m.name, match m.value with | .set x => some x | _ => none)
    | .log l => (l.value, none)
    | _ => ([], none)) =
    [("a".toList, none), ("count_per_tick: 1".toList, none), ("cernan_bridge.count_per_tick".toList, some 1), ([], none),
      ("x".toList, none), ("collectd.cpu".toList, none), ("count_per_tick: 2".toList, none),
      ("cernan_bridge.count_per_tick".toList, some 2), ([], none)] := by decide +kernel

example : HasHost "collectd.web.cpu".toList "web".toList ".cpu".toList :=
  ⟨'.', .inl rfl, rfl, by decide, by simp [WordChar], by simp [WordChar]⟩

end Verif
