import Verif.Lemmas.Internal
/-!
# C62, C83: self-telemetry

Theorems range over every interleaving of threads that count, threads that push points, and the
source's own steps.
-/
namespace Verif
open Internal
variable {F : Type} [F64 F]

/-- The two gauges are reported as gauges and all other counters as sums. -/
theorem C62_kinds : ∀ c ∈ counters, c.kind = if c.name ∈ gauges then .set else .sum := by decide +kernel

/-- **C62.**  No two reports of a pass share a name, so that the points of a name are those of one counter, and no static is reported
twice, so that nothing counted is split between names; every name is under `cernan.`. -/
theorem C62_distinct : (counters.map (·.name)).Nodup ∧ (counters.map (·.atom)).Nodup ∧
    ∀ c ∈ counters, "cernan.".toList <+: c.name.toList := by
  refine ⟨by decide +kernel, by decide +kernel, by decide +kernel⟩

/-- **C62.**  For every counter reported as a sum that is only added to: the points reported for it
are sums of non-zero counts which, together with what has not been reported yet, come to exactly
what was added. -/
theorem C62_counter (c : Counter) (hc : c ∈ counters) (hg : c.name ∉ gauges) (ls : List (Label F))
    (s : State F) (hr : run true {} ls = some s) (ho : OnlyAdded c.atom ls)
    (hn : NotPushed c.name.toList ls) :
    ∃ vs : List (Nat × Int), pointsOf c.name.toList s.sent = vs.map (sumPoint c.name.toList) ∧
      (∀ v ∈ vs, v.1 ≠ 0) ∧ (vs.map (·.1)).sum + s.atoms c.atom = added c.atom ls := by
  have hk : c.kind = .sum := by rw [C62_kinds c hc, if_neg hg]
  obtain ⟨-, -, vs, h1, h2, h3⟩ := counter_run c hc hk ls {} s ⟨by simp⟩ ho hn (by simp) hr
  exact ⟨vs, by simpa [pointsOf] using h1, h2, by simpa using h3⟩

/-- **C62.**  Just after a report of a counter, the points reported for it come to everything added up
to then. -/
theorem C62_report (c : Counter) (hc : c ∈ counters) (hg : c.name ∉ gauges) (ls : List (Label F))
    (s s' : State F) (hr : run true {} ls = some s) (ho : OnlyAdded c.atom ls)
    (hn : NotPushed c.name.toList ls) (cs : List Counter) (hp : s.pass = .reporting (c :: cs))
    (now : Int) (hs : step true s (.swap now) = some s') :
    ∃ vs : List (Nat × Int), pointsOf c.name.toList s'.sent = vs.map (sumPoint c.name.toList) ∧
      (∀ v ∈ vs, v.1 ≠ 0) ∧ (vs.map (·.1)).sum = added c.atom ls := by
  have hk : c.kind = .sum := by rw [C62_kinds c hc, if_neg hg]
  obtain ⟨hi, hq, vs, h1, h2, h3⟩ := counter_run c hc hk ls {} s ⟨by simp⟩ ho hn (by simp) hr
  obtain ⟨-, ws, f1, f2, f3⟩ := counter_step hi c hc hk (.swap now) (by simp) (by simp) hq hs
  refine ⟨vs ++ ws, ?_, ?_, ?_⟩
  · rw [f1, h1]; simp [pointsOf]
  · intro v hv
    rcases List.mem_append.1 hv with hv | hv
    · exact h2 v hv
    · exact f2 v hv
  · have h0 : s'.atoms c.atom = 0 := by
      simp only [step, hp] at hs
      split at hs
      · split at hs
        · simp only [Option.some.injEq] at hs; subst hs; simp [assign]
        · simp at hs
      · simp only [Option.some.injEq] at hs; subst hs; simp [assign]
    simp only [h0, added, Nat.add_zero] at f3
    simp only [List.map_append, List.sum_append]
    simp only [Nat.zero_add] at h3
    omega

/-- **C62.**  A pass reports every counter: whenever one begins, and whatever other threads do
meanwhile, each swap is possible (no panic) and moves to the next counter of the list. -/
theorem C62_pass (chans : Bool) (s : State F) (c : Counter) (cs : List Counter) (now : Int)
    (hc : c ∈ counters) (hp : s.pass = .reporting (c :: cs)) :
    ∃ s', step chans s (.swap now) = some s' ∧ s'.pass = .reporting cs := by
  have hk : c.kind = .sum ∨ c.kind = .set := by
    have : ∀ c ∈ counters, c.kind = .sum ∨ c.kind = .set := by decide +kernel
    exact this c hc
  obtain ⟨t, ht⟩ := point_some (F := F) now c (s.atoms c.atom) hk
  by_cases hv : s.atoms c.atom ≠ 0
  · exact ⟨_, by simp only [step, hp, if_pos hv, ht]; rfl, rfl⟩
  · exact ⟨_, by simp only [step, hp, if_neg hv]; rfl, rfl⟩

/-- **C62.**  Every point pushed by hand is sent exactly once or still queued; none is made up. -/
theorem C62_queue (ls : List (Label F)) (s : State F) (hr : run true {} ls = some s)
    (hn : ∀ now name v md, Label.push now name v md ∈ ls → ¬ CounterName name) :
    (handMade s.sent ++ s.q).Perm (pushed ls) := by
  simpa [handMade] using queue_run ls {} s ⟨by simp⟩ hn (by simp) (by simp) hr

/-- **C62.**  Every report of a gauge that is only stored to is a gauge of a value, not zero, that was stored to it. -/
theorem C62_gauge (c : Counter) (hc : c ∈ counters) (hg : c.name ∈ gauges) (ls : List (Label F))
    (s : State F) (hr : run true {} ls = some s) (ho : OnlyStored c.atom ls)
    (hn : NotPushed c.name.toList ls) :
    ∀ t ∈ pointsOf c.name.toList s.sent, ∃ v : Nat × Int, t = setPoint c.name.toList v ∧ v.1 ≠ 0 ∧
      Label.store c.atom v.1 ∈ ls := by
  have hk : c.kind = .set := by rw [C62_kinds c hc, if_pos hg]
  exact (gauge_run (fun n => Label.store c.atom n ∈ ls) c hc hk ls {} s ⟨by simp⟩ ho (fun _ h => h) hn
    ⟨by simp, by simp, by simp [pointsOf]⟩ hr).2.2

/-- **C62.**  The source passes on exactly one shutdown, as the last thing it does. -/
theorem C62_shutdown (ls : List (Label F)) (s : State F) (hr : run true {} ls = some s) :
    (s.pass = .returned → ∃ es, s.sent = es ++ [.shutdown] ∧ .shutdown ∉ es) ∧
    (s.pass ≠ .returned → .shutdown ∉ s.sent) :=
  shutdown_run ls {} s ⟨by simp, by simp⟩ hr

/-- A gauge stored twice before a pass: the last value is reported, as a gauge, and a shutdown follows. -/
example : (run true ({} : State Int) ([.store "WAVEFRONT_AGGR_STORED_VALUES" 4,
    .store "WAVEFRONT_AGGR_STORED_VALUES" 9, .timeout] ++ counters.map (fun _ => .swap 3) ++ [.pop, .stop])).map
      (fun s => (s.pass, s.sent)) =
    some (.returned, [.telemetry (setPoint "cernan.sinks.wavefront.aggregations.total_stored".toList (9, 3)),
      .shutdown]) := by
  decide +kernel

/-- Without forwards, nothing is ever sent. -/
theorem C62_no_forwards (ls : List (Label F)) (s : State F) (hr : run false {} ls = some s) :
    s.sent = [] := nochans_run ls {} s (by simp) hr

/-- C83 does not hold: the number of points purged by the Prometheus sink is
reported as a sum but is overwritten at every flush of the sink, so that what one flush purged is
lost if another comes before the next report. -/
theorem C83_purged_false : ∃ c ∈ counters, c.atom = "PROMETHEUS_AGGR_WINDOWED_PURGED" ∧ c.kind = .sum ∧
    ∃ s : State Int, run true {} ([.store c.atom 3, .store c.atom 0, .timeout] ++
      counters.map (fun _ => .swap 0) ++ [.pop]) = some s ∧ s.pass = .polling ∧
      pointsOf c.name.toList s.sent = [] := by
  refine ⟨⟨"cernan.sinks.prometheus.aggregation.inside_baseball.windowed.purged", "PROMETHEUS_AGGR_WINDOWED_PURGED", .sum⟩, by decide +kernel, rfl, rfl, ?_⟩
  have h : (run true ({} : State Int) ([.store "PROMETHEUS_AGGR_WINDOWED_PURGED" 3,
      .store "PROMETHEUS_AGGR_WINDOWED_PURGED" 0, .timeout] ++
      counters.map (fun _ => .swap 0) ++ [.pop])).map (fun s => (s.pass, s.sent)) =
      some (.polling, []) := by decide +kernel
  rw [Option.map_eq_some_iff] at h
  obtain ⟨s, h1, h2⟩ := h
  simp only [Prod.mk.injEq] at h2
  exact ⟨s, h1, h2.1, by rw [h2.2]; rfl⟩

/-- **C83, partial.**  Of a sum that is overwritten, what is reported after the last overwriting comes
to exactly the value written last, once it is reported.  Missing: values overwritten before they
were reported. -/
theorem C83_last_partial (c : Counter) (hc : c ∈ counters) (hg : c.name ∉ gauges)
    (ls ms : List (Label F)) (n : Nat) (s0 s : State F) (h0 : run true {} ls = some s0)
    (hr : run true s0 (.store c.atom n :: ms) = some s) (ho : OnlyAdded c.atom ms)
    (ha : added c.atom ms = 0) (hn : NotPushed c.name.toList ls) (hm : NotPushed c.name.toList ms) :
    ∃ vs : List (Nat × Int),
      pointsOf c.name.toList s.sent = pointsOf c.name.toList s0.sent ++ vs.map (sumPoint c.name.toList) ∧
      (∀ v ∈ vs, v.1 ≠ 0) ∧ (vs.map (·.1)).sum + s.atoms c.atom = n := by
  have hi : Internal.Inv s0 ∧ ∀ t ∈ s0.q, t.name ≠ c.name.toList := by
    obtain ⟨h1, h2⟩ := inv_queue c ls {} s0 ⟨by simp⟩ hn (by simp) h0
    exact ⟨h1, h2⟩
  have hk : c.kind = .sum := by rw [C62_kinds c hc, if_neg hg]
  simp only [run, step] at hr
  obtain ⟨-, -, vs, h1, h2, h3⟩ := counter_run c hc hk ms
    { s0 with atoms := assign s0.atoms c.atom n } s ⟨hi.1.todo⟩ ho hm hi.2 hr
  exact ⟨vs, h1, h2, by simpa [assign, ha] using h3⟩

/-- A counter incremented by two threads, before and during a pass: five are reported, one is left. -/
example : (run true ({} : State Int) [.add "UTIL_SEND_HOPPER_ERROR_FULL" 2,
    .push 9 ['p'] 7 [(['k'], ['v'])], .timeout, .add "UTIL_SEND_HOPPER_ERROR_FULL" 3, .swap 10,
    .add "UTIL_SEND_HOPPER_ERROR_FULL" 1]).map
      (fun s => (s.atoms "UTIL_SEND_HOPPER_ERROR_FULL", s.sent, s.q.length)) =
    some (1, [.telemetry (sumPoint "cernan.util.hopper.error.full".toList (5, 10))], 1) := by
  decide +kernel

example : ∃ c ∈ counters, c.atom = "UTIL_SEND_HOPPER_ERROR_FULL" ∧ c.name ∉ gauges :=
  ⟨_, List.mem_cons_self, rfl, by decide +kernel⟩


end Verif
