import Verif.Lemmas.NetSeveral
import Verif.Spec.NetFlow
namespace Verif
namespace Net
open Pipeline (FilterCode after)
open Topology (Wiring)
variable {F : Type} [F64 F] {p : Setup F} {ls : Nat → Label F}

/-- Until a signal comes no queue accepts a `Shutdown`. -/
theorem quiet_log (hL : Linked p) (hp : ∀ n ∈ p.wiring.filters.map (·.1), Pipeline.Proper (p.filter n)) (t : Nat) (hs : ∀ t' < t, ls t' ≠ .signal) :
    ∀ n, ((initial p).nodes n).isSome → ∀ x ∈ (run p ls t).log n, x.2.isShutdown = false := by
  induction t with
  | zero => intro n _ x hx; simp [run, initial] at hx
  | succ t ih =>
    intro n h0
    have ih := ih fun t' h => hs t' (by omega)
    suffices h : ∀ e ∈ offered p (run p ls t) (ls t) n, e.isShutdown = false by
      intro x hx
      rw [log_succ h0] at hx
      rcases List.mem_append.1 hx with hx | hx
      · exact ih n h0 x hx
      · obtain ⟨e, he, rfl⟩ := List.mem_map.1 hx
        exact h e (arrive_mem he)
    cases hl : ls t with
    | act m now =>
      simp only [offered]
      cases hm : (run p ls t).nodes m with
      | none => simp
      | some nd =>
        simp only
        rcases node_of t hm with ⟨ups, ch, q, r, h1, rfl⟩ | ⟨ups, r, h1, rfl⟩
        · obtain ⟨ins, q', h2, h3⟩ := filter_log (ls := ls) hL h1 t
          rw [hm] at h2
          simp only [Option.some.injEq, Node.filter.injEq, heq_eq_eq, true_and] at h2
          obtain ⟨rfl, rfl⟩ := h2
          have hm0 : ((initial p).nodes m).isSome := by rw [hL.filterNode m ups ch h1]; rfl
          have hq : ∀ e ∈ ins.map (·.2) ++ q, e.isShutdown = false := by
            intro e he
            rw [← h3] at he
            obtain ⟨x, hx, rfl⟩ := List.mem_map.1 he
            exact ih m hm0 x hx
          intro e he
          obtain ⟨x, hx, he⟩ := List.mem_flatMap.1 he
          rw [(List.mem_replicate.1 he).2]
          cases q with
          | nil => simp [Node.act] at hx
          | cons e0 q0 =>
            simp only [Node.act] at hx
            split at hx
            · simp at hx
            · exact calm_sends (hp m (List.mem_map.2 ⟨_, h1, rfl⟩)) _ ins now e0
                (fun i hi => hq _ (List.mem_append_left _ (List.mem_map.2 ⟨i, hi, rfl⟩))) (hq e0 (by simp)) x hx
        · simp [Node.act]
    | emit i e =>
      simp only [offered]
      split
      · simp
      · split
        · rename_i hc
          intro x hx
          rw [(List.mem_replicate.1 hx).2]
          have := hc.1
          cases e with
          | shutdown => simp [Event.isServed] at this
          | _ => rfl
        · simp
    | pulse idx =>
      intro x hx
      rw [(List.mem_replicate.1 hx).2]; rfl
    | stop i =>
      simp only [offered]
      split
      · simp
      · split
        · rename_i hc
          have := (serving (p := p) (ls := ls) t (by
            cases hm : (run p ls t).main with
            | waiting => rfl
            | _ =>
              obtain ⟨t', h1, h2⟩ := (signal_seen (p := p) (ls := ls) t).1 ((signal_seen t).2 (by rw [hm]; intro h; cases h))
              exact absurd h2 (hs t' (by omega)))).1
          rw [this] at hc
          simp at hc
        · simp
    | signal => simp [offered]
    | main => simp [offered]

/-! ## A filter reads what its queue has accepted -/

theorem filter_gets_on (hL : Linked p) {n : Str} {ups downs : List Str} (h : (n, ups, downs) ∈ p.wiring.filters)
    (fair : ∀ t, ∃ t', t ≤ t' ∧ ∃ now, ls t' = .act n now) (hno : ∀ t, ∀ x ∈ (run p ls t).log n, x.2.isShutdown = false) (T : Nat) :
    ∀ j, j ≤ ((run p ls T).log n).length → ∃ t, T ≤ t ∧ ∃ q r, (run p ls t).nodes n = some (.filter (p.filter n) ups.length downs q r) ∧
      j + q.length ≤ ((run p ls t).log n).length := by
  have h0 : ((initial p).nodes n).isSome := by rw [hL.filterNode n ups downs h]; rfl
  have hun : ∀ t q r, (run p ls t).nodes n = some (.filter (p.filter n) ups.length downs q r) → r.finished = false := by
    intro t q r hr
    cases hf : r.finished with
    | false => rfl
    | true => exact absurd ⟨_, hr, hf⟩ (unended hL (.inr ⟨ups, downs, h⟩) t (hno t))
  have hlen : ∀ t, ((run p ls (t + 1)).log n).length = ((run p ls t).log n).length + (arrive p (run p ls t) (ls t) n).length := by
    intro t; rw [log_succ h0]; simp
  intro j
  induction j with
  | zero =>
    intro _
    obtain ⟨ins, q, h1, h2⟩ := filter_log (ls := ls) hL h T
    refine ⟨T, Nat.le_refl _, q, _, h1, ?_⟩
    have := congrArg List.length h2
    simp at this
    omega
  | succ j ih =>
    intro hj
    obtain ⟨t, ht, q, r, h1, h2⟩ := ih (by omega)
    have hmono : ((run p ls T).log n).length ≤ ((run p ls t).log n).length := (log_stable h0 ht).length_le
    by_cases hq : j + 1 + q.length ≤ ((run p ls t).log n).length
    · exact ⟨t, ht, q, r, h1, hq⟩
    · have := ensures (fair := fair)
        (P := fun t => ∃ q r, (run p ls t).nodes n = some (.filter (p.filter n) ups.length downs q r) ∧ q ≠ [] ∧
          j + q.length ≤ ((run p ls t).log n).length)
        (Q := fun t => ∃ q r, (run p ls t).nodes n = some (.filter (p.filter n) ups.length downs q r) ∧
          j + 1 + q.length ≤ ((run p ls t).log n).length)
        (by
          rintro t ⟨q, r, h1, h2, h3⟩
          rcases filter_step p _ (ls t) h1 with ⟨g, -⟩ | ⟨e, q0, now, -, rfl, -, g3⟩
          · exact .inl ⟨_, r, g, by simp [h2], by rw [hlen]; simp; omega⟩
          · exact .inr ⟨_, _, g3, by rw [hlen]; simp at h3 ⊢; omega⟩)
        (by
          rintro t ⟨now', hl⟩ ⟨q, r, h1, h2, h3⟩
          rcases filter_step p _ (ls t) h1 with ⟨-, hn⟩ | ⟨e, q0, now, -, rfl, -, g3⟩
          · rcases hn now' hl with h | h
            · exact absurd h h2
            · rw [hun t q r h1] at h; cases h
          · exact ⟨_, _, g3, by rw [hlen]; simp at h3 ⊢; omega⟩) t
        ⟨q, r, h1, by rintro rfl; simp at hq h2; omega, h2⟩
      obtain ⟨u, hu, hQ⟩ := this
      exact ⟨u, by omega, hQ⟩

/-! ## A sink is given what its queue has accepted -/

theorem sink_somes (hL : Linked p) {n : Str} {ups : List Str} (h : (n, ups) ∈ p.wiring.sinks) (t : Nat) :
    ∃ r, (run p ls t).nodes n = some (.sink (p.sink n) ups.length r) ∧ none ∉ r.queue := by
  induction t with
  | zero => exact ⟨_, hL.sinkNode n ups h, by simp⟩
  | succ t ih =>
    obtain ⟨r, h1, h2⟩ := ih
    have hs : none ∉ (r.step (p.sink n).impl ups.length).queue := by
      intro hx
      apply h2
      have hq : ∀ e, (r.handle (p.sink n).impl ups.length e).queue = r.queue := by
        intro e
        cases e with
        | shutdown => simp only [SinkRun.handle]; split <;> rfl
        | timerFlush idx => simp only [SinkRun.handle]; repeat' split
                            all_goals rfl
        | _ => rfl
      simp only [SinkRun.step] at hx
      cases hr : r.returned with
      | true => simpa [hr] using hx
      | false =>
        simp only [hr, Bool.false_eq_true, if_false] at hx
        cases hc : r.current with
        | some e =>
          simp only [hc] at hx
          split at hx
          · simpa [hq] using hx
          · exact hx
        | none =>
          simp only [hc] at hx
          cases hqq : r.queue with
          | nil => simp [hqq] at hx
          | cons y q0 =>
            simp only [hqq] at hx
            cases y with
            | none => exact List.mem_cons_self
            | some e => exact List.mem_cons_of_mem _ (by simpa using hx)
    rcases sink_step p _ (ls t) h1 with ⟨g, -⟩ | ⟨-, g⟩
    · exact ⟨_, g, by simp [h2]⟩
    · exact ⟨_, g, by simp [hs]⟩

/-- How much of what has come in the sink has yet to be given. -/
def left {κ : Type} (r : SinkRun F κ) : Nat := (r.current.toList ++ arrivals r.queue).length

theorem left_push {κ : Type} (r : SinkRun F κ) (es : List (Event F)) : left { r with queue := r.queue ++ es.map some } = left r + es.length := by
  simp [left, arrivals, List.filterMap_append, List.filterMap_map, Function.comp_def]
  omega

private theorem closed {κ : Type} {k : SinkImpl F κ} {n : Nat} {r : SinkRun F κ} {e : Event F} (h1 : r.returned = false)
    (h2 : r.current = some e) (h3 : k.valveOpen r.state = false) :
    r.step k n = { r with state := k.flush r.state, calls := r.calls ++ [.valveFlush r.state] } := by
  simp [SinkRun.step, h1, h2, h3]

private theorem opened {κ : Type} {k : SinkImpl F κ} {n : Nat} {r : SinkRun F κ} {e : Event F} (h1 : r.returned = false)
    (h2 : r.current = some e) (h3 : k.valveOpen r.state = true) : r.step k n = r.handle k n e := by
  simp [SinkRun.step, h1, h2, h3]

theorem sink_gets_on (hL : Linked p) {n : Str} {ups : List Str} (h : (n, ups) ∈ p.wiring.sinks)
    (fair : ∀ t, ∃ t', t ≤ t' ∧ ∃ now, ls t' = .act n now) (hno : ∀ t, ∀ x ∈ (run p ls t).log n, x.2.isShutdown = false)
    (hre : ValveReopens p ls n) (hall : ∀ t r, (run p ls t).nodes n = some (.sink (p.sink n) ups.length r) →
      left r ≤ ((run p ls t).log n).length) (T : Nat) :
    ∀ j, j ≤ ((run p ls T).log n).length → ∃ t, T ≤ t ∧ ∃ r, (run p ls t).nodes n = some (.sink (p.sink n) ups.length r) ∧
      j + left r ≤ ((run p ls t).log n).length := by
  have h0 : ((initial p).nodes n).isSome := by rw [hL.sinkNode n ups h]; rfl
  have hlen : ∀ t, ((run p ls (t + 1)).log n).length = ((run p ls t).log n).length + (arrive p (run p ls t) (ls t) n).length := by
    intro t; rw [log_succ h0]; simp
  have hun : ∀ t r, (run p ls t).nodes n = some (.sink (p.sink n) ups.length r) → r.returned = false ∧
      (∀ e, r.current = some e → e.isShutdown = false) ∧ none ∉ r.queue ∧
      ∃ N, (p.sink n).impl.valveOpen (flushes (p.sink n).impl N r.state) = true := by
    intro t r hr
    obtain ⟨r1, a1, a2, a3, -⟩ := sink_unended hL h t (hno t)
    obtain ⟨r2, b1, b2⟩ := sink_somes (ls := ls) hL h t
    have c2 := hre t _ r hr
    rw [hr] at a1 b1
    simp only [Option.some.injEq, Node.sink.injEq, heq_eq_eq, true_and] at a1 b1
    subst a1 b1
    refine ⟨a2, ?_, b2, c2⟩
    intro e he
    cases hs : e.isShutdown with
    | false => rfl
    | true => rw [isShutdown_true hs] at he; exact absurd he a3
  -- one more event is in hand, or has been dealt with
  have dealt : ∀ j N t, (∃ r e, (run p ls t).nodes n = some (.sink (p.sink n) ups.length r) ∧ r.current = some e ∧
      (p.sink n).impl.valveOpen (flushes (p.sink n).impl N r.state) = true ∧ j + left r ≤ ((run p ls t).log n).length) →
      ∃ u, t ≤ u ∧ ∃ r, (run p ls u).nodes n = some (.sink (p.sink n) ups.length r) ∧ j + 1 + left r ≤ ((run p ls u).log n).length := by
    intro j N
    -- what a step with an open valve does
    have go : ∀ t r e, (run p ls t).nodes n = some (.sink (p.sink n) ups.length r) → r.current = some e →
        (p.sink n).impl.valveOpen r.state = true → j + left r ≤ ((run p ls t).log n).length →
        (run p ls (t + 1)).nodes n = some (.sink (p.sink n) ups.length
          { r.step (p.sink n).impl ups.length with queue := (r.step (p.sink n).impl ups.length).queue ++ (arrive p (run p ls t) (ls t) n).map some }) →
        ∃ r, (run p ls (t + 1)).nodes n = some (.sink (p.sink n) ups.length r) ∧ j + 1 + left r ≤ ((run p ls (t + 1)).log n).length := by
      intro t r e h1 h2 h3 h4 g
      obtain ⟨hr, hc, -⟩ := hun t r h1
      refine ⟨_, g, ?_⟩
      rw [left_push, hlen, opened hr h2 h3]
      obtain ⟨a, b, -⟩ := handle_other (p.sink n).impl ups.length r e (hc e h2)
      have : left (r.handle (p.sink n).impl ups.length e) + 1 = left r := by
        simp [left, a, b, h2]
      omega
    induction N with
    | zero =>
      intro t hP
      refine ensures (fair := fair)
        (P := fun t => ∃ r e, (run p ls t).nodes n = some (.sink (p.sink n) ups.length r) ∧ r.current = some e ∧
          (p.sink n).impl.valveOpen (flushes (p.sink n).impl 0 r.state) = true ∧ j + left r ≤ ((run p ls t).log n).length)
        (Q := fun u => ∃ r, (run p ls u).nodes n = some (.sink (p.sink n) ups.length r) ∧ j + 1 + left r ≤ ((run p ls u).log n).length) ?_ ?_ t hP
      · rintro t ⟨r, e, h1, h2, h3, h4⟩
        rcases sink_step p _ (ls t) h1 with ⟨g, -⟩ | ⟨-, g⟩
        · exact .inl ⟨_, e, g, h2, h3, by rw [left_push, hlen]; omega⟩
        · exact .inr (go t r e h1 h2 h3 h4 g)
      · rintro t ⟨now, hl⟩ ⟨r, e, h1, h2, h3, h4⟩
        rcases sink_step p _ (ls t) h1 with ⟨-, g⟩ | ⟨-, g⟩
        · exact absurd hl (g now)
        · exact go t r e h1 h2 h3 h4 g
    | succ N ih =>
      intro t hP
      have := ensures (fair := fair)
        (P := fun t => ∃ r e, (run p ls t).nodes n = some (.sink (p.sink n) ups.length r) ∧ r.current = some e ∧
          (p.sink n).impl.valveOpen (flushes (p.sink n).impl (N + 1) r.state) = true ∧ j + left r ≤ ((run p ls t).log n).length)
        (Q := fun u => (∃ r, (run p ls u).nodes n = some (.sink (p.sink n) ups.length r) ∧ j + 1 + left r ≤ ((run p ls u).log n).length) ∨
          ∃ r e, (run p ls u).nodes n = some (.sink (p.sink n) ups.length r) ∧ r.current = some e ∧
          (p.sink n).impl.valveOpen (flushes (p.sink n).impl N r.state) = true ∧ j + left r ≤ ((run p ls u).log n).length)
        (by
          rintro t ⟨r, e, h1, h2, h3, h4⟩
          rcases sink_step p _ (ls t) h1 with ⟨g, -⟩ | ⟨-, g⟩
          · exact .inl ⟨_, e, g, h2, h3, by rw [left_push, hlen]; omega⟩
          · cases hv : (p.sink n).impl.valveOpen r.state with
            | true => exact .inr (.inl (go t r e h1 h2 hv h4 g))
            | false =>
              rw [closed (hun t r h1).1 h2 hv] at g
              refine .inr (.inr ⟨_, e, g, h2, h3, ?_⟩)
              have := left_push r (arrive p (run p ls t) (ls t) n)
              rw [hlen]
              simp only [left] at this h4 ⊢
              omega)
        (by
          rintro t ⟨now, hl⟩ ⟨r, e, h1, h2, h3, h4⟩
          rcases sink_step p _ (ls t) h1 with ⟨-, g⟩ | ⟨-, g⟩
          · exact absurd hl (g now)
          · cases hv : (p.sink n).impl.valveOpen r.state with
            | true => exact .inl (go t r e h1 h2 hv h4 g)
            | false =>
              rw [closed (hun t r h1).1 h2 hv] at g
              refine .inr ⟨_, e, g, h2, h3, ?_⟩
              have := left_push r (arrive p (run p ls t) (ls t) n)
              rw [hlen]
              simp only [left] at this h4 ⊢
              omega) t hP
      obtain ⟨u, hu, hQ | hQ⟩ := this
      · exact ⟨u, hu, hQ⟩
      · obtain ⟨v, hv, hR⟩ := ih u hQ
        exact ⟨v, by omega, hR⟩
  intro j
  induction j with
  | zero =>
    intro _
    obtain ⟨r, h1, -⟩ := sink_at hL ls h T
    exact ⟨T, Nat.le_refl _, r, h1, by have := hall T r h1; omega⟩
  | succ j ih =>
    intro hj
    obtain ⟨t, ht, r, h1, h2⟩ := ih (by omega)
    have hmono : ((run p ls T).log n).length ≤ ((run p ls t).log n).length := (log_stable h0 ht).length_le
    by_cases hq : j + 1 + left r ≤ ((run p ls t).log n).length
    · exact ⟨t, ht, r, h1, hq⟩
    · have hinhand : ∀ t, (∃ r e, (run p ls t).nodes n = some (.sink (p.sink n) ups.length r) ∧ r.current = some e ∧
          j + left r ≤ ((run p ls t).log n).length) →
          ∃ u, t ≤ u ∧ ∃ r, (run p ls u).nodes n = some (.sink (p.sink n) ups.length r) ∧ j + 1 + left r ≤ ((run p ls u).log n).length := by
        rintro t ⟨r, e, h1, h2, h3⟩
        obtain ⟨-, -, -, N, hN⟩ := hun t r h1
        exact dealt j N t ⟨r, e, h1, h2, hN, h3⟩
      cases hc : r.current with
      | some e =>
        obtain ⟨u, hu, hQ⟩ := hinhand t ⟨r, e, h1, hc, h2⟩
        exact ⟨u, by omega, hQ⟩
      | none =>
        have take : ∀ t r, (run p ls t).nodes n = some (.sink (p.sink n) ups.length r) → r.current = none → r.queue ≠ [] →
            j + left r ≤ ((run p ls t).log n).length →
            (run p ls (t + 1)).nodes n = some (.sink (p.sink n) ups.length
              { r.step (p.sink n).impl ups.length with queue := (r.step (p.sink n).impl ups.length).queue ++ (arrive p (run p ls t) (ls t) n).map some }) →
            ∃ r e, (run p ls (t + 1)).nodes n = some (.sink (p.sink n) ups.length r) ∧ r.current = some e ∧
              j + left r ≤ ((run p ls (t + 1)).log n).length := by
          intro t r h1 h2 h3 h4 g
          obtain ⟨hr, -, hs, -⟩ := hun t r h1
          cases hqq : r.queue with
          | nil => exact absurd hqq h3
          | cons x q0 =>
            cases x with
            | none => rw [hqq] at hs; exact absurd List.mem_cons_self hs
            | some e =>
              have hst : r.step (p.sink n).impl ups.length = { r with queue := q0, current := some e } := by
                simp [SinkRun.step, hr, h2, hqq]
              refine ⟨_, e, g, by rw [hst], ?_⟩
              rw [left_push, hlen, hst]
              have : left ({ r with queue := q0, current := some e } : SinkRun F _) = left r := by
                simp [left, h2, hqq, arrivals]
              omega
        have := ensures (fair := fair)
          (P := fun t => ∃ r, (run p ls t).nodes n = some (.sink (p.sink n) ups.length r) ∧ r.current = none ∧ r.queue ≠ [] ∧
            j + left r ≤ ((run p ls t).log n).length)
          (Q := fun t => ∃ r e, (run p ls t).nodes n = some (.sink (p.sink n) ups.length r) ∧ r.current = some e ∧
            j + left r ≤ ((run p ls t).log n).length)
          (by
            rintro t ⟨r, h1, h2, h3, h4⟩
            rcases sink_step p _ (ls t) h1 with ⟨g, -⟩ | ⟨-, g⟩
            · exact .inl ⟨_, g, h2, by simp [h3], by rw [left_push, hlen]; omega⟩
            · exact .inr (take t r h1 h2 h3 h4 g))
          (by
            rintro t ⟨now, hl⟩ ⟨r, h1, h2, h3, h4⟩
            rcases sink_step p _ (ls t) h1 with ⟨-, g⟩ | ⟨-, g⟩
            · exact absurd hl (g now)
            · exact take t r h1 h2 h3 h4 g) t
          ⟨r, h1, hc, by
            intro hq0
            have : left r = 0 := by simp [left, hc, hq0, arrivals]
            omega, h2⟩
        obtain ⟨u, hu, hQ⟩ := this
        obtain ⟨v, hv, hR⟩ := hinhand u hQ
        exact ⟨v, by omega, hR⟩

/-- Sooner or later a filter has read what its queue had accepted. -/
theorem filter_flows (hL : Linked p) {n : Str} {ups downs : List Str} (h : (n, ups, downs) ∈ p.wiring.filters)
    (fair : ∀ t, ∃ t', t ≤ t' ∧ ∃ now, ls t' = .act n now) (hno : ∀ t, ∀ x ∈ (run p ls t).log n, x.2.isShutdown = false) (T : Nat) :
    ∃ t, T ≤ t ∧ ∃ ins q, (run p ls t).nodes n = some (.filter (p.filter n) ups.length downs q
        (after (p.filter n).process ups.length { state := (p.filter n).start } ins)) ∧
      ((run p ls t).log n).map (·.2) = ins.map (·.2) ++ q ∧ ((run p ls T).log n).map (·.2) <+: ins.map (·.2) := by
  have h0 : ((initial p).nodes n).isSome := by rw [hL.filterNode n ups downs h]; rfl
  obtain ⟨t, ht, q, r, h1, h2⟩ := filter_gets_on hL h fair hno T _ (Nat.le_refl _)
  obtain ⟨ins, q', h3, h4⟩ := filter_log (ls := ls) hL h t
  refine ⟨t, ht, ins, q', h3, h4, ?_⟩
  rw [h1] at h3
  simp only [Option.some.injEq, Node.filter.injEq, heq_eq_eq, true_and] at h3
  obtain ⟨rfl, -⟩ := h3
  have hpre := (log_stable (ls := ls) h0 ht).map (·.2)
  rw [h4] at hpre
  refine List.prefix_of_prefix_length_le hpre (List.prefix_append _ _) ?_
  have := congrArg List.length h4
  simp at this ⊢
  omega

/-- Sooner or later a sink has been given what its queue had accepted. -/
theorem sink_flows (hL : Linked p) {n : Str} {ups : List Str} (h : (n, ups) ∈ p.wiring.sinks)
    (fair : ∀ t, ∃ t', t ≤ t' ∧ ∃ now, ls t' = .act n now) (hno : ∀ t, ∀ x ∈ (run p ls t).log n, x.2.isShutdown = false)
    (hre : ValveReopens p ls n) {iv : Option Nat} (hiv : ∀ s, (p.sink n).impl.flushInterval s = iv) (T : Nat) :
    ∃ t, T ≤ t ∧ ∃ r c, (run p ls t).nodes n = some (.sink (p.sink n) ups.length r) ∧
      SinkInv (p.sink n).impl iv (((run p ls t).log n).map (·.2)) r c ∧ ((run p ls T).log n).map (·.2) <+: c := by
  have h0 : ((initial p).nodes n).isSome := by rw [hL.sinkNode n ups h]; rfl
  have hsplit : ∀ t r, (run p ls t).nodes n = some (.sink (p.sink n) ups.length r) → ∃ c,
      SinkInv (p.sink n).impl iv (((run p ls t).log n).map (·.2)) r c ∧ c.length + left r = ((run p ls t).log n).length := by
    intro t r hr
    obtain ⟨r', c, h1, h2⟩ := sink_log (ls := ls) hL h hiv t
    rw [hr] at h1
    simp only [Option.some.injEq, Node.sink.injEq, heq_eq_eq, true_and] at h1
    subst h1
    refine ⟨c, h2, ?_⟩
    have := congrArg List.length h2.split
    simp at this
    simp [left]
    omega
  obtain ⟨t, ht, r, h1, h2⟩ := sink_gets_on hL h fair hno hre (fun t r hr => by
    obtain ⟨c, -, hc⟩ := hsplit t r hr; omega) T _ (Nat.le_refl _)
  obtain ⟨c, h3, h4⟩ := hsplit t r h1
  refine ⟨t, ht, r, c, h1, h3, ?_⟩
  have hpre := (log_stable (ls := ls) h0 ht).map (·.2)
  have hs := h3.split
  rw [List.append_assoc] at hs
  rw [hs] at hpre
  refine List.prefix_of_prefix_length_le hpre (List.prefix_append _ _) ?_
  simp
  omega

end Net
end Verif
