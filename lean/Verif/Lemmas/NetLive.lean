import Verif.Lemmas.Net
namespace Verif
namespace Net
open Pipeline (FilterCode after)
open Topology (Wiring)
variable {F : Type} [F64 F]

/-! ## Nodes over time -/

theorem filter_step (p : Setup F) (s : State F) (l : Label F) {m : Str} {f : FilterCode F} {n : Nat} {ch : List Str}
    {q : List (Event F)} {r : FilterRun F f.σ} (h : s.nodes m = some (.filter f n ch q r)) :
    (step p s l).nodes m = some (.filter f n ch (q ++ arrive p s l m) r) ∧
      (∀ now, l = .act m now → q = [] ∨ r.finished = true) ∨
    ∃ e q0 now, l = .act m now ∧ q = e :: q0 ∧ r.finished = false ∧
      (step p s l).nodes m = some (.filter f n ch (q0 ++ arrive p s l m) (r.step f.process n (some (now, e)))) := by
  rw [step_nodes, h]
  simp only [Option.map_some]
  by_cases hl : ∃ now, l = .act m now
  · obtain ⟨now, hl⟩ := hl
    subst hl
    cases q with
    | nil => left; simp [base, Node.act, pushAll_filter]
    | cons e q0 =>
      cases hf : r.finished with
      | true =>
        left; simp [base, Node.act, hf, pushAll_filter]
      | false =>
        right
        refine ⟨e, q0, now, rfl, rfl, rfl, ?_⟩
        simp [base, Node.act, hf, pushAll_filter]
  · left
    have hb : base l m (.filter f n ch q r) = .filter f n ch q r := by
      cases l with
      | act a now =>
        have : m ≠ a := fun he => hl ⟨now, he ▸ rfl⟩
        simp [base, this]
      | _ => rfl
    rw [hb, pushAll_filter]
    exact ⟨rfl, fun now hn => absurd ⟨now, hn⟩ hl⟩

theorem sink_step (p : Setup F) (s : State F) (l : Label F) {m : Str} {k : SinkCode F} {n : Nat}
    {r : SinkRun F k.κ} (h : s.nodes m = some (.sink k n r)) :
    ((step p s l).nodes m = some (.sink k n { r with queue := r.queue ++ (arrive p s l m).map some }) ∧
      ∀ now, l ≠ .act m now) ∨
    ((∃ now, l = .act m now) ∧ (step p s l).nodes m = some (.sink k n
      { r.step k.impl n with queue := (r.step k.impl n).queue ++ (arrive p s l m).map some })) := by
  rw [step_nodes, h]
  simp only [Option.map_some]
  by_cases hl : ∃ now, l = .act m now
  · obtain ⟨now, hl⟩ := hl
    subst hl
    right
    exact ⟨⟨now, rfl⟩, by simp [base, Node.act, pushAll_sink]⟩
  · left
    have hb : base l m (.sink k n r) = .sink k n r := by
      cases l with
      | act a now =>
        have : m ≠ a := fun he => hl ⟨now, he ▸ rfl⟩
        simp [base, this]
      | _ => rfl
    rw [hb, pushAll_sink]
    exact ⟨rfl, fun now hn => hl ⟨now, hn⟩⟩

/-! ## Fairness -/

theorem ensures {P Q help : Nat → Prop} (fair : ∀ t, ∃ t', t ≤ t' ∧ help t')
    (stay : ∀ t, P t → P (t + 1) ∨ Q (t + 1)) (go : ∀ t, help t → P t → Q (t + 1)) :
    ∀ t, P t → ∃ t', t ≤ t' ∧ Q t' := by
  intro t hP
  obtain ⟨u, hu, hh⟩ := fair t
  have key : ∀ d, (∃ t', t ≤ t' ∧ Q t') ∨ P (t + d) := by
    intro d
    induction d with
    | zero => exact .inr hP
    | succ d ih =>
      rcases ih with h | h
      · exact .inl h
      · rcases stay _ h with h | h
        · exact .inr h
        · exact .inl ⟨t + d + 1, by omega, h⟩
  rcases key (u - t) with h | h
  · exact h
  · have : t + (u - t) = u := by omega
    rw [this] at h
    exact ⟨u + 1, by omega, go u hh h⟩

theorem stable {P : Nat → Prop} (stay : ∀ t, P t → P (t + 1)) {t u : Nat} (h : P t) (htu : t ≤ u) : P u := by
  induction u with
  | zero => have : t = 0 := by omega
            exact this ▸ h
  | succ u ih =>
    by_cases he : t = u + 1
    · exact he ▸ h
    · exact stay u (ih (by omega))

/-- Finitely many things each of which comes about, and stays, come about together. -/
theorem together {α : Type} (xs : List α) {P : α → Nat → Prop} (stay : ∀ x t, P x t → P x (t + 1))
    (h : ∀ x ∈ xs, ∃ t, P x t) : ∃ t, ∀ x ∈ xs, P x t := by
  induction xs with
  | nil => exact ⟨0, by simp⟩
  | cons x xs ih =>
    obtain ⟨t, ht⟩ := ih (fun y hy => h y (List.mem_cons_of_mem _ hy))
    obtain ⟨u, hu⟩ := h x List.mem_cons_self
    refine ⟨max t u, ?_⟩
    intro y hy
    rcases List.mem_cons.1 hy with rfl | hy
    · exact stable (stay y) hu (by omega)
    · exact stable (stay y) (ht y hy) (by omega)

/-! ## A filter reads its queue -/

theorem step_total {σ : Type} (f : Process F σ) (n : Nat) (r : FilterRun F σ) (now : Int) (e : Event F) :
    (r.step f n (some (now, e))).totalShutdowns = r.totalShutdowns + (if e.isShutdown then 1 else 0) := by
  cases hs : e.isShutdown with
  | true => obtain rfl := isShutdown_true hs; rfl
  | false => rw [FilterRun.step_event f n r now e hs]; split <;> simp

theorem filter_reads (p : Setup F) (ls : Nat → Label F) (m : Str)
    (fair : ∀ t, ∃ t', t ≤ t' ∧ ∃ now, ls t' = .act m now) (f : FilterCode F) (n : Nat) (ch : List Str) (k : Nat) :
    ∀ (j t : Nat), (∃ pre post r, (run p ls t).nodes m = some (.filter f n ch (pre ++ post) r) ∧ pre.length = j ∧
        k ≤ r.totalShutdowns + pre.countP Event.isShutdown) →
      ∃ t', t ≤ t' ∧ ∃ q r, (run p ls t').nodes m = some (.filter f n ch q r) ∧
        (k ≤ r.totalShutdowns ∨ r.finished = true) := by
  intro j
  induction j with
  | zero =>
    rintro t ⟨pre, post, r, h1, h2, h3⟩
    rw [List.length_eq_zero_iff.1 h2] at h3
    exact ⟨t, Nat.le_refl _, _, r, h1, .inl h3⟩
  | succ j ih =>
    intro t hP
    -- one more event is read
    have := ensures (fair := fair)
      (P := fun t => ∃ pre post r, (run p ls t).nodes m = some (.filter f n ch (pre ++ post) r) ∧
        pre.length = j + 1 ∧ k ≤ r.totalShutdowns + pre.countP Event.isShutdown)
      (Q := fun t => (∃ pre post r, (run p ls t).nodes m = some (.filter f n ch (pre ++ post) r) ∧
        pre.length = j ∧ k ≤ r.totalShutdowns + pre.countP Event.isShutdown) ∨
        ∃ q r, (run p ls t).nodes m = some (.filter f n ch q r) ∧ (k ≤ r.totalShutdowns ∨ r.finished = true))
      (by
        rintro t ⟨pre, post, r, h1, h2, h3⟩
        rcases filter_step p _ (ls t) h1 with ⟨g, -⟩ | ⟨e, q0, now, -, g1, g2, g3⟩
        · exact .inl ⟨pre, post ++ arrive p (run p ls t) (ls t) m, r, by rw [run, g, List.append_assoc], h2, h3⟩
        · obtain ⟨a, pre, rfl⟩ : ∃ a pre', pre = a :: pre' := by
            cases pre with
            | nil => simp at h2
            | cons a pre => exact ⟨a, pre, rfl⟩
          simp only [List.cons_append, List.cons.injEq] at g1
          obtain ⟨rfl, rfl⟩ := g1
          refine .inr (.inl ⟨pre, post ++ arrive p (run p ls t) (ls t) m, _, by rw [run, g3, List.append_assoc],
            by simpa using h2, ?_⟩)
          rw [step_total]
          rw [List.countP_cons] at h3
          split <;> simp_all <;> omega)
      (by
        rintro t ⟨now', hl⟩ ⟨pre, post, r, h1, h2, h3⟩
        obtain ⟨a, pre, rfl⟩ : ∃ a pre', pre = a :: pre' := by
          cases pre with
          | nil => simp at h2
          | cons a pre => exact ⟨a, pre, rfl⟩
        rcases filter_step p _ (ls t) h1 with ⟨g, hn⟩ | ⟨e, q0, now, -, g1, g2, g3⟩
        · rcases hn now' hl with h | h
          · simp at h
          · exact .inr ⟨_, r, g, .inr h⟩
        · simp only [List.cons_append, List.cons.injEq] at g1
          obtain ⟨rfl, rfl⟩ := g1
          refine .inl ⟨pre, post ++ arrive p (run p ls t) (ls t) m, _, by rw [run, g3, List.append_assoc],
            by simpa using h2, ?_⟩
          rw [step_total]
          rw [List.countP_cons] at h3
          split <;> simp_all <;> omega) t hP
    obtain ⟨u, hu, hQ | hQ⟩ := this
    · obtain ⟨v, hv, hR⟩ := ih u hQ
      exact ⟨v, by omega, hR⟩
    · exact ⟨u, hu, hQ⟩

/-! ## A sink works off its queue -/

private theorem step_closed {κ : Type} {k : SinkImpl F κ} {n : Nat} {r : SinkRun F κ} {e : Event F} (h1 : r.returned = false)
    (h2 : r.current = some e) (h3 : k.valveOpen r.state = false) :
    r.step k n = { r with state := k.flush r.state, calls := r.calls ++ [.valveFlush r.state] } := by
  simp [SinkRun.step, h1, h2, h3]

private theorem step_open {κ : Type} {k : SinkImpl F κ} {n : Nat} {r : SinkRun F κ} {e : Event F} (h1 : r.returned = false)
    (h2 : r.current = some e) (h3 : k.valveOpen r.state = true) : r.step k n = r.handle k n e := by
  simp [SinkRun.step, h1, h2, h3]

theorem handle_other {κ : Type} (k : SinkImpl F κ) (n : Nat) (r : SinkRun F κ) (e : Event F) (he : e.isShutdown = false) :
    (r.handle k n e).current = none ∧ (r.handle k n e).queue = r.queue ∧ (r.handle k n e).returned = r.returned ∧
      (r.handle k n e).totalShutdowns = r.totalShutdowns := by
  cases e with
  | shutdown => simp [Event.isShutdown] at he
  | timerFlush idx => simp only [SinkRun.handle]; repeat' split
                      all_goals simp
  | _ => simp [SinkRun.handle]

section
variable (p : Setup F) (ls : Nat → Label F) (m : Str) (k : SinkCode F) (n : Nat)

/-- A `Shutdown` in hand is dealt with. -/
theorem sink_stops (fair : ∀ t, ∃ t', t ≤ t' ∧ ∃ now, ls t' = .act m now) (d : Nat) : ∀ (N t : Nat),
    (∃ r, (run p ls t).nodes m = some (.sink k n r) ∧ r.returned = false ∧ r.current = some .shutdown ∧
      k.impl.valveOpen (flushes k.impl N r.state) = true ∧ n ≤ r.totalShutdowns + 1 + d) →
    ∃ t', t ≤ t' ∧ ∃ r, (run p ls t').nodes m = some (.sink k n r) ∧ r.returned = true := by
  induction d with
  | zero =>
    intro N
    induction N with
    | zero =>
      intro t hP
      refine ensures (fair := fair)
        (P := fun t => ∃ r, (run p ls t).nodes m = some (.sink k n r) ∧ r.returned = false ∧ r.current = some .shutdown ∧
          k.impl.valveOpen (flushes k.impl 0 r.state) = true ∧ n ≤ r.totalShutdowns + 1 + 0)
        (Q := fun t => ∃ r, (run p ls t).nodes m = some (.sink k n r) ∧ r.returned = true) ?_ ?_ t hP
      · rintro t ⟨r, h1, h2, h3, h4, h5⟩
        rcases sink_step p _ (ls t) h1 with ⟨g, -⟩ | ⟨-, g⟩
        · exact .inl ⟨_, g, h2, h3, h4, h5⟩
        · refine .inr ⟨_, g, ?_⟩
          simp only [step_open h2 h3 h4, SinkRun.handle]
          rw [if_pos (by omega)]
      · rintro t ⟨now, hl⟩ ⟨r, h1, h2, h3, h4, h5⟩
        rcases sink_step p _ (ls t) h1 with ⟨-, g⟩ | ⟨-, g⟩
        · exact absurd hl (g now)
        · refine ⟨_, g, ?_⟩
          simp only [step_open h2 h3 h4, SinkRun.handle]
          rw [if_pos (by omega)]
    | succ N ih =>
      intro t hP
      have := ensures (fair := fair)
        (P := fun t => ∃ r, (run p ls t).nodes m = some (.sink k n r) ∧ r.returned = false ∧ r.current = some .shutdown ∧
          k.impl.valveOpen (flushes k.impl (N + 1) r.state) = true ∧ n ≤ r.totalShutdowns + 1 + 0)
        (Q := fun t => (∃ r, (run p ls t).nodes m = some (.sink k n r) ∧ r.returned = false ∧ r.current = some .shutdown ∧
          k.impl.valveOpen (flushes k.impl N r.state) = true ∧ n ≤ r.totalShutdowns + 1 + 0) ∨
          ∃ r, (run p ls t).nodes m = some (.sink k n r) ∧ r.returned = true) (by
        rintro t ⟨r, h1, h2, h3, h4, h5⟩
        rcases sink_step p _ (ls t) h1 with ⟨g, -⟩ | ⟨-, g⟩
        · exact .inl ⟨_, g, h2, h3, h4, h5⟩
        · cases hv : k.impl.valveOpen r.state with
          | true =>
            refine .inr (.inr ⟨_, g, ?_⟩)
            simp only [step_open h2 h3 hv, SinkRun.handle]
            rw [if_pos (by omega)]
          | false =>
            rw [step_closed h2 h3 hv] at g
            exact .inr (.inl ⟨_, g, h2, h3, h4, h5⟩)) (by
        rintro t ⟨now, hl⟩ ⟨r, h1, h2, h3, h4, h5⟩
        rcases sink_step p _ (ls t) h1 with ⟨-, g⟩ | ⟨-, g⟩
        · exact absurd hl (g now)
        · cases hv : k.impl.valveOpen r.state with
          | true =>
            refine .inr ⟨_, g, ?_⟩
            simp only [step_open h2 h3 hv, SinkRun.handle]
            rw [if_pos (by omega)]
          | false =>
            rw [step_closed h2 h3 hv] at g
            exact .inl ⟨_, g, h2, h3, h4, h5⟩) t hP
      obtain ⟨u, hu, h | h⟩ := this
      · obtain ⟨v, hv, h⟩ := ih u h
        exact ⟨v, by omega, h⟩
      · exact ⟨u, hu, h⟩
  | succ d ihd =>
    intro N
    induction N with
    | zero =>
      intro t hP
      have := ensures (fair := fair)
        (P := fun t => ∃ r, (run p ls t).nodes m = some (.sink k n r) ∧ r.returned = false ∧ r.current = some .shutdown ∧
          k.impl.valveOpen (flushes k.impl 0 r.state) = true ∧ n ≤ r.totalShutdowns + 1 + (d + 1))
        (Q := fun t => (∃ r, (run p ls t).nodes m = some (.sink k n r) ∧ r.returned = false ∧ r.current = some .shutdown ∧
          k.impl.valveOpen (flushes k.impl 0 r.state) = true ∧ n ≤ r.totalShutdowns + 1 + d) ∨
          ∃ r, (run p ls t).nodes m = some (.sink k n r) ∧ r.returned = true) (by
        rintro t ⟨r, h1, h2, h3, h4, h5⟩
        rcases sink_step p _ (ls t) h1 with ⟨g, -⟩ | ⟨-, g⟩
        · exact .inl ⟨_, g, h2, h3, h4, h5⟩
        · by_cases hn : r.totalShutdowns + 1 ≥ n
          · refine .inr (.inr ⟨_, g, ?_⟩)
            simp only [step_open h2 h3 h4, SinkRun.handle, if_pos hn]
          · simp only [step_open h2 h3 h4, SinkRun.handle, if_neg hn] at g
            exact .inr (.inl ⟨_, g, h2, h3, h4, by simp only; omega⟩)) (by
        rintro t ⟨now, hl⟩ ⟨r, h1, h2, h3, h4, h5⟩
        rcases sink_step p _ (ls t) h1 with ⟨-, g⟩ | ⟨-, g⟩
        · exact absurd hl (g now)
        · by_cases hn : r.totalShutdowns + 1 ≥ n
          · refine .inr ⟨_, g, ?_⟩
            simp only [step_open h2 h3 h4, SinkRun.handle, if_pos hn]
          · simp only [step_open h2 h3 h4, SinkRun.handle, if_neg hn] at g
            exact .inl ⟨_, g, h2, h3, h4, by simp only; omega⟩) t hP
      obtain ⟨u, hu, h | h⟩ := this
      · obtain ⟨v, hv, h⟩ := ihd 0 u h
        exact ⟨v, by omega, h⟩
      · exact ⟨u, hu, h⟩
    | succ N ih =>
      intro t hP
      have := ensures (fair := fair)
        (P := fun t => ∃ r, (run p ls t).nodes m = some (.sink k n r) ∧ r.returned = false ∧ r.current = some .shutdown ∧
          k.impl.valveOpen (flushes k.impl (N + 1) r.state) = true ∧ n ≤ r.totalShutdowns + 1 + (d + 1))
        (Q := fun t => (∃ r, (run p ls t).nodes m = some (.sink k n r) ∧ r.returned = false ∧ r.current = some .shutdown ∧
          k.impl.valveOpen (flushes k.impl N r.state) = true ∧ n ≤ r.totalShutdowns + 1 + (d + 1)) ∨
          (∃ r, (run p ls t).nodes m = some (.sink k n r) ∧ r.returned = false ∧ r.current = some .shutdown ∧
          k.impl.valveOpen (flushes k.impl 0 r.state) = true ∧ n ≤ r.totalShutdowns + 1 + d) ∨
          ∃ r, (run p ls t).nodes m = some (.sink k n r) ∧ r.returned = true) (by
        rintro t ⟨r, h1, h2, h3, h4, h5⟩
        rcases sink_step p _ (ls t) h1 with ⟨g, -⟩ | ⟨-, g⟩
        · exact .inl ⟨_, g, h2, h3, h4, h5⟩
        · cases hv : k.impl.valveOpen r.state with
          | true =>
            by_cases hn : r.totalShutdowns + 1 ≥ n
            · refine .inr (.inr (.inr ⟨_, g, ?_⟩))
              simp only [step_open h2 h3 hv, SinkRun.handle, if_pos hn]
            · simp only [step_open h2 h3 hv, SinkRun.handle, if_neg hn] at g
              exact .inr (.inr (.inl ⟨_, g, h2, h3, hv, by simp only; omega⟩))
          | false =>
            rw [step_closed h2 h3 hv] at g
            exact .inr (.inl ⟨_, g, h2, h3, h4, h5⟩)) (by
        rintro t ⟨now, hl⟩ ⟨r, h1, h2, h3, h4, h5⟩
        rcases sink_step p _ (ls t) h1 with ⟨-, g⟩ | ⟨-, g⟩
        · exact absurd hl (g now)
        · cases hv : k.impl.valveOpen r.state with
          | true =>
            by_cases hn : r.totalShutdowns + 1 ≥ n
            · refine .inr (.inr ⟨_, g, ?_⟩)
              simp only [step_open h2 h3 hv, SinkRun.handle, if_pos hn]
            · simp only [step_open h2 h3 hv, SinkRun.handle, if_neg hn] at g
              exact .inr (.inl ⟨_, g, h2, h3, hv, by simp only; omega⟩)
          | false =>
            rw [step_closed h2 h3 hv] at g
            exact .inl ⟨_, g, h2, h3, h4, h5⟩) t hP
      obtain ⟨u, hu, h | h | h⟩ := this
      · obtain ⟨v, hv, h⟩ := ih u h
        exact ⟨v, by omega, h⟩
      · obtain ⟨v, hv, h⟩ := ihd 0 u h
        exact ⟨v, by omega, h⟩
      · exact ⟨u, hu, h⟩

/-- Anything else in hand is dealt with. -/
theorem sink_handles (fair : ∀ t, ∃ t', t ≤ t' ∧ ∃ now, ls t' = .act m now) (e : Event F) (he : e.isShutdown = false)
    (pre : List (Option (Event F))) : ∀ (N t : Nat),
    (∃ r post, (run p ls t).nodes m = some (.sink k n r) ∧ r.returned = false ∧ r.current = some e ∧
      r.queue = pre ++ post ∧ k.impl.valveOpen (flushes k.impl N r.state) = true) →
    ∃ t', t ≤ t' ∧ ∃ r post, (run p ls t').nodes m = some (.sink k n r) ∧ r.returned = false ∧ r.current = none ∧
      r.queue = pre ++ post := by
  intro N
  induction N with
  | zero =>
    intro t hP
    refine ensures (fair := fair)
      (P := fun t => ∃ r post, (run p ls t).nodes m = some (.sink k n r) ∧ r.returned = false ∧ r.current = some e ∧
        r.queue = pre ++ post ∧ k.impl.valveOpen (flushes k.impl 0 r.state) = true)
      (Q := fun t => ∃ r post, (run p ls t).nodes m = some (.sink k n r) ∧ r.returned = false ∧ r.current = none ∧
        r.queue = pre ++ post) ?_ ?_ t hP
    · rintro t ⟨r, post, h1, h2, h3, h4, h5⟩
      rcases sink_step p _ (ls t) h1 with ⟨g, -⟩ | ⟨-, g⟩
      · exact .inl ⟨_, _, g, h2, h3, by simp only [h4, List.append_assoc]; rfl, h5⟩
      · rw [step_open h2 h3 h5] at g
        obtain ⟨a, b, c, -⟩ := handle_other k.impl n r e he
        exact .inr ⟨_, _, g, c.trans h2, a, by simp only [b, h4, List.append_assoc]; rfl⟩
    · rintro t ⟨now, hl⟩ ⟨r, post, h1, h2, h3, h4, h5⟩
      rcases sink_step p _ (ls t) h1 with ⟨-, g⟩ | ⟨-, g⟩
      · exact absurd hl (g now)
      · rw [step_open h2 h3 h5] at g
        obtain ⟨a, b, c, -⟩ := handle_other k.impl n r e he
        exact ⟨_, _, g, c.trans h2, a, by simp only [b, h4, List.append_assoc]; rfl⟩
  | succ N ih =>
    intro t hP
    have := ensures (fair := fair)
      (P := fun t => ∃ r post, (run p ls t).nodes m = some (.sink k n r) ∧ r.returned = false ∧ r.current = some e ∧
        r.queue = pre ++ post ∧ k.impl.valveOpen (flushes k.impl (N + 1) r.state) = true)
      (Q := fun t => (∃ r post, (run p ls t).nodes m = some (.sink k n r) ∧ r.returned = false ∧ r.current = some e ∧
        r.queue = pre ++ post ∧ k.impl.valveOpen (flushes k.impl N r.state) = true) ∨
        ∃ r post, (run p ls t).nodes m = some (.sink k n r) ∧ r.returned = false ∧ r.current = none ∧
          r.queue = pre ++ post) (by
      rintro t ⟨r, post, h1, h2, h3, h4, h5⟩
      rcases sink_step p _ (ls t) h1 with ⟨g, -⟩ | ⟨-, g⟩
      · exact .inl ⟨_, _, g, h2, h3, by simp only [h4, List.append_assoc]; rfl, h5⟩
      · cases hv : k.impl.valveOpen r.state with
        | true =>
          rw [step_open h2 h3 hv] at g
          obtain ⟨a, b, c, -⟩ := handle_other k.impl n r e he
          exact .inr (.inr ⟨_, _, g, c.trans h2, a, by simp only [b, h4, List.append_assoc]; rfl⟩)
        | false =>
          rw [step_closed h2 h3 hv] at g
          exact .inr (.inl ⟨_, _, g, h2, h3, by simp only [h4, List.append_assoc]; rfl, h5⟩)) (by
      rintro t ⟨now, hl⟩ ⟨r, post, h1, h2, h3, h4, h5⟩
      rcases sink_step p _ (ls t) h1 with ⟨-, g⟩ | ⟨-, g⟩
      · exact absurd hl (g now)
      · cases hv : k.impl.valveOpen r.state with
        | true =>
          rw [step_open h2 h3 hv] at g
          obtain ⟨a, b, c, -⟩ := handle_other k.impl n r e he
          exact .inr ⟨_, _, g, c.trans h2, a, by simp only [b, h4, List.append_assoc]; rfl⟩
        | false =>
          rw [step_closed h2 h3 hv] at g
          exact .inl ⟨_, _, g, h2, h3, by simp only [h4, List.append_assoc]; rfl, h5⟩) t hP
    obtain ⟨u, hu, h | h⟩ := this
    · obtain ⟨v, hv, h⟩ := ih u h
      exact ⟨v, by omega, h⟩
    · exact ⟨u, hu, h⟩

/-- The next event is taken from the queue. -/
theorem sink_takes (fair : ∀ t, ∃ t', t ≤ t' ∧ ∃ now, ls t' = .act m now) (x : Option (Event F))
    (pre : List (Option (Event F))) (t : Nat)
    (hP : ∃ r post, (run p ls t).nodes m = some (.sink k n r) ∧ r.returned = false ∧ r.current = none ∧
      r.queue = (x :: pre) ++ post) :
    ∃ t', t ≤ t' ∧ ∃ r post, (run p ls t').nodes m = some (.sink k n r) ∧ r.returned = false ∧ r.current = x ∧
      r.queue = pre ++ post := by
  refine ensures (fair := fair)
    (P := fun t => ∃ r post, (run p ls t).nodes m = some (.sink k n r) ∧ r.returned = false ∧ r.current = none ∧
      r.queue = (x :: pre) ++ post)
    (Q := fun t => ∃ r post, (run p ls t).nodes m = some (.sink k n r) ∧ r.returned = false ∧ r.current = x ∧
      r.queue = pre ++ post) ?_ ?_ t hP
  · rintro t ⟨r, post, h1, h2, h3, h4⟩
    rcases sink_step p _ (ls t) h1 with ⟨g, -⟩ | ⟨-, g⟩
    · exact .inl ⟨_, _, g, h2, h3, by simp only [h4, List.append_assoc]; rfl⟩
    · have : (r.step k.impl n).returned = false ∧ (r.step k.impl n).current = x ∧ (r.step k.impl n).queue = pre ++ post := by
        simp only [SinkRun.step, h2, h3, h4, List.cons_append]
        cases x <;> simp [h2, h3]
      exact .inr ⟨_, _, g, this.1, this.2.1, by simp only [this.2.2, List.append_assoc]; rfl⟩
  · rintro t ⟨now, hl⟩ ⟨r, post, h1, h2, h3, h4⟩
    rcases sink_step p _ (ls t) h1 with ⟨-, g⟩ | ⟨-, g⟩
    · exact absurd hl (g now)
    · have : (r.step k.impl n).returned = false ∧ (r.step k.impl n).current = x ∧ (r.step k.impl n).queue = pre ++ post := by
        simp only [SinkRun.step, h2, h3, h4, List.cons_append]
        cases x <;> simp [h2, h3]
      exact ⟨_, _, g, this.1, this.2.1, by simp only [this.2.2, List.append_assoc]; rfl⟩

/-- A sink with a `Shutdown` in its queue returns. -/
theorem sink_returns (fair : ∀ t, ∃ t', t ≤ t' ∧ ∃ now, ls t' = .act m now) 
    (hre : ∀ t r, (run p ls t).nodes m = some (.sink k n r) → ∃ N, k.impl.valveOpen (flushes k.impl N r.state) = true)
    (pre : List (Option (Event F))) : ∀ t,
    (∃ r post, (run p ls t).nodes m = some (.sink k n r) ∧ r.returned = false ∧ r.current = none ∧
      r.queue = (pre ++ [some .shutdown]) ++ post) →
    ∃ t', t ≤ t' ∧ ∃ r, (run p ls t').nodes m = some (.sink k n r) ∧ r.returned = true := by
  have stops : ∀ t, (∃ r, (run p ls t).nodes m = some (.sink k n r) ∧ r.returned = false ∧ r.current = some .shutdown) →
      ∃ t', t ≤ t' ∧ ∃ r, (run p ls t').nodes m = some (.sink k n r) ∧ r.returned = true := by
    rintro t ⟨r, h1, h2, h3⟩
    obtain ⟨N, hN⟩ := hre _ r h1
    exact sink_stops p ls m k n fair n N t ⟨r, h1, h2, h3, hN, by omega⟩
  induction pre with
  | nil =>
    intro t hP
    obtain ⟨u, hu, r, post, h1, h2, h3, -⟩ := sink_takes p ls m k n fair (some .shutdown) [] t hP
    obtain ⟨v, hv, h⟩ := stops u ⟨r, h1, h2, h3⟩
    exact ⟨v, by omega, h⟩
  | cons x pre ih =>
    intro t hP
    obtain ⟨u, hu, r, post, h1, h2, h3, h4⟩ := sink_takes p ls m k n fair x (pre ++ [some (Event.shutdown : Event F)]) t hP
    cases x with
    | none =>
      obtain ⟨v, hv, h⟩ := ih u ⟨r, post, h1, h2, h3, h4⟩
      exact ⟨v, by omega, h⟩
    | some e =>
      cases he : e.isShutdown with
      | true =>
        obtain rfl := isShutdown_true he
        obtain ⟨v, hv, h⟩ := stops u ⟨r, h1, h2, h3⟩
        exact ⟨v, by omega, h⟩
      | false =>
        obtain ⟨N, hN⟩ := hre _ r h1
        obtain ⟨v, hv, h⟩ := sink_handles p ls m k n fair e he _ N u ⟨r, post, h1, h2, h3, h4, hN⟩
        obtain ⟨w, hw, h⟩ := ih v h
        exact ⟨w, by omega, h⟩

/-- A sink to which a `Shutdown` is on its way returns. -/
theorem sink_ends (fair : ∀ t, ∃ t', t ≤ t' ∧ ∃ now, ls t' = .act m now) 
    (hre : ∀ t r, (run p ls t).nodes m = some (.sink k n r) → ∃ N, k.impl.valveOpen (flushes k.impl N r.state) = true) (t : Nat)
    (h : ∃ r, (run p ls t).nodes m = some (.sink k n r) ∧
      (r.returned = true ∨ r.current = some .shutdown ∨ some .shutdown ∈ r.queue)) :
    ∃ t', t ≤ t' ∧ ∃ r, (run p ls t').nodes m = some (.sink k n r) ∧ r.returned = true := by
  obtain ⟨r, h1, h2⟩ := h
  cases hr : r.returned with
  | true => exact ⟨t, Nat.le_refl _, r, h1, hr⟩
  | false =>
    rw [hr] at h2
    simp only [Bool.false_eq_true, false_or] at h2
    obtain ⟨N, hN⟩ := hre _ r h1
    cases hc : r.current with
    | none =>
      rcases h2 with h2 | h2
      · rw [hc] at h2; simp at h2
      · obtain ⟨pre, post, hq⟩ := List.append_of_mem h2
        exact sink_returns p ls m k n fair hre pre t ⟨r, post, h1, hr, hc, by rw [hq]; simp⟩
    | some e =>
      cases he : e.isShutdown with
      | true =>
        obtain rfl := isShutdown_true he
        exact sink_stops p ls m k n fair n N t ⟨r, h1, hr, hc, hN, by omega⟩
      | false =>
        rcases h2 with h2 | h2
        · rw [hc] at h2; simp at h2; subst h2; simp [Event.isShutdown] at he
        · obtain ⟨pre, post, hq⟩ := List.append_of_mem h2
          obtain ⟨u, hu, h⟩ := sink_handles p ls m k n fair e he (pre ++ [some .shutdown]) N t
            ⟨r, post, h1, hr, hc, by rw [hq]; simp, hN⟩
          obtain ⟨v, hv, h⟩ := sink_returns p ls m k n fair hre pre u h
          exact ⟨v, by omega, h⟩

end
end Net
end Verif
