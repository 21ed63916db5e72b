import Verif.Lemmas.NetLive
import Verif.Spec.NetFlow
namespace Verif
namespace Net
open Pipeline (FilterCode after)
open Topology (Wiring)
variable {F : Type} [F64 F]

/-- What the wiring is assumed to be like. -/
structure Linked (p : Setup F) : Prop where
  filterNode : ∀ n ups downs, (n, ups, downs) ∈ p.wiring.filters → (initial p).nodes n =
    some (.filter (p.filter n) ups.length downs [] { state := (p.filter n).start })
  sinkNode : ∀ n ups, (n, ups) ∈ p.wiring.sinks → (initial p).nodes n =
    some (.sink (p.sink n) ups.length { state := (p.sink n).start, queue := [] })
  only : ∀ n nd, (initial p).nodes n = some nd →
    (∃ ups downs, (n, ups, downs) ∈ p.wiring.filters) ∨ ∃ ups, (n, ups) ∈ p.wiring.sinks
  ups : ∀ n ups downs, (n, ups, downs) ∈ p.wiring.filters → ups.Nodup ∧ ∀ u ∈ ups,
    (∃ ups' downs', (u, ups', downs') ∈ p.wiring.filters ∧ n ∈ downs') ∨
    ∃ (i : Nat) (downs' : List Str), p.wiring.sources[i]? = some (u, downs') ∧ n ∈ downs'
  apart : ∀ u ups downs (i : Nat) (downs' : List Str), (u, ups, downs) ∈ p.wiring.filters →
    p.wiring.sources[i]? = some (u, downs') → False
  unique : ∀ (u : Str) (i j : Nat) (a b : List Str), p.wiring.sources[i]? = some (u, a) →
    p.wiring.sources[j]? = some (u, b) → i = j

theorem filter_at {p : Setup F} (hL : Linked p) (ls : Nat → Label F) {n ups downs}
    (h : (n, ups, downs) ∈ p.wiring.filters) : ∀ t, ∃ q r,
      (run p ls t).nodes n = some (.filter (p.filter n) ups.length downs q r) ∧
      (r.finished = true ↔ 1 ≤ r.totalShutdowns ∧ ups.length ≤ r.totalShutdowns) := by
  intro t
  induction t with
  | zero => exact ⟨[], _, hL.filterNode n ups downs h, by simp⟩
  | succ t ih =>
    obtain ⟨q, r, h1, h2⟩ := ih
    rcases filter_step p _ (ls t) h1 with ⟨g, -⟩ | ⟨e, q0, now, -, -, g2, g3⟩
    · exact ⟨_, r, g, h2⟩
    · refine ⟨_, _, g3, ?_⟩
      cases hs : e.isShutdown with
      | true => obtain rfl := isShutdown_true hs; simp [FilterRun.step]
      | false =>
        rw [step_total, hs]
        have : (r.step (p.filter n).process ups.length (some (now, e))).finished = r.finished := by
          rw [FilterRun.step_event _ _ r now e hs]; split <;> rfl
        rw [this]
        simpa using h2

theorem sink_at {p : Setup F} (hL : Linked p) (ls : Nat → Label F) {n ups}
    (h : (n, ups) ∈ p.wiring.sinks) : ∀ t, ∃ r,
      (run p ls t).nodes n = some (.sink (p.sink n) ups.length r) ∧
      Reaches (p.sink n).impl (p.sink n).start r.state := by
  intro t
  induction t with
  | zero => exact ⟨_, hL.sinkNode n ups h, .start⟩
  | succ t ih =>
    obtain ⟨r, h1, h2⟩ := ih
    rcases sink_step p _ (ls t) h1 with ⟨g, -⟩ | ⟨-, g⟩
    · exact ⟨_, g, h2⟩
    · exact ⟨_, g, step_reaches _ h2⟩

/-- How many `Shutdown`s the filter has read. -/
def total (s : State F) (n : Str) : Nat := match s.nodes n with
  | some (.filter _ _ _ _ r) => r.totalShutdowns
  | _ => 0

/-- How many `Shutdown`s the filter has read or has in its queue. -/
def got (s : State F) (n : Str) : Nat := match s.nodes n with
  | some (.filter _ _ _ q r) => r.totalShutdowns + q.countP Event.isShutdown
  | _ => 0

/-- A `Shutdown` is in the sink's queue or has been taken from it. -/
def pending (s : State F) (n : Str) : Prop := match s.nodes n with
  | some (.sink _ _ r) => r.returned = true ∨ r.current = some .shutdown ∨ some .shutdown ∈ r.queue
  | _ => False

/-- The filter or source has sent a `Shutdown`. -/
def done (p : Setup F) (s : State F) (u : Str) : Bool :=
  decide (1 ≤ total s u) || s.ended.any fun i => (p.wiring.sources[i]?.map (·.1)) == some u

theorem done_iff (p : Setup F) (s : State F) (u : Str) : done p s u = true ↔
    1 ≤ total s u ∨ ∃ i downs, i ∈ s.ended ∧ p.wiring.sources[i]? = some (u, downs) := by
  simp only [done, Bool.or_eq_true, decide_eq_true_eq, List.any_eq_true, beq_iff_eq, Option.map_eq_some_iff]
  refine or_congr Iff.rfl ⟨?_, ?_⟩
  · rintro ⟨i, h1, ⟨a, b⟩, h2, rfl⟩; exact ⟨i, b, h1, h2⟩
  · rintro ⟨i, b, h1, h2⟩; exact ⟨i, h1, (u, b), h2, rfl⟩

/-! ## Counting `Shutdown`s -/

theorem filter_counts {p : Setup F} {s : State F} (l : Label F) {n : Str} {f : FilterCode F} {k : Nat} {ch : List Str}
    {q : List (Event F)} {r : FilterRun F f.σ} (h : s.nodes n = some (.filter f k ch q r)) :
    total s n ≤ total (step p s l) n ∧
    got (step p s l) n = got s n + (arrive p s l n).countP Event.isShutdown ∧
    (total s n < total (step p s l) n → ∃ now q0, l = .act n now ∧ q = .shutdown :: q0 ∧ r.finished = false) := by
  rcases filter_step p s l h with ⟨g, -⟩ | ⟨e, q0, now, g0, g1, g2, g3⟩
  · simp only [total, got, h, g, List.countP_append]
    exact ⟨Nat.le_refl _, by omega, fun h => absurd h (Nat.lt_irrefl _)⟩
  · simp only [total, got, h, g3, step_total, List.countP_append, g1, List.countP_cons]
    refine ⟨by omega, by omega, ?_⟩
    intro hlt
    refine ⟨now, q0, g0, ?_, g2⟩
    cases hs : e.isShutdown with
    | true => rw [isShutdown_true hs]
    | false => rw [hs] at hlt; simp at hlt

/-- A filter that reads a `Shutdown` sends one to each of its channels. -/
theorem offered_filter {p : Setup F} {s : State F} {n m : Str} {now : Int} {f : FilterCode F} {k : Nat} {ch : List Str}
    {q : List (Event F)} {r : FilterRun F f.σ} (h : s.nodes n = some (.filter f k ch (.shutdown :: q) r))
    (hr : r.finished = false) (hm : m ∈ ch) : .shutdown ∈ offered p s (.act n now) m := by
  simp only [offered, h, Node.act, hr, Bool.false_eq_true, if_false, Node.channels, FilterRun.step,
    List.drop_left]
  simp only [List.flatMap_cons, List.flatMap_nil, List.append_nil]
  exact List.mem_replicate.2 ⟨Nat.pos_iff_ne_zero.1 (List.count_pos_iff.2 hm), rfl⟩

theorem offered_source {p : Setup F} {s : State F} {i : Nat} {u m : Str} {ch : List Str}
    (h : p.wiring.sources[i]? = some (u, ch)) (h1 : i ∈ s.told) (h2 : i ∉ s.ended) (hm : m ∈ ch) :
    .shutdown ∈ offered p s (.stop i) m := by
  simp only [offered, h, h1, h2, not_false_eq_true, and_self, if_true]
  exact List.mem_replicate.2 ⟨Nat.pos_iff_ne_zero.1 (List.count_pos_iff.2 hm), rfl⟩

theorem kept_arrives {p : Setup F} {ls : Nat → Label F} (hk : ShutdownsKept p ls) {t : Nat} {n : Str} (hn : ((run p ls t).nodes n).isSome)
    (h : .shutdown ∈ offered p (run p ls t) (ls t) n) : .shutdown ∈ arrive p (run p ls t) (ls t) n := by
  rcases keep_or_spill (p.full n) ((run p ls t).tries n) h with h | h
  · exact h
  · refine absurd ?_ (hk (t + 1) n (sender (ls t)))
    rw [run, step_lost, hn]
    exact List.mem_append_right _ (by simpa using h)

theorem total_none {s : State F} {u : Str} (h : s.nodes u = none) : total s u = 0 := by simp [total, h]

theorem total_sink {s : State F} {u : Str} {k : SinkCode F} {n r} (h : s.nodes u = some (.sink k n r)) :
    total s u = 0 := by simp [total, h]

/-- Who can have sent its first `Shutdown` in a step. -/
theorem newly_done (p : Setup F) (s : State F) (l : Label F) (u : Str) (h : done p (step p s l) u = true)
    (h' : done p s u = false) :
    (∃ now f k ch q r, l = .act u now ∧ s.nodes u = some (.filter f k ch (.shutdown :: q) r) ∧ r.finished = false) ∨
    ∃ i ch, l = .stop i ∧ p.wiring.sources[i]? = some (u, ch) ∧ i ∈ s.told ∧ i ∉ s.ended := by
  have hn := fun hx => Bool.false_ne_true (h'.symm.trans ((done_iff p s u).2 hx))
  rcases (done_iff p _ u).1 h with h | ⟨i, ch, h1, h2⟩
  · left
    cases hu : s.nodes u with
    | none => rw [total_none (by rw [step_nodes, hu]; rfl)] at h; omega
    | some nd =>
      cases nd with
      | sink k n r =>
        exfalso
        rcases sink_step p s l hu with ⟨g, -⟩ | ⟨-, g⟩
        · rw [total_sink g] at h; omega
        · rw [total_sink g] at h; omega
      | filter f k ch q r =>
        have h0 : total s u = 0 := by
          rcases Nat.eq_zero_or_pos (total s u) with h | h
          · exact h
          · exact absurd (.inl h) hn
        obtain ⟨now, q0, g1, g2, g3⟩ := (filter_counts (p := p) l hu).2.2 (by omega)
        subst g2
        exact ⟨now, f, k, ch, q0, r, g1, rfl, g3⟩
  · right
    rcases step_ended p s l with g | ⟨j, sc, g1, g2, g3, g4, g5⟩
    · rw [g] at h1; exact absurd (.inr ⟨i, ch, h1, h2⟩) hn
    · rw [g5] at h1
      rcases List.mem_cons.1 h1 with rfl | h1
      · exact ⟨i, ch, g1, h2, g3, g4⟩
      · exact absurd (.inr ⟨i, ch, h1, h2⟩) hn

theorem newly_unique {p : Setup F} (hL : Linked p) {s : State F} {l : Label F} {u v : Str}
    (hu : done p (step p s l) u = true) (hu' : done p s u = false)
    (hv : done p (step p s l) v = true) (hv' : done p s v = false) : u = v := by
  rcases newly_done p s l u hu hu' with ⟨now, _, _, _, _, _, h1, _⟩ | ⟨i, _, h1, h2, _⟩
  · rcases newly_done p s l v hv hv' with ⟨now', _, _, _, _, _, g1, _⟩ | ⟨j, _, g1, _⟩
    · rw [h1] at g1; cases g1; rfl
    · rw [h1] at g1; cases g1
  · rcases newly_done p s l v hv hv' with ⟨now', _, _, _, _, _, g1, _⟩ | ⟨j, _, g1, g2, _⟩
    · rw [h1] at g1; cases g1
    · rw [h1] at g1; cases g1; rw [h2] at g2; cases g2; rfl

private theorem countP_new (d d' : Str → Bool) (ups : List Str) (hnd : ups.Nodup)
    (hu : ∀ u v, d' u = true → d u = false → d' v = true → d v = false → u = v) :
    ups.countP d' ≤ ups.countP d + (if ∃ u ∈ ups, d' u = true ∧ d u = false then 1 else 0) := by
  induction ups with
  | nil => simp
  | cons a ups ih =>
    have ih := ih hnd.tail
    have hna : a ∉ ups := (List.nodup_cons.1 hnd).1
    rw [List.countP_cons, List.countP_cons]
    by_cases ha : d' a = true ∧ d a = false
    · have hno : ¬ ∃ u ∈ ups, d' u = true ∧ d u = false := by
        rintro ⟨u, h1, h2, h3⟩
        exact hna (hu a u ha.1 ha.2 h2 h3 ▸ h1)
      rw [if_neg hno] at ih
      have : ∃ u ∈ a :: ups, d' u = true ∧ d u = false := ⟨a, List.mem_cons_self, ha⟩
      rw [if_pos this, ha.1, ha.2]
      simp; omega
    · have hle : (if d' a = true then 1 else 0) ≤ (if d a = true then 1 else 0) := by
        cases h1 : d' a <;> cases h2 : d a <;> simp_all
      by_cases hex : ∃ u ∈ ups, d' u = true ∧ d u = false
      · rw [if_pos hex] at ih
        have : ∃ u ∈ a :: ups, d' u = true ∧ d u = false :=
          hex.elim fun u h => ⟨u, List.mem_cons_of_mem _ h.1, h.2⟩
        rw [if_pos this]; omega
      · rw [if_neg hex] at ih
        omega

/-- A filter has got at least one `Shutdown` from each of its upstreams that has sent one. -/
theorem got_ups {p : Setup F} (hL : Linked p) {ls : Nat → Label F} (hk : ShutdownsKept p ls) {n ups downs}
    (h : (n, ups, downs) ∈ p.wiring.filters) : ∀ t, ups.countP (done p (run p ls t)) ≤ got (run p ls t) n := by
  intro t
  induction t with
  | zero =>
    have : ∀ u ∈ ups, done p (run p ls 0) u = false := by
      intro u hu
      cases hd : done p (run p ls 0) u with
      | false => rfl
      | true =>
        exfalso
        rcases (done_iff p _ u).1 hd with hx | ⟨i, _, hx, _⟩
        · simp only [run, total] at hx
          cases hi : (initial p).nodes u with
          | none => simp [hi] at hx
          | some nd =>
            rcases hL.only u nd hi with ⟨a, b, hm⟩ | ⟨a, hm⟩
            · rw [hL.filterNode u a b hm] at hx; simp at hx
            · rw [hL.sinkNode u a hm] at hx; simp at hx
        · simp [run, initial] at hx
    rw [List.countP_eq_zero.2 (fun u hu => by rw [this u hu]; simp)]
    omega
  | succ t ih =>
    obtain ⟨q, r, h1, -⟩ := filter_at hL ls h t
    obtain ⟨-, g2, -⟩ := filter_counts (p := p) (ls t) h1
    show _ ≤ got (step p (run p ls t) (ls t)) n
    rw [g2]
    have hups := hL.ups n ups downs h
    refine Nat.le_trans (countP_new (done p (run p ls t)) (done p (run p ls (t + 1))) ups hups.1 ?_) ?_
    · intro u v a b c d
      exact newly_unique hL (l := ls t) a b c d
    · split
      · rename_i hex
        obtain ⟨u, hu, h2, h3⟩ := hex
        have : 0 < (arrive p (run p ls t) (ls t) n).countP Event.isShutdown := by
          refine List.countP_pos_iff.2 ⟨.shutdown, kept_arrives hk (by rw [h1]; rfl) ?_, rfl⟩
          rcases newly_done p _ (ls t) u h2 h3 with ⟨now, f, k, ch, q, r, e1, e2, e3⟩ | ⟨i, ch, e1, e2, e3, e4⟩
          · have : n ∈ ch := by
              rcases hups.2 u hu with ⟨a, b, hm, hn⟩ | ⟨j, b, hm, hn⟩
              · obtain ⟨q', r', hx, -⟩ := filter_at hL ls hm t
                rw [e2] at hx; cases hx; exact hn
              · exfalso
                have hback : ∀ t, ((run p ls t).nodes u).isSome → ((initial p).nodes u).isSome := by
                  intro t
                  induction t with
                  | zero => exact id
                  | succ t ih => intro hx; rw [run, step_nodes, Option.isSome_map] at hx; exact ih hx
                obtain ⟨nd, hnd⟩ := Option.isSome_iff_exists.1 (hback t (by rw [e2]; rfl))
                rcases hL.only u nd hnd with ⟨a, b', hm'⟩ | ⟨a, hm'⟩
                · exact hL.apart u a b' j b hm' hm
                · obtain ⟨r', hx, -⟩ := sink_at hL ls hm' t
                  rw [e2] at hx; cases hx
            rw [e1]; exact offered_filter e2 e3 this
          · have : n ∈ ch := by
              rcases hups.2 u hu with ⟨a, b, hm, hn⟩ | ⟨j, b, hm, hn⟩
              · exact absurd e2 (fun e2 => hL.apart u a b i ch hm e2)
              · have := hL.unique u i j _ _ e2 hm
                subst this; rw [e2] at hm; cases hm; exact hn
            rw [e1]; exact offered_source e2 e3 e4 this
        omega
      · omega

/-! ## Stability -/

theorem done_stable {p : Setup F} {s : State F} (l : Label F) {u : Str} (h : done p s u = true) :
    done p (step p s l) u = true := by
  rcases (done_iff p s u).1 h with h | ⟨i, ch, h1, h2⟩
  · refine (done_iff p _ u).2 (.inl ?_)
    cases hu : s.nodes u with
    | none => rw [total_none hu] at h; omega
    | some nd =>
      cases nd with
      | sink k n r => rw [total_sink hu] at h; omega
      | filter f k ch q r => exact Nat.le_trans h (filter_counts (p := p) l hu).1
  · refine (done_iff p _ u).2 (.inr ⟨i, ch, ?_, h2⟩)
    rcases step_ended p s l with g | ⟨j, sc, -, -, -, -, g⟩
    · rw [g]; exact h1
    · rw [g]; exact List.mem_cons_of_mem _ h1

theorem got_stable {p : Setup F} {s : State F} (l : Label F) (n : Str) : got s n ≤ got (step p s l) n := by
  cases hu : s.nodes n with
  | none => simp [got, hu]
  | some nd =>
    cases nd with
    | sink k n r => simp [got, hu]
    | filter f k ch q r => rw [(filter_counts (p := p) l hu).2.1]; omega

theorem sink_run_pending {κ : Type} (k : SinkImpl F κ) (n : Nat) (r : SinkRun F κ)
    (h : r.returned = true ∨ r.current = some .shutdown ∨ some .shutdown ∈ r.queue) :
    (r.step k n).returned = true ∨ (r.step k n).current = some .shutdown ∨ some .shutdown ∈ (r.step k n).queue := by
  cases hr : r.returned with
  | true => left; simp [SinkRun.step, hr]
  | false =>
    rw [hr] at h
    simp only [Bool.false_eq_true, false_or] at h
    simp only [SinkRun.step, hr, Bool.false_eq_true, if_false]
    cases hc : r.current with
    | none =>
      rw [hc] at h
      simp only [reduceCtorEq, false_or] at h
      cases hq : r.queue with
      | nil => rw [hq] at h; simp at h
      | cons x q =>
        rw [hq] at h
        cases x with
        | none => simp only [List.mem_cons, reduceCtorEq, false_or] at h; right; right; exact h
        | some e =>
          rcases List.mem_cons.1 h with h | h
          · right; left; simp only at h ⊢; exact h.symm
          · right; right; exact h
    | some e =>
      rw [hc] at h
      cases hv : k.valveOpen r.state with
      | false => simp only [Bool.false_eq_true, if_false]; right; simpa [hc] using h
      | true =>
        simp only [if_true]
        cases he : e.isShutdown with
        | true =>
          obtain rfl := isShutdown_true he
          simp only [SinkRun.handle]
          split
          · left; rfl
          · right; left; exact hc
        | false =>
          obtain ⟨a, b, c, -⟩ := handle_other k n r e he
          rcases h with h | h
          · simp only [Option.some.injEq] at h; subst h; simp [Event.isShutdown] at he
          · right; right; rw [b]; exact h

theorem pending_stable {p : Setup F} {s : State F} (l : Label F) {n : Str} (h : pending s n) :
    pending (step p s l) n := by
  unfold pending at h ⊢
  cases hu : s.nodes n with
  | none => rw [hu] at h; exact h.elim
  | some nd =>
    cases nd with
    | filter f k ch q r => rw [hu] at h; exact h.elim
    | sink k m r =>
      rw [hu] at h
      simp only at h
      rcases sink_step p s l hu with ⟨g, -⟩ | ⟨-, g⟩
      · rw [g]; simp only
        rcases h with h | h | h
        · exact .inl h
        · exact .inr (.inl h)
        · exact .inr (.inr (List.mem_append_left _ h))
      · rw [g]; simp only
        rcases sink_run_pending k.impl m r h with h | h | h
        · exact .inl h
        · exact .inr (.inl h)
        · exact .inr (.inr (List.mem_append_left _ h))

theorem pending_arrives {p : Setup F} {s : State F} {l : Label F} {n : Str} {k : SinkCode F} {m r}
    (hu : s.nodes n = some (.sink k m r)) (h : .shutdown ∈ arrive p s l n) : pending (step p s l) n := by
  unfold pending
  rcases sink_step p s l hu with ⟨g, -⟩ | ⟨-, g⟩
  · rw [g]; exact .inr (.inr (List.mem_append_right _ (List.mem_map_of_mem h)))
  · rw [g]; exact .inr (.inr (List.mem_append_right _ (List.mem_map_of_mem h)))

/-- Has the thread of the node returned? -/
def gone (s : State F) (n : Str) : Prop := ∃ nd, s.nodes n = some nd ∧ nd.returned = true

theorem gone_stable {p : Setup F} {s : State F} (l : Label F) {n : Str} (h : gone s n) : gone (step p s l) n := by
  obtain ⟨nd, h1, h2⟩ := h
  cases nd with
  | filter f k ch q r =>
    rcases filter_step p s l h1 with ⟨g, -⟩ | ⟨_, _, _, _, _, g, _⟩
    · exact ⟨_, g, h2⟩
    · simp only [Node.returned] at h2; rw [h2] at g; cases g
  | sink k m r =>
    have hs : r.step k.impl m = r := by
      simp only [Node.returned] at h2; simp [SinkRun.step, h2]
    rcases sink_step p s l h1 with ⟨g, -⟩ | ⟨-, g⟩
    · exact ⟨_, g, h2⟩
    · rw [hs] at g; exact ⟨_, g, h2⟩

/-! ## `main` -/

theorem first_time {P : Nat → Prop} (h0 : ¬ P 0) {t : Nat} (ht : P t) : ∃ u, u < t ∧ ¬ P u ∧ P (u + 1) := by
  induction t with
  | zero => exact absurd ht h0
  | succ t ih =>
    by_cases h : P t
    · obtain ⟨u, h1, h2⟩ := ih h; exact ⟨u, by omega, h2⟩
    · exact ⟨t, by omega, h, ht⟩

section
variable {p : Setup F} {ls : Nat → Label F}

/-- `main` starts to shut the sources down. -/
theorem main_stops (hf : ∀ t, ∃ t', t ≤ t' ∧ ls t' = .main) (hsig : ∃ t, ls t = .signal) :
    ∃ t, (run p ls t).main = .stopping p.stopOrder := by
  obtain ⟨t, ht⟩ := hsig
  have past : ∀ t, (run p ls t).main = .waiting ∨ ∃ u, (run p ls u).main = .stopping p.stopOrder := by
    intro t
    induction t with
    | zero => exact .inl rfl
    | succ t ih =>
      rcases ih with h | h
      · by_cases hl : ls t = .main
        · rcases hs : (run p ls t).signalled with _ | _
          · left; simp [run, hl, step, State.mainStep, h, hs]
          · right; exact ⟨t + 1, by simp [run, hl, step, State.mainStep, h, hs]⟩
        · left; rw [run, step_main p _ _ hl]; exact h
      · exact .inr h
  rcases past (t + 1) with h | h
  · have := ensures (fair := hf)
      (P := fun t => (run p ls t).main = .waiting ∧ (run p ls t).signalled = true)
      (Q := fun t => (run p ls t).main = .stopping p.stopOrder) (by
        rintro t ⟨h1, h2⟩
        by_cases hl : ls t = .main
        · right; simp [run, hl, step, State.mainStep, h1, h2]
        · left; exact ⟨by rw [run, step_main p _ _ hl]; exact h1, step_signalled p _ _ h2⟩) (by
        rintro t hl ⟨h1, h2⟩
        simp [run, hl, step, State.mainStep, h1, h2]) (t + 1) ⟨h, by rw [run, ht]; rfl⟩
    exact this.elim fun u h => ⟨u, h.2⟩
  · exact h

theorem ended_stable {s : State F} (l : Label F) {i : Nat} (h : i ∈ s.ended) : i ∈ (step p s l).ended := by
  rcases step_ended p s l with g | ⟨j, sc, -, -, -, -, g⟩
  · rw [g]; exact h
  · rw [g]; exact List.mem_cons_of_mem _ h

/-- `main` gets past a source that gets round to returning. -/
theorem main_passes (hm : ∀ t, ∃ t', t ≤ t' ∧ ls t' = .main) {i : Nat} (hi : i < p.wiring.sources.length)
    (hs : ∀ t, ∃ t', t ≤ t' ∧ ls t' = .stop i) (is : List Nat) (t : Nat) (ht : (run p ls t).main = .stopping (i :: is)) :
    ∃ t', t ≤ t' ∧ (run p ls t').main = .stopping is ∧ i ∈ (run p ls t').ended := by
  -- the source is told
  obtain ⟨u, hu, h⟩ := ensures (fair := hm) (P := fun t => (run p ls t).main = .stopping (i :: is))
    (Q := fun t => ((run p ls t).main = .stopping (i :: is) ∧ i ∈ (run p ls t).told) ∨
      ((run p ls t).main = .stopping is ∧ i ∈ (run p ls t).ended)) (by
      intro t h
      by_cases hl : ls t = .main
      · right
        by_cases h1 : i ∈ (run p ls t).told
        · by_cases h2 : i ∈ (run p ls t).ended
          · right; simp [run, hl, step, State.mainStep, h, h1, h2]
          · left; simp [run, hl, step, State.mainStep, h, h1, h2]
        · left; simp [run, hl, step, State.mainStep, h, h1]
      · left; rw [run, step_main p _ _ hl]; exact h) (by
      intro t hl h
      by_cases h1 : i ∈ (run p ls t).told
      · by_cases h2 : i ∈ (run p ls t).ended
        · right; simp [run, hl, step, State.mainStep, h, h1, h2]
        · left; simp [run, hl, step, State.mainStep, h, h1, h2]
      · left; simp [run, hl, step, State.mainStep, h, h1]) t ht
  -- it returns
  have h : ∃ v, u ≤ v ∧ ((run p ls v).main = .stopping (i :: is) ∧ i ∈ (run p ls v).told ∧ i ∈ (run p ls v).ended ∨
      (run p ls v).main = .stopping is ∧ i ∈ (run p ls v).ended) := by
    rcases h with h | h
    · refine ensures (fair := hs)
        (P := fun t => (run p ls t).main = .stopping (i :: is) ∧ i ∈ (run p ls t).told)
        (Q := fun v => (run p ls v).main = .stopping (i :: is) ∧ i ∈ (run p ls v).told ∧ i ∈ (run p ls v).ended ∨
          (run p ls v).main = .stopping is ∧ i ∈ (run p ls v).ended) ?_ ?_ u h
      · rintro t ⟨h1, h2⟩
        by_cases hl : ls t = .main
        · by_cases h3 : i ∈ (run p ls t).ended
          · right; right; simp [run, hl, step, State.mainStep, h1, h2, h3]
          · left; simp [run, hl, step, State.mainStep, h1, h2, h3]
        · left; exact ⟨by rw [run, step_main p _ _ hl]; exact h1, by rw [run, step_told p _ _ hl]; exact h2⟩
      · rintro t hl ⟨h1, h2⟩
        left
        have hne : ls t ≠ .main := by rw [hl]; simp
        refine ⟨by rw [run, step_main p _ _ hne]; exact h1, by rw [run, step_told p _ _ hne]; exact h2, ?_⟩
        by_cases h3 : i ∈ (run p ls t).ended
        · exact ended_stable _ h3
        · have hget : p.wiring.sources[i]? = some (p.wiring.sources[i]'(hi)) :=
            List.getElem?_eq_getElem _
          simp [run, hl, step, hget, h2, h3]
    · exact ⟨u, Nat.le_refl _, .inr h⟩
  obtain ⟨v, hv, h⟩ := h
  -- `main` goes on
  have h : ∃ w, v ≤ w ∧ (run p ls w).main = .stopping is ∧ i ∈ (run p ls w).ended := by
    rcases h with h | h
    · refine ensures (fair := hm)
        (P := fun t => (run p ls t).main = .stopping (i :: is) ∧ i ∈ (run p ls t).told ∧ i ∈ (run p ls t).ended)
        (Q := fun v => (run p ls v).main = .stopping is ∧ i ∈ (run p ls v).ended) ?_ ?_ v h
      · rintro t ⟨h1, h2, h3⟩
        by_cases hl : ls t = .main
        · right; simp [run, hl, step, State.mainStep, h1, h2, h3]
        · left; exact ⟨by rw [run, step_main p _ _ hl]; exact h1, by rw [run, step_told p _ _ hl]; exact h2,
            ended_stable _ h3⟩
      · rintro t hl ⟨h1, h2, h3⟩
        simp [run, hl, step, State.mainStep, h1, h2, h3]
    · exact ⟨v, Nat.le_refl _, h⟩
  obtain ⟨w, hw, h⟩ := h
  exact ⟨w, by omega, h⟩

/-- `main` shuts all the sources it has handles for down, and gets to joining. -/
theorem main_joins (hm : ∀ t, ∃ t', t ≤ t' ∧ ls t' = .main)
    (hs : ∀ i, i < p.wiring.sources.length → ∀ t, ∃ t', t ≤ t' ∧ ls t' = .stop i) (todo : List Nat)
    (hlt : ∀ i ∈ todo, i < p.wiring.sources.length) : ∀ t, (run p ls t).main = .stopping todo →
    ∃ t', t ≤ t' ∧ (run p ls t').main = .joining p.joinOrder ∧ ∀ i ∈ todo, i ∈ (run p ls t').ended := by
  induction todo with
  | nil =>
    intro t ht
    obtain ⟨u, hu, h⟩ := ensures (fair := hm) (P := fun t => (run p ls t).main = .stopping [])
      (Q := fun t => (run p ls t).main = .joining p.joinOrder) (by
        intro t h
        by_cases hl : ls t = .main
        · right; simp [run, hl, step, State.mainStep, h]
        · left; rw [run, step_main p _ _ hl]; exact h) (by
        intro t hl h
        simp [run, hl, step, State.mainStep, h]) t ht
    exact ⟨u, hu, h, by simp⟩
  | cons i is ih =>
    intro t ht
    obtain ⟨w, hw, h1, h2⟩ := main_passes hm (hlt i List.mem_cons_self) (hs i (hlt i List.mem_cons_self)) is t ht
    obtain ⟨x, hx, h3, h4⟩ := ih (fun j hj => hlt j (List.mem_cons_of_mem _ hj)) w h1
    refine ⟨x, by omega, h3, ?_⟩
    intro j hj
    rcases List.mem_cons.1 hj with rfl | hj
    · exact stable (P := fun t => j ∈ (run p ls t).ended) (fun t h => ended_stable _ h) h2 hx
    · exact h4 j hj

/-- Once all nodes have returned, `main` does. -/
theorem main_exits (hm : ∀ t, ∃ t', t ≤ t' ∧ ls t' = .main) (todo : List Str) : ∀ t,
    (∀ n ∈ todo, gone (run p ls t) n) → (run p ls t).main = .joining todo →
    ∃ t', t ≤ t' ∧ (run p ls t').main = .exited := by
  induction todo with
  | nil =>
    intro t _ ht
    refine ensures (fair := hm) (P := fun t => (run p ls t).main = .joining [])
      (Q := fun t => (run p ls t).main = .exited) ?_ ?_ t ht
    · intro t h
      by_cases hl : ls t = .main
      · right; simp [run, hl, step, State.mainStep, h]
      · left; rw [run, step_main p _ _ hl]; exact h
    · intro t hl h
      simp [run, hl, step, State.mainStep, h]
  | cons n ns ih =>
    intro t hg ht
    have hfwd : ∀ t, ls t = .main → (run p ls t).main = .joining (n :: ns) → gone (run p ls t) n →
        (run p ls (t + 1)).main = .joining ns := by
      rintro t hl h1 ⟨nd, h2, h3⟩
      simp [run, hl, step, State.mainStep, h1, h2, h3]
    obtain ⟨u, hu, h⟩ := ensures (fair := hm)
      (P := fun t => (run p ls t).main = .joining (n :: ns) ∧ gone (run p ls t) n)
      (Q := fun t => (run p ls t).main = .joining ns) (by
        rintro t ⟨h1, h2⟩
        by_cases hl : ls t = .main
        · exact .inr (hfwd t hl h1 h2)
        · left; exact ⟨by rw [run, step_main p _ _ hl]; exact h1, gone_stable _ h2⟩) (by
        rintro t hl ⟨h1, h2⟩; exact hfwd t hl h1 h2) t ⟨ht, hg n List.mem_cons_self⟩
    obtain ⟨v, hv, h⟩ := ih u (fun m hm => stable (P := fun t => gone (run p ls t) m) (fun t h => gone_stable _ h)
      (hg m (List.mem_cons_of_mem _ hm)) hu) h
    exact ⟨v, by omega, h⟩

/-! ## Exit -/

/-- In the wiring: a source that is shut down sends to the node, or a filter that is fed does. -/
inductive FedW (p : Setup F) : Str → Prop where
  | source (i : Nat) (u : Str) (ch : List Str) (n : Str) : i ∈ p.stopOrder → p.wiring.sources[i]? = some (u, ch) →
      n ∈ ch → FedW p n
  | filter (f : Str) (ups ch : List Str) (n : Str) : (f, ups, ch) ∈ p.wiring.filters → FedW p f → n ∈ ch → FedW p n

/-- A `Shutdown` has reached the node. -/
def reached (s : State F) (n : Str) : Prop := 1 ≤ got s n ∨ pending s n

theorem reached_stable {s : State F} (l : Label F) {n : Str} (h : reached s n) : reached (step p s l) n :=
  h.elim (fun h => .inl (Nat.le_trans h (got_stable l n))) (fun h => .inr (pending_stable l h))

theorem reached_arrives (hL : Linked p) (hk : ShutdownsKept p ls) (t : Nat) {n : Str}
    (hn : (∃ ups downs, (n, ups, downs) ∈ p.wiring.filters) ∨ ∃ ups, (n, ups) ∈ p.wiring.sinks)
    (h : .shutdown ∈ offered p (run p ls t) (ls t) n) : reached (run p ls (t + 1)) n := by
  rcases hn with ⟨ups, downs, hn⟩ | ⟨ups, hn⟩
  · left
    obtain ⟨q, r, h1, -⟩ := filter_at hL ls hn t
    have h := kept_arrives hk (by rw [h1]; rfl) h
    rw [run, (filter_counts (p := p) (ls t) h1).2.1]
    have := List.countP_pos_iff.2 ⟨_, h, (rfl : Event.isShutdown (.shutdown : Event F) = true)⟩
    omega
  · right
    obtain ⟨r, h1, -⟩ := sink_at hL ls hn t
    exact pending_arrives h1 (kept_arrives hk (by rw [h1]; rfl) h)

/-- A filter reads what it has got, or has returned. -/
theorem filter_total' (hL : Linked p) {n ups downs} (h : (n, ups, downs) ∈ p.wiring.filters)
    (hnode : ∀ t, ∃ t', t ≤ t' ∧ ∃ now, ls t' = .act n now) (k t : Nat) (hk : k ≤ got (run p ls t) n) :
    ∃ t', t ≤ t' ∧ (k ≤ total (run p ls t') n ∨ (1 ≤ total (run p ls t') n ∧ ups.length ≤ total (run p ls t') n)) := by
  obtain ⟨q, r, h1, -⟩ := filter_at hL ls h t
  simp only [got, h1] at hk
  obtain ⟨t', ht', q', r', g1, g2⟩ := filter_reads p ls n hnode _ _ _ k q.length t
    ⟨q, [], r, by simpa using h1, rfl, hk⟩
  refine ⟨t', ht', ?_⟩
  obtain ⟨q2, r2, g3, g4⟩ := filter_at hL ls h t'
  rw [g1] at g3
  cases g3
  simp only [total, g1]
  rcases g2 with g2 | g2
  · exact .inl g2
  · exact .inr (g4.1 g2)

/-- What a source that returns sends. -/
theorem source_reaches (hL : Linked p) (hk : ShutdownsKept p ls) {i : Nat} {u n : Str} {ch : List Str}
    (hn : (∃ ups downs, (n, ups, downs) ∈ p.wiring.filters) ∨ ∃ ups, (n, ups) ∈ p.wiring.sinks)
    (hend : ∃ t, i ∈ (run p ls t).ended) (h2 : p.wiring.sources[i]? = some (u, ch)) (h3 : n ∈ ch) : ∃ t, reached (run p ls t) n := by
  obtain ⟨t, ht⟩ := hend
  obtain ⟨v, -, hv1, hv2⟩ := first_time (P := fun t => i ∈ (run p ls t).ended) (by simp [run, initial]) ht
  rcases step_ended p (run p ls v) (ls v) with g | ⟨j, sc, g1, g2, g3, g4, g5⟩
  · simp only [run] at hv2; rw [g] at hv2; exact absurd hv2 hv1
  · simp only [run] at hv2
    rw [g5] at hv2
    rcases List.mem_cons.1 hv2 with rfl | hv2
    · refine ⟨v + 1, reached_arrives hL hk v hn ?_⟩
      rw [g1]; exact offered_source h2 g3 g4 h3
    · exact absurd hv2 hv1

/-- What a filter that has read a `Shutdown` has sent. -/
theorem total_reaches (hL : Linked p) (hk : ShutdownsKept p ls) {f n : Str} {ups ch : List Str}
    (hn : (∃ ups downs, (n, ups, downs) ∈ p.wiring.filters) ∨ ∃ ups, (n, ups) ∈ p.wiring.sinks)
    (h1 : (f, ups, ch) ∈ p.wiring.filters) {t' : Nat} (h4 : 1 ≤ total (run p ls t') f) (h3 : n ∈ ch) : ∃ t, reached (run p ls t) n := by
  obtain ⟨v, -, hv1, hv2⟩ := first_time (P := fun t => 1 ≤ total (run p ls t) f)
    (by simp only [run, total, hL.filterNode f ups ch h1]; omega) h4
  obtain ⟨q, r, g, -⟩ := filter_at hL ls h1 v
  obtain ⟨now, q0, e1, e2, e3⟩ := (filter_counts (p := p) (ls v) g).2.2 (by
    simp only [run] at hv2; omega)
  refine ⟨v + 1, reached_arrives hL hk v hn ?_⟩
  subst e2
  rw [e1]; exact offered_filter g e3 h3

/-- What a filter that a `Shutdown` has reached sends, if it gets its turn. -/
theorem filter_reaches (hL : Linked p) (hk : ShutdownsKept p ls) {f n : Str} {ups ch : List Str}
    (hn : (∃ ups downs, (n, ups, downs) ∈ p.wiring.filters) ∨ ∃ ups, (n, ups) ∈ p.wiring.sinks)
    (h1 : (f, ups, ch) ∈ p.wiring.filters) (hnode : ∀ t, ∃ t', t ≤ t' ∧ ∃ now, ls t' = .act f now)
    (hf : ∃ t, reached (run p ls t) f) (h3 : n ∈ ch) : ∃ t, reached (run p ls t) n := by
  obtain ⟨t, ht⟩ := hf
  have hgot : 1 ≤ got (run p ls t) f := by
    rcases ht with ht | ht
    · exact ht
    · obtain ⟨q, r, g, -⟩ := filter_at hL ls h1 t
      simp only [pending, g] at ht
  obtain ⟨t', -, h4⟩ := filter_total' hL h1 hnode 1 t hgot
  exact total_reaches hL hk hn h1 (t' := t') (by omega) h3

/-- A sink that a `Shutdown` has reached returns, if it gets its turn and its valve opens. -/
theorem sink_gone (hL : Linked p) {n : Str} {ups : List Str} (hn : (n, ups) ∈ p.wiring.sinks)
    (hnode : ∀ t, ∃ t', t ≤ t' ∧ ∃ now, ls t' = .act n now) (hre : ValveReopens p ls n) (h : ∃ t, reached (run p ls t) n) :
    ∃ t, gone (run p ls t) n := by
  obtain ⟨t, ht⟩ := h
  obtain ⟨r, g, -⟩ := sink_at hL ls hn t
  have ht : pending (run p ls t) n := by
    rcases ht with ht | ht
    · simp [got, g] at ht
    · exact ht
  simp only [pending, g] at ht
  obtain ⟨v, -, r', h3, h4⟩ := sink_ends p ls n (p.sink n) ups.length hnode (fun t r h => hre t _ r h) t ⟨r, g, ht⟩
  exact ⟨v, _, h3, h4⟩

variable (hL : Linked p) (hk : ShutdownsKept p ls)
  (hnode : ∀ n, n ∈ p.wiring.sinks.map (·.1) ++ p.wiring.filters.map (·.1) →
    ∀ t, ∃ t', t ≤ t' ∧ ∃ now, ls t' = .act n now)
include hL hnode

/-- A filter reads what it has got, or has returned. -/
theorem filter_total {n ups downs} (h : (n, ups, downs) ∈ p.wiring.filters) (k t : Nat) (hk : k ≤ got (run p ls t) n) :
    ∃ t', t ≤ t' ∧ (k ≤ total (run p ls t') n ∨ (1 ≤ total (run p ls t') n ∧ ups.length ≤ total (run p ls t') n)) :=
  filter_total' hL h (hnode n (List.mem_append_right _ (List.mem_map.2 ⟨_, h, rfl⟩))) k t hk

include hk in
theorem fed_reached (hchan : ∀ n, FedW p n → (∃ ups downs, (n, ups, downs) ∈ p.wiring.filters) ∨ ∃ ups, (n, ups) ∈ p.wiring.sinks)
    (hend : ∀ i ∈ p.stopOrder, ∃ t, i ∈ (run p ls t).ended) {n : Str} (h : FedW p n) :
    ∃ t, reached (run p ls t) n := by
  induction h with
  | source i u ch n h1 h2 h3 => exact source_reaches hL hk (hchan n (.source i u ch n h1 h2 h3)) (hend i h1) h2 h3
  | filter f ups ch n h1 h2 h3 ih =>
    exact filter_reaches hL hk (hchan n (.filter f ups ch n h1 h2 h3)) h1 (hnode f (List.mem_append_right _ (List.mem_map.2 ⟨_, h1, rfl⟩))) ih h3

include hk in
/-- If everything is fed, the process exits. -/
theorem exits (hm : ∀ t, ∃ t', t ≤ t' ∧ ls t' = .main)
    (hs : ∀ i, i < p.wiring.sources.length → ∀ t, ∃ t', t ≤ t' ∧ ls t' = .stop i)
    (hsig : ∃ t, ls t = .signal)
    (hchan : ∀ n, FedW p n → (∃ ups downs, (n, ups, downs) ∈ p.wiring.filters) ∨ ∃ ups, (n, ups) ∈ p.wiring.sinks)
    (hstop : ∀ i, i ∈ p.stopOrder ↔ i < p.wiring.sources.length)
    (hjoin : ∀ n, n ∈ p.joinOrder ↔ n ∈ p.wiring.sinks.map (·.1) ++ p.wiring.filters.map (·.1))
    (hre : ∀ n ∈ p.wiring.sinks.map (·.1), ValveReopens p ls n)
    (hfed : ∀ n, n ∈ p.wiring.sinks.map (·.1) ++ p.wiring.filters.map (·.1) → FedW p n) :
    ∃ t, (run p ls t).main = .exited := by
  obtain ⟨t0, h0⟩ := main_stops (p := p) hm hsig
  obtain ⟨t1, ht1, h1, h2⟩ := main_joins hm hs p.stopOrder (fun i hi => (hstop i).1 hi) t0 h0
  have hreach : ∀ {n}, FedW p n → ∃ t, reached (run p ls t) n :=
    fun h => fed_reached hL hk hnode hchan (fun i hi => ⟨t1, h2 i hi⟩) h
  -- every filter reads a `Shutdown`
  have htot : ∀ f ups ch, (f, ups, ch) ∈ p.wiring.filters → ∃ t, done p (run p ls t) f = true := by
    intro f ups ch hf
    obtain ⟨t, ht⟩ := hreach (hfed f (List.mem_append_right _ (List.mem_map.2 ⟨_, hf, rfl⟩)))
    have hgot : 1 ≤ got (run p ls t) f := by
      rcases ht with ht | ht
      · exact ht
      · obtain ⟨q, r, g, -⟩ := filter_at hL ls hf t
        simp only [pending, g] at ht
    obtain ⟨t', -, h4⟩ := filter_total hL hnode hf 1 t hgot
    exact ⟨t', (done_iff p _ f).2 (.inl (by omega))⟩
  -- every filter returns
  have hfil : ∀ f ups ch, (f, ups, ch) ∈ p.wiring.filters → ∃ t, gone (run p ls t) f := by
    intro f ups ch hf
    obtain ⟨t, ht⟩ := together ups (P := fun u t => done p (run p ls t) u = true) (fun u t h => done_stable _ h) (by
      intro u hu
      rcases (hL.ups f ups ch hf).2 u hu with ⟨a, b, hm', -⟩ | ⟨i, b, hm', -⟩
      · exact htot u a b hm'
      · refine ⟨t1, (done_iff p _ u).2 (.inr ⟨i, b, h2 i ((hstop i).2 ?_), hm'⟩)⟩
        exact (List.getElem?_eq_some_iff.1 hm').1)
    have hcnt : ups.length ≤ got (run p ls t) f := by
      have := got_ups hL hk hf t
      rwa [List.countP_eq_length.2 ht] at this
    obtain ⟨t', hr⟩ := hreach (hfed f (List.mem_append_right _ (List.mem_map.2 ⟨_, hf, rfl⟩)))
    have hgot : 1 ≤ got (run p ls t') f := by
      rcases hr with ht | ht
      · exact ht
      · obtain ⟨q, r, g, -⟩ := filter_at hL ls hf t'
        simp only [pending, g] at ht
    have hst : ∀ k {t u}, k ≤ got (run p ls t) f → t ≤ u → k ≤ got (run p ls u) f := fun k t u h htu =>
      stable (P := fun t => k ≤ got (run p ls t) f) (fun t h => Nat.le_trans h (got_stable _ f)) h htu
    have hmax : max 1 ups.length ≤ got (run p ls (max t t')) f := by
      have := hst _ hcnt (Nat.le_max_left t t')
      have := hst _ hgot (Nat.le_max_right t t')
      omega
    obtain ⟨v, -, hv⟩ := filter_total hL hnode hf _ _ hmax
    obtain ⟨q, r, g1, g2⟩ := filter_at hL ls hf v
    simp only [total, g1] at hv
    exact ⟨v, _, g1, g2.2 (by omega)⟩
  have hsnk : ∀ n ups, (n, ups) ∈ p.wiring.sinks → ∃ t, gone (run p ls t) n := by
    intro n ups hn
    exact sink_gone hL hn (hnode n (List.mem_append_left _ (List.mem_map.2 ⟨_, hn, rfl⟩))) (hre n (List.mem_map.2 ⟨_, hn, rfl⟩))
      (hreach (hfed n (List.mem_append_left _ (List.mem_map.2 ⟨_, hn, rfl⟩))))
  obtain ⟨t, ht⟩ := together p.joinOrder (P := fun n t => gone (run p ls t) n) (fun n t h => gone_stable _ h) (by
    intro n hn
    rcases List.mem_append.1 ((hjoin n).1 hn) with h | h
    · obtain ⟨⟨a, b⟩, h', rfl⟩ := List.mem_map.1 h
      exact hsnk a b h'
    · obtain ⟨⟨a, b, c⟩, h', rfl⟩ := List.mem_map.1 h
      exact hfil a b c h')
  -- `main` is joining, or further
  have hmain : ∀ d, (∃ u, (run p ls u).main = .exited) ∨ ∃ todo, (run p ls (t1 + d)).main = .joining todo ∧
      ∀ n ∈ todo, n ∈ p.joinOrder := by
    intro d
    induction d with
    | zero => exact .inr ⟨_, h1, fun n h => h⟩
    | succ d ih =>
      rcases ih with ih | ⟨todo, ih1, ih2⟩
      · exact .inl ih
      · by_cases hl : ls (t1 + d) = .main
        · cases todo with
          | nil =>
            left
            exact ⟨t1 + d + 1, by simp [run, hl, step, State.mainStep, ih1]⟩
          | cons n ns =>
            right
            rw [show t1 + (d + 1) = t1 + d + 1 from rfl, run, hl]
            simp only [step, State.mainStep, ih1]
            cases hn : (run p ls (t1 + d)).nodes n with
            | none => exact ⟨ns, rfl, fun m hm => ih2 m (List.mem_cons_of_mem _ hm)⟩
            | some nd =>
              by_cases hr : nd.returned = true
              · exact ⟨ns, by simp [hr], fun m hm => ih2 m (List.mem_cons_of_mem _ hm)⟩
              · exact ⟨n :: ns, by simp [hr, ih1], ih2⟩
        · right
          exact ⟨todo, by rw [show t1 + (d + 1) = t1 + d + 1 from rfl, run, step_main p _ _ hl]; exact ih1, ih2⟩
  rcases hmain (max t t1 - t1) with h | ⟨todo, h3, h4⟩
  · exact h
  · have he : t1 + (max t t1 - t1) = max t t1 := by omega
    rw [he] at h3
    obtain ⟨u, -, hu⟩ := main_exits hm todo (max t t1) (fun n hn =>
      stable (P := fun t => gone (run p ls t) n) (fun t h => gone_stable _ h) (ht n (h4 n hn)) (Nat.le_max_left _ _)) h3
    exact ⟨u, hu⟩

end

section
variable {p : Setup F} {ls : Nat → Label F}
theorem valve_of_reopens (hL : Linked p) {n : Str} {ups : List Str} (h : (n, ups) ∈ p.wiring.sinks) (hre : Reopens (p.sink n).impl (p.sink n).start) :
    ValveReopens p ls n := by
  intro t m r hr
  obtain ⟨r3, c1, c2⟩ := sink_at hL ls h t
  rw [hr] at c1
  simp only [Option.some.injEq, Node.sink.injEq, heq_eq_eq, true_and] at c1
  obtain ⟨-, rfl⟩ := c1
  exact hre _ c2

end
end Net
end Verif
