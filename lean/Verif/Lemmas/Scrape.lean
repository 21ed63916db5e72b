import Verif.Spec.Scrape
/-! # Lemmas about scraping -/
namespace Verif
namespace Scrape
open Prometheus
section
variable {F : Type} [F64 F]

theorem prom_run_append (ext : Ext F) (os os' : List (Op F)) : ∀ a : Aggr F,
    Prometheus.run ext a (os ++ os') = (Prometheus.run ext a os).bind fun b => Prometheus.run ext b os' := by
  induction os with
  | nil => intro a; rfl
  | cons o os ih =>
    intro a
    cases o with
    | insert t =>
      simp only [List.cons_append, Prometheus.run]
      cases a.insert ext t with
      | none => rfl
      | some x => exact ih _
    | purge now => exact ih _

def holding : SinkPhase F → Bool
  | .inserting _ | .purging .. => true
  | _ => false

def writes : ServerPhase → Bool
  | .writing _ => true
  | _ => false

/-- The lock, and what the aggregation holds after a history. -/
structure Good (p : Setup F) (h : List (Op F)) (s : State F) : Prop where
  aggr : s.poisoned = false → Prometheus.run p.ext (Aggr.new p.capacity) h = some s.aggr
  sink : holding s.sink = true ↔ s.holder = .sink
  server : writes s.server = true ↔ s.holder = .server
  poison : s.poisoned = true → s.holder = .nobody

theorem Good.start (p : Setup F) (bound : Bool) : Good p [] (State.start p bound) := by
  cases bound <;> constructor <;> simp [State.start, Prometheus.run, holding, writes]

theorem order_perm {α : Type} (data : List α) (order : List Nat) (h : order.Perm (List.range data.length)) :
    (order.filterMap fun i => data[i]?).Perm data := by
  have h1 := h.filterMap fun i => data[i]?
  refine h1.trans (List.Perm.of_eq ?_)
  clear h1 h
  induction data with
  | nil => rfl
  | cons x xs ih =>
    rw [List.length_cons, List.range_succ_eq_map, List.filterMap_cons, List.filterMap_map]
    simp only [List.getElem?_cons_zero]
    congr 1

/-- The lock is taken, or was poisoned. -/
theorem lock_good {p : Setup F} {h : List (Op F)} {s s' : State F} {phase : SinkPhase F} (g : Good p h s) (hp : holding phase = true)
    (hi : s.sink = .idle) (hs : s.lock phase = some s') : Good p h s' ∧ s'.answers = s.answers := by
  simp only [State.lock] at hs
  by_cases hpo : s.poisoned = true
  · rw [if_pos hpo, Option.some.injEq] at hs
    subst hs
    refine ⟨⟨g.aggr, ?_, g.server, g.poison⟩, rfl⟩
    simp [holding, g.poison hpo]
  · rw [if_neg hpo] at hs
    by_cases hh : s.holder = .nobody
    · rw [if_pos hh, Option.some.injEq] at hs
      subst hs
      refine ⟨⟨g.aggr, by simp [hp], ?_, fun e => absurd e hpo⟩, rfl⟩
      have := g.server
      rw [hh] at this
      simpa using this
    · rw [if_neg hh] at hs; cases hs

theorem Good.step {p : Setup F} {h : List (Op F)} {s s' : State F} (g : Good p h s) (l : Label F) (hs : step p s l = some s') :
    Good p (h ++ opOf s l) s' ∧ (s'.answers = s.answers ∨
      ∃ r body, s'.answers = s.answers ++ [(r, body)] ∧ ∀ text, body = some text → Tells p (h ++ opOf s l) text) := by
  cases l with
  | deliver now t =>
    simp only [Scrape.step] at hs
    cases hk : s.sink with
    | idle =>
      simp only [hk] at hs
      simp only [opOf, List.append_nil]
      split at hs
      · obtain ⟨a, b⟩ := lock_good g rfl hk hs; exact ⟨a, .inl b⟩
      · simp only [Option.some.injEq] at hs; subst hs; exact ⟨g, .inl rfl⟩
    | _ => simp [hk] at hs
  | flush now =>
    simp only [Scrape.step] at hs
    cases hk : s.sink with
    | idle =>
      simp only [hk] at hs
      simp only [opOf, List.append_nil]
      obtain ⟨a, b⟩ := lock_good g rfl hk hs; exact ⟨a, .inl b⟩
    | _ => simp [hk] at hs
  | shutdown now =>
    simp only [Scrape.step] at hs
    cases hk : s.sink with
    | idle =>
      simp only [hk] at hs
      simp only [opOf, List.append_nil]
      obtain ⟨a, b⟩ := lock_good g rfl hk hs; exact ⟨a, .inl b⟩
    | _ => simp [hk] at hs
  | finish =>
    simp only [Scrape.step] at hs
    have hpo : holding s.sink = true → s.poisoned = false := by
      intro hh
      cases hp : s.poisoned with
      | false => rfl
      | true => have := g.poison hp; rw [g.sink.1 hh] at this; cases this
    have hsv : holding s.sink = true → writes s.server = false := by
      intro hh
      cases hw : writes s.server with
      | false => rfl
      | true => have := g.server.1 hw; rw [g.sink.1 hh] at this; cases this
    cases hk : s.sink with
    | inserting t =>
      have hh : holding s.sink = true := by simp [hk, holding]
      simp only [hk] at hs
      simp only [opOf, hk]
      cases hi : s.aggr.insert p.ext t with
      | none =>
        simp only [hi, Option.some.injEq] at hs
        subst hs
        exact ⟨⟨by simp, by simp [holding], by simp [hsv hh], by simp⟩, .inl rfl⟩
      | some x =>
        obtain ⟨a, b⟩ := x
        simp only [hi, Option.some.injEq] at hs
        subst hs
        refine ⟨⟨?_, by simp [holding], by simp [hsv hh], by simp⟩, .inl rfl⟩
        intro _
        rw [prom_run_append, g.aggr (hpo hh)]
        simp [Prometheus.run, hi]
    | purging now stop =>
      have hh : holding s.sink = true := by simp [hk, holding]
      simp only [hk] at hs
      simp only [opOf, hk]
      have hrun : Prometheus.run p.ext (Aggr.new p.capacity) (h ++ [.purge now]) = some (s.aggr.purge now).1 := by
        rw [prom_run_append, g.aggr (hpo hh)]
        simp [Prometheus.run]
      cases stop <;>
      · simp only [Bool.false_eq_true, if_false, if_true, Option.some.injEq] at hs
        subst hs
        exact ⟨⟨fun _ => hrun, by simp [holding], by simp [hsv hh], by simp⟩, .inl rfl⟩
    | _ => simp [hk] at hs
  | join =>
    simp only [Scrape.step] at hs
    simp only [opOf, List.append_nil]
    cases hk : s.sink with
    | stopping =>
      have hns := g.sink
      rw [hk] at hns
      cases hv : s.server with
      | ended =>
        simp only [hk, hv, Option.some.injEq] at hs
        subst hs
        exact ⟨⟨g.aggr, by simpa [holding] using hns, by have := g.server; rwa [hv] at this, g.poison⟩, .inl rfl⟩
      | panicked =>
        simp only [hk, hv, Option.some.injEq] at hs
        subst hs
        exact ⟨⟨g.aggr, by simpa [holding] using hns, by have := g.server; rwa [hv] at this, g.poison⟩, .inl rfl⟩
      | _ => simp [hk, hv] at hs
    | _ => simp [hk] at hs
  | request =>
    simp only [Scrape.step, Option.some.injEq] at hs
    subst hs
    rw [show h ++ opOf s .request = h by simp [opOf]]
    exact ⟨⟨g.aggr, g.sink, g.server, g.poison⟩, .inl rfl⟩
  | poll =>
    simp only [Scrape.step] at hs
    simp only [opOf, List.append_nil]
    cases hv : s.server with
    | polling =>
      have hns := g.server
      rw [hv] at hns
      simp only [hv, Option.some.injEq] at hs
      subst hs
      refine ⟨⟨g.aggr, g.sink, ?_, g.poison⟩, .inl rfl⟩
      cases s.system <;> simpa [writes] using hns
    | _ => simp [hv] at hs
  | recv =>
    simp only [Scrape.step] at hs
    simp only [opOf, List.append_nil]
    cases hv : s.server with
    | receiving =>
      have hns := g.server
      rw [hv] at hns
      simp only [hv] at hs
      split at hs <;>
      · simp only [Option.some.injEq] at hs
        subst hs
        exact ⟨⟨g.aggr, g.sink, by simpa [writes] using hns, g.poison⟩, .inl rfl⟩
    | _ => simp [hv] at hs
  | fail =>
    simp only [Scrape.step] at hs
    simp only [opOf, List.append_nil]
    cases hv : s.server with
    | polling =>
      have hns := g.server
      rw [hv] at hns
      simp only [hv, Option.some.injEq] at hs
      subst hs
      exact ⟨⟨g.aggr, g.sink, by simpa [writes] using hns, g.poison⟩, .inl rfl⟩
    | receiving =>
      have hns := g.server
      rw [hv] at hns
      simp only [hv, Option.some.injEq] at hs
      subst hs
      exact ⟨⟨g.aggr, g.sink, by simpa [writes] using hns, g.poison⟩, .inl rfl⟩
    | _ => simp [hv] at hs
  | tryLock =>
    simp only [Scrape.step] at hs
    simp only [opOf, List.append_nil]
    cases hv : s.server with
    | handling r =>
      have hns := g.server
      rw [hv] at hns
      simp only [hv] at hs
      split at hs
      · simp only [Option.some.injEq] at hs
        subst hs
        exact ⟨⟨g.aggr, g.sink, by simpa [writes] using hns, g.poison⟩, .inr ⟨r, none, rfl, by simp⟩⟩
      · rename_i hc
        simp only [not_or, Classical.not_not, Bool.not_eq_true] at hc
        simp only [Option.some.injEq] at hs
        subst hs
        have hks := g.sink
        rw [hc.2] at hks
        exact ⟨⟨g.aggr, by simpa using hks, by simp [writes], by simp [hc.1]⟩, .inl rfl⟩
    | _ => simp [hv] at hs
  | write now order =>
    simp only [Scrape.step] at hs
    simp only [opOf, List.append_nil]
    cases hv : s.server with
    | writing r =>
      have hh := g.server.1 (by simp [hv, writes])
      have hks := g.sink
      rw [hh] at hks
      have hpo : s.poisoned = false := by
        cases hp : s.poisoned with
        | false => rfl
        | true => have := g.poison hp; rw [hh] at this; cases this
      simp only [hv] at hs
      split at hs
      case isFalse => cases hs
      case isTrue hperm =>
        cases hsc : scrape p.ext p.tags p.gzip now false (order.filterMap fun i => s.aggr.data[i]?) with
        | none =>
          simp only [hsc, Option.some.injEq] at hs
          subst hs
          exact ⟨⟨by simp, by simpa using hks, by simp [writes], by simp⟩, .inl rfl⟩
        | some ans =>
          simp only [hsc, Option.some.injEq] at hs
          subst hs
          refine ⟨⟨g.aggr, by simpa using hks, by simp [writes], by simp⟩, .inr ⟨r, ans, rfl, ?_⟩⟩
          intro text ht
          exact ⟨s.aggr, now, _, g.aggr hpo, order_perm _ _ hperm, by rw [hsc, ht]⟩
    | _ => simp [hv] at hs

theorem Good.run {p : Setup F} (ls : List (Label F)) : ∀ {h : List (Op F)} {s s' : State F}, Good p h s → run p s ls = some s' →
    Good p (h ++ history p s ls) s' ∧ ∃ new, s'.answers = s.answers ++ new ∧
      ∀ r text, (r, some text) ∈ new → ∃ n, Tells p (h ++ (history p s ls).take n) text := by
  induction ls with
  | nil =>
    intro h s s' g hr
    simp only [Scrape.run, Option.some.injEq] at hr
    subst hr
    exact ⟨by simpa [history] using g, [], by simp, by simp⟩
  | cons l ls ih =>
    intro h s s' g hr
    simp only [Scrape.run, Option.bind_eq_some_iff] at hr
    obtain ⟨s1, h1, h2⟩ := hr
    obtain ⟨g1, ha⟩ := g.step l h1
    obtain ⟨g2, new, hn, ht⟩ := ih g1 h2
    simp only [history, h1]
    refine ⟨by simpa using g2, ?_⟩
    have hlater : ∀ r text, (r, some text) ∈ new → ∃ n, Tells p (h ++ (opOf s l ++ history p s1 ls).take n) text := by
      intro r text hm
      obtain ⟨n, hT⟩ := ht r text hm
      refine ⟨(opOf s l).length + n, ?_⟩
      rw [List.take_length_add_append]
      simpa using hT
    rcases ha with ha | ⟨r, body, ha, hb⟩
    · exact ⟨new, by rw [hn, ha], hlater⟩
    · refine ⟨(r, body) :: new, by rw [hn, ha]; simp, ?_⟩
      intro r' text hm
      rcases List.mem_cons.1 hm with hm | hm
      · simp only [Prod.mk.injEq] at hm
        refine ⟨(opOf s l).length, ?_⟩
        simpa using hb text hm.2.symm
      · exact hlater r' text hm

theorem run_append (p : Setup F) (ls ms : List (Label F)) : ∀ s, run p s (ls ++ ms) = (run p s ls).bind fun s' => run p s' ms := by
  induction ls with
  | nil => intro s; simp [run]
  | cons l ls ih => intro s; simp only [List.cons_append, run]; cases step p s l <;> simp [ih]

/-- The request the server has in hand. -/
def inHand : ServerPhase → List Nat
  | .handling r | .writing r => [r]
  | _ => []

/-- Requests are answered in the order they were made. -/
structure Numbered (s : State F) : Prop where
  all : s.server ≠ .panicked → s.answers.map (fun x => x.1) ++ inHand s.server ++ s.waiting = List.range s.requests
  given : ∃ rest, s.answers.map (fun x => x.1) ++ rest = List.range s.requests

theorem lock_requests {s s' : State F} {phase : SinkPhase F} (hs : s.lock phase = some s') :
    s'.answers = s.answers ∧ s'.server = s.server ∧ s'.waiting = s.waiting ∧ s'.requests = s.requests ∧ s'.system = s.system := by
  simp only [State.lock] at hs
  split at hs
  · simp only [Option.some.injEq] at hs; subst hs; exact ⟨rfl, rfl, rfl, rfl, rfl⟩
  · split at hs
    · simp only [Option.some.injEq] at hs; subst hs; exact ⟨rfl, rfl, rfl, rfl, rfl⟩
    · cases hs

theorem Numbered.same {s s' : State F} (h : Numbered s) (h1 : s'.answers = s.answers) (h2 : s'.server = s.server) (h3 : s'.waiting = s.waiting)
    (h4 : s'.requests = s.requests) : Numbered s' :=
  ⟨by rw [h1, h2, h3, h4]; exact h.all, by rw [h1, h4]; exact h.given⟩

theorem Numbered.step {p : Setup F} {s s' : State F} (h : Numbered s) (l : Label F) (hs : step p s l = some s') : Numbered s' := by
  cases l with
  | deliver now t =>
    simp only [Scrape.step] at hs
    cases hk : s.sink with
    | idle =>
      simp only [hk] at hs
      split at hs
      · obtain ⟨a, b, c, d, -⟩ := lock_requests hs; exact h.same a b c d
      · simp only [Option.some.injEq] at hs; subst hs; exact h
    | _ => simp [hk] at hs
  | flush now =>
    simp only [Scrape.step] at hs
    cases hk : s.sink with
    | idle => simp only [hk] at hs; obtain ⟨a, b, c, d, -⟩ := lock_requests hs; exact h.same a b c d
    | _ => simp [hk] at hs
  | shutdown now =>
    simp only [Scrape.step] at hs
    cases hk : s.sink with
    | idle => simp only [hk] at hs; obtain ⟨a, b, c, d, -⟩ := lock_requests hs; exact h.same a b c d
    | _ => simp [hk] at hs
  | finish =>
    simp only [Scrape.step] at hs
    cases hk : s.sink with
    | inserting t =>
      simp only [hk] at hs
      split at hs <;> simp only [Option.some.injEq] at hs <;> subst hs <;> exact h.same rfl rfl rfl rfl
    | purging now stop =>
      simp only [hk] at hs
      cases stop <;> simp only [Bool.false_eq_true, if_false, if_true, Option.some.injEq] at hs <;> subst hs <;> exact h.same rfl rfl rfl rfl
    | _ => simp [hk] at hs
  | join =>
    simp only [Scrape.step] at hs
    split at hs
    · simp only [Option.some.injEq] at hs; subst hs; exact h.same rfl rfl rfl rfl
    · simp only [Option.some.injEq] at hs; subst hs; exact h.same rfl rfl rfl rfl
    · cases hs
  | request =>
    simp only [Scrape.step, Option.some.injEq] at hs
    subst hs
    refine ⟨fun hp => ?_, ?_⟩
    · simp only [← List.append_assoc, h.all hp, List.range_succ]
    · obtain ⟨rest, hr⟩ := h.given
      exact ⟨rest ++ [s.requests], by simp only [← List.append_assoc, hr, List.range_succ]⟩
  | poll =>
    simp only [Scrape.step] at hs
    cases hv : s.server with
    | polling =>
      simp only [hv, Option.some.injEq] at hs
      have := h.all (by simp [hv])
      subst hs
      refine ⟨fun _ => ?_, h.given⟩
      rw [hv] at this
      cases s.system <;> simpa [inHand] using this
    | _ => simp [hv] at hs
  | recv =>
    simp only [Scrape.step] at hs
    cases hv : s.server with
    | receiving =>
      have := h.all (by simp [hv])
      rw [hv] at this
      simp only [hv] at hs
      split at hs
      · rename_i hw
        simp only [Option.some.injEq] at hs
        subst hs
        exact ⟨fun _ => by simpa [inHand, hw] using this, h.given⟩
      · rename_i r rs hw
        simp only [Option.some.injEq] at hs
        subst hs
        exact ⟨fun _ => by simpa [inHand, hw] using this, h.given⟩
    | _ => simp [hv] at hs
  | fail =>
    simp only [Scrape.step] at hs
    split at hs
    · simp only [Option.some.injEq] at hs; subst hs; exact ⟨by simp, h.given⟩
    · simp only [Option.some.injEq] at hs; subst hs; exact ⟨by simp, h.given⟩
    · cases hs
  | tryLock =>
    simp only [Scrape.step] at hs
    cases hv : s.server with
    | handling r =>
      have := h.all (by simp [hv])
      rw [hv] at this
      simp only [hv] at hs
      split at hs
      · simp only [Option.some.injEq] at hs
        subst hs
        exact ⟨fun _ => by simpa [inHand] using this, s.waiting, by simpa [inHand] using this⟩
      · simp only [Option.some.injEq] at hs
        subst hs
        exact ⟨fun _ => by simpa [inHand] using this, h.given⟩
    | _ => simp [hv] at hs
  | write now order =>
    simp only [Scrape.step] at hs
    cases hv : s.server with
    | writing r =>
      have := h.all (by simp [hv])
      rw [hv] at this
      simp only [hv] at hs
      split at hs
      case isFalse => cases hs
      case isTrue hperm =>
        split at hs
        · simp only [Option.some.injEq] at hs
          subst hs
          exact ⟨by simp, h.given⟩
        · simp only [Option.some.injEq] at hs
          subst hs
          exact ⟨fun _ => by simpa [inHand] using this, s.waiting, by simpa [inHand] using this⟩
    | _ => simp [hv] at hs

theorem Numbered.run {p : Setup F} (ls : List (Label F)) : ∀ {s s' : State F}, Numbered s → run p s ls = some s' → Numbered s' := by
  induction ls with
  | nil => intro s s' h hr; simp only [Scrape.run, Option.some.injEq] at hr; subst hr; exact h
  | cons l ls ih =>
    intro s s' h hr
    simp only [Scrape.run, Option.bind_eq_some_iff] at hr
    obtain ⟨s1, h1, h2⟩ := hr
    exact ih (h.step l h1) h2

theorem Numbered.start (p : Setup F) (bound : Bool) : Numbered (State.start p bound) := by
  cases bound <;> constructor <;> simp [State.start, inHand]

end
end Scrape
end Verif
