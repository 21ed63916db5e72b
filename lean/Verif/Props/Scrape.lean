import Verif.Lemmas.Scrape
import Verif.Props.Prometheus
/-!
# C99: scrapes of the Prometheus sink

Every request for the metrics is answered, in order, with a consistent picture of what the sink has been given, and neither scrapes
nor deliveries hold each other up for ever or take each other down.
-/
namespace Verif
open Prometheus Scrape
section
variable {F : Type} [F64 F]

/-- What is answered after some moment tells everything the sink had finished by that moment, all of it or nothing of every later
insertion or purge, in the order they were finished. -/
theorem C99_fresh (p : Setup F) (bound : Bool) (before after : List (Scrape.Label F)) (s0 s : Scrape.State F)
    (h0 : Scrape.run p (.start p bound) before = some s0) (h : Scrape.run p s0 after = some s) :
    ∃ new, s.answers = s0.answers ++ new ∧ ∀ r text, (r, some text) ∈ new →
      ∃ n, Tells p (history p (.start p bound) before ++ (history p s0 after).take n) text := by
  have g0 := ((Good.start p bound).run before h0).1
  rw [List.nil_append] at g0
  exact (g0.run after h).2

private theorem asked_step (p : Setup F) (hage : ∀ a, p.ageThreshold = some a → a < 2 ^ 63) (s s' : Scrape.State F) (l : Scrape.Label F)
    (ls : List (Scrape.Label F)) (h : Scrape.step p s l = some s') (hp : s'.sink ≠ .panicked) :
    unfinished s.sink ++ asked p.ageThreshold (l :: ls) = opOf s l ++ unfinished s'.sink ++ asked p.ageThreshold ls ∧
    s.sink ≠ .panicked := by
  have lock : ∀ ph : SinkPhase F, s.lock ph = some s' → s'.sink = ph := by
    intro ph h
    simp only [State.lock] at h
    by_cases h1 : s.poisoned = true
    · rw [if_pos h1] at h
      injection h with h; subst h
      exact absurd rfl hp
    · rw [if_neg h1] at h
      by_cases h2 : s.holder = .nobody
      · rw [if_pos h2] at h
        injection h with h; subst h; rfl
      · rw [if_neg h2] at h; cases h
  cases l with
  | deliver now t =>
    cases hs : s.sink <;> simp only [Scrape.step, hs] at h <;> try (cases h; done)
    refine ⟨?_, by simp⟩
    have hacc : p.accepts now t = true ↔ asked p.ageThreshold [.deliver now t] = [.insert t] := by
      cases ha : p.ageThreshold with
      | none => simp [Setup.accepts, ha, asked]
      | some a =>
        have h63 : Wavefront.asI64 a = a := by
          have : a < 9223372036854775808 := hage a ha
          simp [Wavefront.asI64, this]
        simp only [Setup.accepts, ha, asked, h63, List.append_nil, decide_eq_true_eq]
        by_cases hc : t.timestamp - now ≤ a ∧ now - t.timestamp ≤ a
        · rw [if_pos hc]; simp; omega
        · rw [if_neg hc]; simp; omega
    have hcons : asked p.ageThreshold (.deliver now t :: ls) = asked p.ageThreshold [.deliver now t] ++ asked p.ageThreshold ls := by
      simp [asked]
    have hone : asked p.ageThreshold [.deliver now t] = [.insert t] ∨ asked p.ageThreshold [.deliver now t] = [] := by
      cases ha : p.ageThreshold with
      | none => simp [asked]
      | some a => simp only [asked, List.append_nil]; split <;> simp
    rw [hcons]
    by_cases hc : p.accepts now t = true
    · rw [if_pos hc] at h
      rw [lock _ h, hacc.1 hc]
      simp [unfinished, opOf]
    · rw [if_neg hc] at h
      injection h with h; subst h
      rw [hs, hone.resolve_left (fun e => hc (hacc.2 e))]
      simp [unfinished, opOf]
  | flush now =>
    cases hs : s.sink <;> simp only [Scrape.step, hs] at h <;> try (cases h; done)
    rw [lock _ h]; simp [unfinished, opOf, asked]
  | shutdown now =>
    cases hs : s.sink <;> simp only [Scrape.step, hs] at h <;> try (cases h; done)
    rw [lock _ h]; simp [unfinished, opOf, asked]
  | finish =>
    cases hs : s.sink with
    | inserting t =>
      simp only [Scrape.step, hs] at h
      cases hi : s.aggr.insert p.ext t with
      | none =>
        rw [hi] at h
        injection h with h; subst h
        exact absurd rfl hp
      | some q =>
        rw [hi] at h
        injection h with h; subst h
        simp [unfinished, opOf, hs, asked]
    | purging now stop =>
      simp only [Scrape.step, hs] at h
      injection h with h; subst h
      cases stop <;> simp [unfinished, opOf, hs, asked]
    | _ => simp only [Scrape.step, hs] at h; cases h
  | join =>
    cases hs : s.sink <;> cases hv : s.server <;> simp only [Scrape.step, hs, hv] at h <;> try (cases h; done)
    · injection h with h; subst h
      simp [unfinished, opOf, asked]
    · injection h with h; subst h
      exact absurd rfl hp
  | request =>
    simp only [Scrape.step] at h
    injection h with h; subst h
    exact ⟨by simp [opOf, asked], hp⟩
  | poll =>
    cases hv : s.server <;> simp only [Scrape.step, hv] at h <;> try (cases h; done)
    injection h with h; subst h
    exact ⟨by simp [opOf, asked], hp⟩
  | recv =>
    cases hv : s.server <;> simp only [Scrape.step, hv] at h <;> try (cases h; done)
    cases hw : s.waiting <;> simp only [hw] at h <;> (injection h with h; subst h; exact ⟨by simp [opOf, asked], hp⟩)
  | fail =>
    cases hv : s.server <;> simp only [Scrape.step, hv] at h <;> try (cases h; done)
    all_goals (injection h with h; subst h; exact ⟨by simp [opOf, asked], hp⟩)
  | tryLock =>
    cases hv : s.server <;> simp only [Scrape.step, hv] at h <;> try (cases h; done)
    split at h <;> (injection h with h; subst h; exact ⟨by simp [opOf, asked], hp⟩)
  | write now order =>
    cases hv : s.server <;> simp only [Scrape.step, hv] at h <;> try (cases h; done)
    split at h
    · split at h <;> (injection h with h; subst h; exact ⟨by simp [opOf, asked], hp⟩)
    · cases h

/-- What the scrapes tell of is what the sink was asked to do: while the sink has not panicked, the insertions and purges finished are,
in order and once each, those of the points within the age limit, the flushes and the shutdown, but for the one in hand. -/
theorem C99_asked (p : Setup F) (hage : ∀ a, p.ageThreshold = some a → a < 2 ^ 63) (bound : Bool) (ls : List (Scrape.Label F))
    (s : Scrape.State F) (h : Scrape.run p (.start p bound) ls = some s) (hp : s.sink ≠ .panicked) :
    history p (.start p bound) ls ++ unfinished s.sink = asked p.ageThreshold ls := by
  have gen : ∀ (ls : List (Scrape.Label F)) (s0 : Scrape.State F), Scrape.run p s0 ls = some s →
      history p s0 ls ++ unfinished s.sink = unfinished s0.sink ++ asked p.ageThreshold ls ∧ s0.sink ≠ .panicked := by
    intro ls
    induction ls with
    | nil =>
      intro s0 h
      simp only [Scrape.run] at h
      injection h with h; subst h
      exact ⟨by simp [history, asked], hp⟩
    | cons l ls ih =>
      intro s0 h
      simp only [Scrape.run] at h
      cases hs : Scrape.step p s0 l with
      | none => rw [hs] at h; cases h
      | some s1 =>
        rw [hs] at h
        obtain ⟨i1, i2⟩ := ih s1 h
        obtain ⟨j1, j2⟩ := asked_step p hage s0 s1 l ls hs i2
        refine ⟨?_, j2⟩
        simp only [history, hs]
        rw [j1, List.append_assoc, i1, List.append_assoc]
  have := (gen ls _ h).1
  simpa [State.start, unfinished] using this

/-- Requests are answered once each and in the order they were made; while the server lives, one that has not been answered is in
hand or waits. -/
theorem C99_in_order (p : Setup F) (bound : Bool) (ls : List (Scrape.Label F)) (s : Scrape.State F)
    (h : Scrape.run p (.start p bound) ls = some s) :
    (∃ rest, s.answers.map (fun x => x.1) ++ rest = List.range s.requests) ∧
    (s.server ≠ .panicked → ∀ r, r < s.requests → r ∈ s.answers.map (fun x => x.1) ∨ r ∈ s.waiting ∨ s.server = .handling r ∨ s.server = .writing r) := by
  have g := (Numbered.start p bound).run ls h
  refine ⟨g.given, fun hp r hr => ?_⟩
  have := g.all hp
  have hm : r ∈ List.range s.requests := List.mem_range.2 hr
  rw [← this] at hm
  simp only [List.mem_append] at hm
  rcases hm with (hm | hm) | hm
  · exact .inl hm
  · right; right
    cases hv : s.server <;> simp [hv, inHand] at hm <;> simp [hm]
  · exact .inr (.inl hm)

/-- The text is never written while the sink changes the aggregation. -/
theorem C99_exclusive (p : Setup F) (bound : Bool) (ls : List (Scrape.Label F)) (s : Scrape.State F)
    (h : Scrape.run p (.start p bound) ls = some s) (r : Nat) (hw : s.server = .writing r) :
    (∀ t, s.sink ≠ .inserting t) ∧ ∀ now stop, s.sink ≠ .purging now stop := by
  have g := ((Good.start p bound).run ls h).1
  have hh := g.server.1 (by simp [hw, writes])
  constructor
  · intro t e
    have := g.sink.1 (by simp [e, holding]); rw [hh] at this; cases this
  · intro now stop e
    have := g.sink.1 (by simp [e, holding]); rw [hh] at this; cases this

/-- A scrape holds the sink up only while the text is written: a sink that cannot go on with a point, a flush or a shutdown can as soon
as the server has written, whatever the order of the map. -/
theorem C99_not_blocked (p : Setup F) (bound : Bool) (ls : List (Scrape.Label F)) (s : Scrape.State F)
    (h : Scrape.run p (.start p bound) ls = some s) (hi : s.sink = .idle) (l : Scrape.Label F)
    (hl : (∃ now t, l = .deliver now t) ∨ (∃ now, l = .flush now) ∨ ∃ now, l = .shutdown now) (hb : Scrape.step p s l = none) :
    (∃ r, s.server = .writing r) ∧ ∀ now order, order.Perm (List.range s.aggr.data.length) →
      ∃ s', Scrape.step p s (.write now order) = some s' ∧ (Scrape.step p s' l).isSome := by
  have g := ((Good.start p bound).run ls h).1
  have hlock : ∀ {s : Scrape.State F} {phase : SinkPhase F}, s.lock phase = none → s.poisoned = false ∧ s.holder ≠ .nobody := by
    intro s phase hn
    simp only [State.lock] at hn
    split at hn
    · cases hn
    · rename_i hp
      split at hn
      · cases hn
      · rename_i hh
        exact ⟨by simpa using hp, hh⟩
  have hfree : ∀ {s : Scrape.State F} {phase : SinkPhase F}, s.holder = .nobody → (s.lock phase).isSome := by
    intro s phase hn
    simp only [State.lock, hn]
    split <;> simp
  have key : ∃ phase : SinkPhase F, s.lock phase = none := by
    rcases hl with ⟨now, t, rfl⟩ | ⟨now, rfl⟩ | ⟨now, rfl⟩
    · simp only [Scrape.step, hi] at hb
      split at hb
      · exact ⟨_, hb⟩
      · cases hb
    · simp only [Scrape.step, hi] at hb; exact ⟨_, hb⟩
    · simp only [Scrape.step, hi] at hb; exact ⟨_, hb⟩
  obtain ⟨phase, hph⟩ := key
  obtain ⟨hpo, hne⟩ := hlock hph
  have hhold : s.holder = .server := by
    cases hh : s.holder with
    | nobody => exact absurd hh hne
    | sink => have := g.sink.2 hh; simp [hi, holding] at this
    | server => rfl
  have hw := g.server.2 hhold
  cases hv : s.server with
  | writing r =>
    refine ⟨⟨r, rfl⟩, fun now order hperm => ?_⟩
    have hstep : ∃ s', Scrape.step p s (.write now order) = some s' ∧ s'.holder = .nobody ∧ s'.sink = .idle := by
      simp only [Scrape.step, hv, if_pos hperm]
      split
      · exact ⟨_, rfl, rfl, hi⟩
      · exact ⟨_, rfl, rfl, hi⟩
    obtain ⟨s', h1, h2, h3⟩ := hstep
    refine ⟨s', h1, ?_⟩
    rcases hl with ⟨now, t, rfl⟩ | ⟨now, rfl⟩ | ⟨now, rfl⟩
    · simp only [Scrape.step, h3]
      split
      · exact hfree h2
      · rfl
    · simp only [Scrape.step, h3]; exact hfree h2
    · simp only [Scrape.step, h3]; exact hfree h2
  | _ => simp [hv, writes] at hw

/-- Once the sink has been shut down, the server answers at most the request it has in hand or is about to receive. -/
theorem C99_stops (p : Setup F) (s s' : Scrape.State F) (ls : List (Scrape.Label F)) (hs : s.system = true)
    (h : Scrape.run p s ls = some s') : s'.answers.length ≤ s.answers.length + 1 := by
  let busy : ServerPhase → Nat := fun v => match v with
    | .receiving | .handling _ | .writing _ => 1
    | _ => 0
  have hb : ∀ v, busy v ≤ 1 := by intro v; cases v <;> simp [busy]
  suffices H : ∀ (ls : List (Scrape.Label F)) (s s' : Scrape.State F), s.system = true → Scrape.run p s ls = some s' →
      s'.answers.length + busy s'.server ≤ s.answers.length + busy s.server by
    have := H ls s s' hs h
    have := hb s.server
    omega
  intro ls
  induction ls with
  | nil => intro s s' _ hr; simp only [Scrape.run, Option.some.injEq] at hr; subst hr; exact Nat.le_refl _
  | cons l ls ih =>
    intro s s' hs hr
    simp only [Scrape.run, Option.bind_eq_some_iff] at hr
    obtain ⟨s1, h1, h2⟩ := hr
    have key : s1.system = true ∧ s1.answers.length + busy s1.server ≤ s.answers.length + busy s.server := by
      have hlk : ∀ {phase : SinkPhase F}, s.lock phase = some s1 → s1.system = true ∧ s1.answers.length + busy s1.server ≤ s.answers.length + busy s.server := by
        intro phase hl
        obtain ⟨a, b, -, -, e⟩ := lock_requests hl
        rw [a, b, e]; exact ⟨hs, Nat.le_refl _⟩
      cases l with
      | deliver now t =>
        simp only [Scrape.step] at h1
        cases hk : s.sink with
        | idle =>
          simp only [hk] at h1
          split at h1
          · exact hlk h1
          · simp only [Option.some.injEq] at h1; subst h1; exact ⟨hs, Nat.le_refl _⟩
        | _ => simp [hk] at h1
      | flush now =>
        simp only [Scrape.step] at h1
        cases hk : s.sink with
        | idle => simp only [hk] at h1; exact hlk h1
        | _ => simp [hk] at h1
      | shutdown now =>
        simp only [Scrape.step] at h1
        cases hk : s.sink with
        | idle => simp only [hk] at h1; exact hlk h1
        | _ => simp [hk] at h1
      | finish =>
        simp only [Scrape.step] at h1
        cases hk : s.sink with
        | inserting t =>
          simp only [hk] at h1
          split at h1 <;> simp only [Option.some.injEq] at h1 <;> subst h1 <;> exact ⟨hs, Nat.le_refl _⟩
        | purging now stop =>
          simp only [hk] at h1
          cases stop <;> simp only [Bool.false_eq_true, if_false, if_true, Option.some.injEq] at h1 <;> subst h1
          · exact ⟨hs, Nat.le_refl _⟩
          · exact ⟨rfl, Nat.le_refl _⟩
        | _ => simp [hk] at h1
      | join =>
        simp only [Scrape.step] at h1
        split at h1
        · simp only [Option.some.injEq] at h1; subst h1; exact ⟨hs, Nat.le_refl _⟩
        · simp only [Option.some.injEq] at h1; subst h1; exact ⟨hs, Nat.le_refl _⟩
        · cases h1
      | request => simp only [Scrape.step, Option.some.injEq] at h1; subst h1; exact ⟨hs, Nat.le_refl _⟩
      | poll =>
        simp only [Scrape.step] at h1
        cases hv : s.server with
        | polling => simp only [hv, hs, if_true, Option.some.injEq] at h1; subst h1; exact ⟨rfl, by simp [busy]⟩
        | _ => simp [hv] at h1
      | recv =>
        simp only [Scrape.step] at h1
        cases hv : s.server with
        | receiving =>
          simp only [hv] at h1
          split at h1 <;> simp only [Option.some.injEq] at h1 <;> subst h1 <;> exact ⟨hs, by simp [busy]⟩
        | _ => simp [hv] at h1
      | fail =>
        simp only [Scrape.step] at h1
        split at h1
        · simp only [Option.some.injEq] at h1; subst h1; exact ⟨hs, by simp [busy]⟩
        · simp only [Option.some.injEq] at h1; subst h1; exact ⟨hs, by simp [busy]⟩
        · cases h1
      | tryLock =>
        simp only [Scrape.step] at h1
        cases hv : s.server with
        | handling r =>
          simp only [hv] at h1
          split at h1 <;> simp only [Option.some.injEq] at h1 <;> subst h1 <;> exact ⟨hs, by simp [busy]⟩
        | _ => simp [hv] at h1
      | write now order =>
        simp only [Scrape.step] at h1
        cases hv : s.server with
        | writing r =>
          simp only [hv] at h1
          split at h1
          case isFalse => cases h1
          case isTrue => split at h1 <;> simp only [Option.some.injEq] at h1 <;> subst h1 <;> exact ⟨hs, by simp [busy]⟩
        | _ => simp [hv] at h1
    exact Nat.le_trans (ih s1 s' key.1 h2) key.2

/-- Only a shutdown ends it: before one, the server is never told to stop and the sink goes on.  The sink returns from a shutdown only
when the server has ended. -/
theorem C99_serves (p : Setup F) (bound : Bool) (ls : List (Scrape.Label F)) (s : Scrape.State F)
    (h : Scrape.run p (.start p bound) ls = some s) :
    ((∀ now, .shutdown now ∉ ls) → s.system = false ∧ s.server ≠ .ended ∧ (∀ (_ : s.sink = .stopping ∨ s.sink = .returned), False)) ∧
    (s.sink = .returned → s.server = .ended) := by
  have H2 : ∀ (ls : List (Scrape.Label F)) (s s' : Scrape.State F), (s.sink = .returned → s.server = .ended) →
      Scrape.run p s ls = some s' → (s'.sink = .returned → s'.server = .ended) := by
    intro ls
    induction ls with
    | nil => intro s s' hs hr; simp only [Scrape.run, Option.some.injEq] at hr; subst hr; exact hs
    | cons l ls ih =>
      intro s s' hs hr
      simp only [Scrape.run, Option.bind_eq_some_iff] at hr
      obtain ⟨s1, h1, h2⟩ := hr
      refine ih s1 s' ?_ h2
      have hlk : ∀ {phase : SinkPhase F}, (∀ _ : phase = .returned, False) → s.lock phase = some s1 → s1.sink = .returned → s1.server = .ended := by
        intro phase hp hl
        simp only [State.lock] at hl
        split at hl
        · simp only [Option.some.injEq] at hl; subst hl; intro e; cases e
        · split at hl
          · simp only [Option.some.injEq] at hl; subst hl; intro e; exact absurd e hp
          · cases hl
      cases l with
      | deliver now t =>
        simp only [Scrape.step] at h1
        cases hk : s.sink with
        | idle =>
          simp only [hk] at h1
          split at h1
          · exact hlk (fun e => by cases e) h1
          · simp only [Option.some.injEq] at h1; subst h1; exact hs
        | _ => simp [hk] at h1
      | flush now =>
        simp only [Scrape.step] at h1
        cases hk : s.sink with
        | idle => simp only [hk] at h1; exact hlk (fun e => by cases e) h1
        | _ => simp [hk] at h1
      | shutdown now =>
        simp only [Scrape.step] at h1
        cases hk : s.sink with
        | idle => simp only [hk] at h1; exact hlk (fun e => by cases e) h1
        | _ => simp [hk] at h1
      | finish =>
        simp only [Scrape.step] at h1
        cases hk : s.sink with
        | inserting t =>
          simp only [hk] at h1
          split at h1 <;> simp only [Option.some.injEq] at h1 <;> subst h1 <;> intro e <;> cases e
        | purging now stop =>
          simp only [hk] at h1
          cases stop <;> simp only [Bool.false_eq_true, if_false, if_true, Option.some.injEq] at h1 <;> subst h1 <;> intro e <;> cases e
        | _ => simp [hk] at h1
      | join =>
        simp only [Scrape.step] at h1
        split at h1
        · rename_i hv; simp only [Option.some.injEq] at h1; subst h1; exact fun _ => hv
        · simp only [Option.some.injEq] at h1; subst h1; intro e; cases e
        · cases h1
      | request => simp only [Scrape.step, Option.some.injEq] at h1; subst h1; exact hs
      | poll =>
        simp only [Scrape.step] at h1
        cases hv : s.server with
        | polling => simp only [hv, Option.some.injEq] at h1; subst h1; intro e; have := hs e; simp [hv] at this
        | _ => simp [hv] at h1
      | recv =>
        simp only [Scrape.step] at h1
        cases hv : s.server with
        | receiving =>
          simp only [hv] at h1
          split at h1 <;> simp only [Option.some.injEq] at h1 <;> subst h1 <;> intro e <;> have := hs e <;> simp [hv] at this
        | _ => simp [hv] at h1
      | fail =>
        simp only [Scrape.step] at h1
        split at h1
        · rename_i hv; simp only [Option.some.injEq] at h1; subst h1; intro e; have := hs e; simp [hv] at this
        · rename_i hv; simp only [Option.some.injEq] at h1; subst h1; intro e; have := hs e; simp [hv] at this
        · cases h1
      | tryLock =>
        simp only [Scrape.step] at h1
        cases hv : s.server with
        | handling r =>
          simp only [hv] at h1
          split at h1 <;> simp only [Option.some.injEq] at h1 <;> subst h1 <;> intro e <;> have := hs e <;> simp [hv] at this
        | _ => simp [hv] at h1
      | write now order =>
        simp only [Scrape.step] at h1
        cases hv : s.server with
        | writing r =>
          simp only [hv] at h1
          split at h1
          case isFalse => cases h1
          case isTrue => split at h1 <;> simp only [Option.some.injEq] at h1 <;> subst h1 <;> intro e <;> have := hs e <;> simp [hv] at this
        | _ => simp [hv] at h1
  let calm : Scrape.State F → Prop := fun s => s.system = false ∧ s.server ≠ .ended ∧ (s.sink = .stopping ∨ s.sink = .returned → False) ∧
    ∀ now, s.sink = .purging now true → False
  have H1 : ∀ (ls : List (Scrape.Label F)) (s s' : Scrape.State F), calm s → (∀ now, .shutdown now ∉ ls) →
      Scrape.run p s ls = some s' → calm s' := by
    intro ls
    induction ls with
    | nil => intro s s' hs _ hr; simp only [Scrape.run, Option.some.injEq] at hr; subst hr; exact hs
    | cons l ls ih =>
      intro s s' hs hn hr
      simp only [Scrape.run, Option.bind_eq_some_iff] at hr
      obtain ⟨s1, h1, h2⟩ := hr
      refine ih s1 s' ?_ (fun now hm => hn now (List.mem_cons_of_mem _ hm)) h2
      obtain ⟨a, b, c, d⟩ := hs
      have hlk : ∀ {phase : SinkPhase F}, (phase = .stopping ∨ phase = .returned → False) → (∀ now, phase = .purging now true → False) →
          s.lock phase = some s1 → calm s1 := by
        intro phase hp hq hl
        simp only [State.lock] at hl
        split at hl
        · simp only [Option.some.injEq] at hl; subst hl; exact ⟨a, b, (by rintro (e | e) <;> cases e), fun _ e => by cases e⟩
        · split at hl
          · simp only [Option.some.injEq] at hl; subst hl; exact ⟨a, b, hp, hq⟩
          · cases hl
      cases l with
      | deliver now t =>
        simp only [Scrape.step] at h1
        cases hk : s.sink with
        | idle =>
          simp only [hk] at h1
          split at h1
          · exact hlk (by rintro (e | e) <;> cases e) (fun _ e => by cases e) h1
          · simp only [Option.some.injEq] at h1; subst h1; exact ⟨a, b, c, d⟩
        | _ => simp [hk] at h1
      | flush now =>
        simp only [Scrape.step] at h1
        cases hk : s.sink with
        | idle => simp only [hk] at h1; exact hlk (by rintro (e | e) <;> cases e) (fun _ e => by cases e) h1
        | _ => simp [hk] at h1
      | shutdown now => exact absurd (List.mem_cons_self ..) (hn now)
      | finish =>
        simp only [Scrape.step] at h1
        cases hk : s.sink with
        | inserting t =>
          simp only [hk] at h1
          split at h1 <;> simp only [Option.some.injEq] at h1 <;> subst h1 <;>
            exact ⟨a, b, (by rintro (e | e) <;> cases e), fun _ e => by cases e⟩
        | purging now stop =>
          cases stop with
          | true => exact absurd hk (d now)
          | false =>
            simp only [hk, Bool.false_eq_true, if_false, Option.some.injEq] at h1
            subst h1
            exact ⟨a, b, (by rintro (e | e) <;> cases e), fun _ e => by cases e⟩
        | _ => simp [hk] at h1
      | join =>
        simp only [Scrape.step] at h1
        split at h1
        · rename_i hk _; exact absurd (.inl hk) c
        · rename_i hk _; exact absurd (.inl hk) c
        · cases h1
      | request => simp only [Scrape.step, Option.some.injEq] at h1; subst h1; exact ⟨a, b, c, d⟩
      | poll =>
        simp only [Scrape.step] at h1
        cases hv : s.server with
        | polling => simp only [hv, a, Bool.false_eq_true, if_false, Option.some.injEq] at h1; subst h1; exact ⟨rfl, (by simp), c, d⟩
        | _ => simp [hv] at h1
      | recv =>
        simp only [Scrape.step] at h1
        cases hv : s.server with
        | receiving =>
          simp only [hv] at h1
          split at h1 <;> simp only [Option.some.injEq] at h1 <;> subst h1 <;> exact ⟨a, (by simp), c, d⟩
        | _ => simp [hv] at h1
      | fail =>
        simp only [Scrape.step] at h1
        split at h1
        · simp only [Option.some.injEq] at h1; subst h1; exact ⟨a, (by simp), c, d⟩
        · simp only [Option.some.injEq] at h1; subst h1; exact ⟨a, (by simp), c, d⟩
        · cases h1
      | tryLock =>
        simp only [Scrape.step] at h1
        cases hv : s.server with
        | handling r =>
          simp only [hv] at h1
          split at h1 <;> simp only [Option.some.injEq] at h1 <;> subst h1 <;> exact ⟨a, (by simp), c, d⟩
        | _ => simp [hv] at h1
      | write now order =>
        simp only [Scrape.step] at h1
        cases hv : s.server with
        | writing r =>
          simp only [hv] at h1
          split at h1
          case isFalse => cases h1
          case isTrue => split at h1 <;> simp only [Option.some.injEq] at h1 <;> subst h1 <;> exact ⟨a, (by simp), c, d⟩
        | _ => simp [hv] at h1
  refine ⟨fun hn => ?_, H2 ls _ s (fun e => by simp [State.start] at e) h⟩
  have := H1 ls _ s ⟨rfl, (by simp only [State.start]; split <;> simp), (by simp [State.start]), (by simp [State.start])⟩ hn h
  exact ⟨this.1, this.2.1, this.2.2.1⟩

/-- Neither thread panics, nor is the lock ever poisoned, if the address could be bound, the window is not empty, summary points are not
empty and the poller and the HTTP library do not fail.  It is partial because of the first two of these conditions
(`C99_unbound_false`, `C99_poisoned_false`); that points are not empty is so of every point cernan makes. -/
theorem C99_healthy_partial [LawfulSketch F]
    (hq : ∀ (c : F64.Ckms F) (q : F), 0 < F64.ckmsCount c → (F64.ckmsQuery c q).isSome)
    (p : Setup F) (hc : 1 ≤ p.capacity) (ls : List (Scrape.Label F)) (s : Scrape.State F) (h : Scrape.run p (.start p true) ls = some s)
    (hf : .fail ∉ ls) (hpos : ∀ now t, .deliver now t ∈ ls → t.kind = .summarize → 0 < t.value.count)
    (hlen : ls.length < 2 ^ 64 - 1) : s.poisoned = false ∧ s.server ≠ .panicked ∧ (∀ (_ : s.sink = .panicked), False) := by
  let W : Telemetry F → Prop := fun t => t.kind = .summarize → 0 < t.value.count
  suffices H : ∀ (ls : List (Scrape.Label F)) (ops : List (Op F)) (s s' : Scrape.State F), Good p ops s →
      s.poisoned = false → s.server ≠ .panicked → (s.sink = .panicked → False) →
      (∀ t, .insert t ∈ ops → W t) → (∀ t, s.sink = .inserting t → W t) →
      ops.length + ls.length < 2 ^ 64 - 1 → .fail ∉ ls → (∀ now t, .deliver now t ∈ ls → W t) →
      Scrape.run p s ls = some s' → s'.poisoned = false ∧ s'.server ≠ .panicked ∧ (s'.sink = .panicked → False) by
    exact H ls [] _ s (Good.start p true) rfl (by simp [State.start]) (fun e => by simp [State.start] at e) (by simp)
      (fun t e => by simp [State.start] at e) (by simpa using hlen) hf hpos h
  clear h hf hpos hlen
  intro ls
  induction ls with
  | nil =>
    intro ops s s' _ h1 h2 h3 _ _ _ _ _ hr
    simp only [Scrape.run, Option.some.injEq] at hr
    subst hr
    exact ⟨h1, h2, h3⟩
  | cons l ls ih =>
    intro ops s s' g h1 h2 h3 hW hI hlen hf hpos hr
    simp only [Scrape.run, Option.bind_eq_some_iff] at hr
    obtain ⟨s1, hs, hr⟩ := hr
    have g1 := (g.step l hs).1
    simp only [List.mem_cons, not_or] at hf
    simp only [List.length_cons] at hlen
    have hops : ∀ t, Op.insert t ∈ ops ++ opOf s l → W t := by
      intro t ht
      rcases List.mem_append.1 ht with ht | ht
      · exact hW t ht
      · cases l <;> simp only [opOf, List.not_mem_nil] at ht
        split at ht <;> simp at ht
        subst ht
        exact hI _ (by assumption)
    have hol : (opOf s l).length ≤ 1 := by
      cases l <;> simp only [opOf, List.length_nil, Nat.zero_le]
      split <;> simp
    obtain ⟨a, ha, hsc⟩ := C74_no_panic_partial hq p.ext p.capacity hc (ops ++ opOf s l) hops (by simp only [List.length_append]; omega)
    have hlk : ∀ {phase : SinkPhase F}, s.lock phase = some s1 → (∀ e : phase = .panicked, False) →
        s1.poisoned = false ∧ s1.server ≠ .panicked ∧ (s1.sink = .panicked → False) ∧ s1.sink = phase := by
      intro phase hl hp
      simp only [State.lock, h1, Bool.false_eq_true, if_false] at hl
      split at hl
      · simp only [Option.some.injEq] at hl; subst hl; exact ⟨rfl, h2, hp, rfl⟩
      · cases hl
    have key : s1.poisoned = false ∧ s1.server ≠ .panicked ∧ (s1.sink = .panicked → False) ∧ ∀ t, s1.sink = .inserting t → W t := by
      cases l with
      | deliver now t =>
        simp only [Scrape.step] at hs
        cases hk : s.sink with
        | idle =>
          simp only [hk] at hs
          split at hs
          · obtain ⟨e1, e2, e3, e4⟩ := hlk hs (fun e => by cases e)
            refine ⟨e1, e2, e3, fun u hu => ?_⟩
            rw [e4] at hu
            cases hu
            exact hpos now t (List.mem_cons_self ..)
          · simp only [Option.some.injEq] at hs; subst hs; exact ⟨h1, h2, h3, hI⟩
        | _ => simp [hk] at hs
      | flush now =>
        simp only [Scrape.step] at hs
        cases hk : s.sink with
        | idle =>
          simp only [hk] at hs
          obtain ⟨e1, e2, e3, e4⟩ := hlk hs (fun e => by cases e)
          exact ⟨e1, e2, e3, fun u hu => by rw [e4] at hu; cases hu⟩
        | _ => simp [hk] at hs
      | shutdown now =>
        simp only [Scrape.step] at hs
        cases hk : s.sink with
        | idle =>
          simp only [hk] at hs
          obtain ⟨e1, e2, e3, e4⟩ := hlk hs (fun e => by cases e)
          exact ⟨e1, e2, e3, fun u hu => by rw [e4] at hu; cases hu⟩
        | _ => simp [hk] at hs
      | finish =>
        simp only [Scrape.step] at hs
        cases hk : s.sink with
        | inserting t =>
          simp only [opOf, hk] at ha
          rw [Scrape.prom_run_append, g.aggr h1] at ha
          simp only [hk] at hs
          cases hins : s.aggr.insert p.ext t with
          | none => simp [Prometheus.run, hins] at ha
          | some x =>
            simp only [hins, Option.some.injEq] at hs
            subst hs
            exact ⟨h1, h2, fun e => (by cases e), fun u hu => by cases hu⟩
        | purging now stop =>
          simp only [hk] at hs
          cases stop <;> simp only [Bool.false_eq_true, if_false, if_true, Option.some.injEq] at hs <;> subst hs <;>
            exact ⟨h1, h2, fun e => (by cases e), fun u hu => by cases hu⟩
        | _ => simp [hk] at hs
      | join =>
        simp only [Scrape.step] at hs
        split at hs
        · simp only [Option.some.injEq] at hs; subst hs; exact ⟨h1, h2, fun e => (by cases e), fun u hu => by cases hu⟩
        · rename_i hv; exact absurd hv h2
        · cases hs
      | request => simp only [Scrape.step, Option.some.injEq] at hs; subst hs; exact ⟨h1, h2, h3, hI⟩
      | poll =>
        simp only [Scrape.step] at hs
        cases hv : s.server with
        | polling =>
          simp only [hv, Option.some.injEq] at hs
          subst hs
          refine ⟨h1, ?_, h3, hI⟩
          cases s.system <;> simp
        | _ => simp [hv] at hs
      | recv =>
        simp only [Scrape.step] at hs
        cases hv : s.server with
        | receiving =>
          simp only [hv] at hs
          split at hs <;> simp only [Option.some.injEq] at hs <;> subst hs <;> exact ⟨h1, by simp, h3, hI⟩
        | _ => simp [hv] at hs
      | fail => exact absurd rfl hf.1
      | tryLock =>
        simp only [Scrape.step] at hs
        cases hv : s.server with
        | handling r =>
          simp only [hv] at hs
          split at hs <;> simp only [Option.some.injEq] at hs <;> subst hs <;> exact ⟨h1, by simp, h3, hI⟩
        | _ => simp [hv] at hs
      | write now order =>
        simp only [opOf, List.append_nil] at ha
        rw [g.aggr h1, Option.some.injEq] at ha
        subst ha
        simp only [Scrape.step] at hs
        cases hv : s.server with
        | writing r =>
          simp only [hv] at hs
          split at hs
          case isFalse => cases hs
          case isTrue hperm =>
            obtain ⟨ans, hans⟩ := hsc p.tags p.gzip now false _ (order_perm _ _ hperm)
            simp only [hans, Option.some.injEq] at hs
            subst hs
            exact ⟨h1, by simp, h3, hI⟩
        | _ => simp [hv] at hs
    refine ih (ops ++ opOf s l) s1 s' g1 key.1 key.2.1 key.2.2.1 hops key.2.2.2 ?_ hf.2
      (fun now t hm => hpos now t (List.mem_cons_of_mem _ hm)) hr
    simp only [List.length_append]
    omega

end

/-! ### Concrete cases, and what is false -/

/-- a configuration for the examples -/
private def setup (capacity : Nat) : Setup Int := { ext := promExt, tags := [], ageThreshold := none, capacity := capacity }

private def point (v : Int) : Scrape.Label Int := .deliver 1 (promPoint "c" none v)

/-- The texts of the answers after a schedule; `none` if it is not possible. -/
private def texts (capacity : Nat) (bound : Bool) (ls : List (Scrape.Label Int)) : Option (List (Nat × Option Str)) :=
  (Scrape.run (setup capacity) (.start (setup capacity) bound) ls).map fun s =>
    s.answers.map fun x => (x.1, x.2.map fun lines => lines.flatMap fun l => Line.text promExt l)

/-- A scrape between two points, during a third, and after it. -/
private def three : List (Scrape.Label Int) :=
  [point 2, .finish, .request, .request, point 3, .finish, .poll, .recv, point 4, .tryLock, .finish, .poll, .recv, .tryLock,
   .write 1 [0], .request, .poll, .recv, .tryLock, .write 1 [0]]

/-- `C99_fresh`, `C99_in_order` and `C99_healthy_partial` are not vacuous: the first scrape comes while the sink is busy. -/
example : texts 600 true three = some [(0, none), (1, some "# TYPE c counter\nc 9\n".toList), (2, some "# TYPE c counter\nc 9\n".toList)] ∧
    .fail ∉ three ∧ three.length < 2 ^ 64 - 1 := by
  refine ⟨by decide +kernel, by simp [three, point], by simp [three]⟩

/-- The hypotheses of `C99_asked` are met: with a limit of ten seconds, of two points one is too old, and a third is in hand. -/
example : ∃ s, Scrape.run { setup 600 with ageThreshold := some 10 } (.start (setup 600) true)
      [point 2, .finish, .deliver 200 (promPoint "c" none 3), .flush 5, .finish, point 4] = some s ∧
    unfinished s.sink = [.insert (promPoint "c" none 4)] := by
  refine ⟨_, rfl, rfl⟩

/-- The hypotheses of `C99_exclusive` and `C99_not_blocked` are met: a point comes while the text is being written. -/
example : ∃ s, Scrape.run (setup 600) (.start (setup 600) true) [point 2, .finish, .request, .poll, .recv, .tryLock] = some s ∧
    s.server = .writing 0 ∧ s.sink = .idle ∧ Scrape.step (setup 600) s (point 3) = none := by
  refine ⟨_, rfl, rfl, rfl, rfl⟩

/-- The hypothesis of `C99_stops` is met. -/
example : ∃ s, Scrape.run (setup 600) (.start (setup 600) true) [.poll, .request, .shutdown 1, .finish] = some s ∧ s.system = true ∧
    (Scrape.run (setup 600) s [.recv, .tryLock, .write 1 [], .poll, .join]).map (fun s => s.answers.length) = some 1 := by
  refine ⟨_, rfl, rfl, by decide +kernel⟩

/-- The hypotheses of `C99_serves` are met by a flush, and by a shutdown. -/
example : (∃ s, Scrape.run (setup 600) (.start (setup 600) true) [point 2, .finish, .flush 5, .finish, .poll] = some s ∧ s.server = .receiving) ∧
    ∃ s, Scrape.run (setup 600) (.start (setup 600) true) [.shutdown 1, .finish, .poll, .join] = some s ∧ s.sink = .returned :=
  ⟨⟨_, rfl, rfl⟩, ⟨_, rfl, rfl⟩⟩

/-- A scrape that comes while the sink takes in a point gets no metrics at all, though there are some. -/
theorem C99_busy_false : texts 600 true [point 2, .finish, .request, .poll, .recv, point 3, .tryLock] = some [(0, none)] ∧
    texts 600 true [point 2, .finish, .request, .poll, .recv, .tryLock, .write 1 [0]] = some [(0, some "# TYPE c counter\nc 2\n".toList)] := by
  decide +kernel

/-- Nothing more is told once the lock is poisoned. -/
private theorem poisoned_run {F : Type} [F64 F] (p : Setup F) (ls : List (Scrape.Label F)) : ∀ (s s' : Scrape.State F), s.poisoned = true → s.holder = .nobody →
    (writes s.server = false) → (holding s.sink = false) → Scrape.run p s ls = some s' → ∀ x ∈ s'.answers, x ∈ s.answers ∨ x.2 = none := by
  induction ls with
  | nil => intro s s' _ _ _ _ hr x hx; simp only [Scrape.run, Option.some.injEq] at hr; subst hr; exact .inl hx
  | cons l ls ih =>
    intro s s' hp hh hw hk hr
    simp only [Scrape.run, Option.bind_eq_some_iff] at hr
    obtain ⟨s1, hs, hr⟩ := hr
    have key : s1.poisoned = true ∧ s1.holder = .nobody ∧ writes s1.server = false ∧ holding s1.sink = false ∧
        ∀ x ∈ s1.answers, x ∈ s.answers ∨ x.2 = none := by
      have hlk : ∀ {phase : SinkPhase F}, s.lock phase = some s1 → s1.poisoned = true ∧ s1.holder = .nobody ∧ writes s1.server = false ∧ holding s1.sink = false ∧
          ∀ x ∈ s1.answers, x ∈ s.answers ∨ x.2 = none := by
        intro phase hl
        simp only [State.lock, hp, if_true, Option.some.injEq] at hl
        subst hl
        exact ⟨rfl, hh, hw, rfl, fun x hx => .inl hx⟩
      cases l with
      | deliver now t =>
        simp only [Scrape.step] at hs
        cases hk' : s.sink with
        | idle =>
          simp only [hk'] at hs
          split at hs
          · exact hlk hs
          · simp only [Option.some.injEq] at hs; subst hs; exact ⟨hp, hh, hw, hk, fun x hx => .inl hx⟩
        | _ => simp [hk'] at hs
      | flush now =>
        simp only [Scrape.step] at hs
        cases hk' : s.sink with
        | idle => simp only [hk'] at hs; exact hlk hs
        | _ => simp [hk'] at hs
      | shutdown now =>
        simp only [Scrape.step] at hs
        cases hk' : s.sink with
        | idle => simp only [hk'] at hs; exact hlk hs
        | _ => simp [hk'] at hs
      | finish =>
        simp only [Scrape.step] at hs
        cases hk' : s.sink with
        | inserting t => simp [hk', holding] at hk
        | purging now stop => simp [hk', holding] at hk
        | _ => simp [hk'] at hs
      | join =>
        simp only [Scrape.step] at hs
        split at hs
        · simp only [Option.some.injEq] at hs; subst hs; exact ⟨hp, hh, hw, rfl, fun x hx => .inl hx⟩
        · simp only [Option.some.injEq] at hs; subst hs; exact ⟨hp, hh, hw, rfl, fun x hx => .inl hx⟩
        · cases hs
      | request => simp only [Scrape.step, Option.some.injEq] at hs; subst hs; exact ⟨hp, hh, hw, hk, fun x hx => .inl hx⟩
      | poll =>
        simp only [Scrape.step] at hs
        cases hv : s.server with
        | polling =>
          simp only [hv, Option.some.injEq] at hs
          subst hs
          refine ⟨hp, hh, ?_, hk, fun x hx => .inl hx⟩
          cases s.system <;> simp [writes]
        | _ => simp [hv] at hs
      | recv =>
        simp only [Scrape.step] at hs
        cases hv : s.server with
        | receiving =>
          simp only [hv] at hs
          split at hs <;> simp only [Option.some.injEq] at hs <;> subst hs <;> exact ⟨hp, hh, rfl, hk, fun x hx => .inl hx⟩
        | _ => simp [hv] at hs
      | fail =>
        simp only [Scrape.step] at hs
        split at hs
        · simp only [Option.some.injEq] at hs; subst hs; exact ⟨hp, hh, rfl, hk, fun x hx => .inl hx⟩
        · simp only [Option.some.injEq] at hs; subst hs; exact ⟨hp, hh, rfl, hk, fun x hx => .inl hx⟩
        · cases hs
      | tryLock =>
        simp only [Scrape.step] at hs
        cases hv : s.server with
        | handling r =>
          simp only [hv, hp, true_or, if_true, Option.some.injEq] at hs
          subst hs
          refine ⟨rfl, hh, rfl, hk, fun x hx => ?_⟩
          rcases List.mem_append.1 hx with hx | hx
          · exact .inl hx
          · simp only [List.mem_singleton] at hx; subst hx; exact .inr rfl
        | _ => simp [hv] at hs
      | write now order =>
        simp only [Scrape.step] at hs
        cases hv : s.server with
        | writing r => simp [hv, writes] at hw
        | _ => simp [hv] at hs
    intro x hx
    rcases ih s1 s' key.1 key.2.1 key.2.2.1 key.2.2.2.1 hr x hx with h | h
    · exact key.2.2.2.2 x h
    · exact .inr h

/-- With a window of zero seconds, two summary points of one second kill the sink in the middle of an insertion; the server lives on,
but every later scrape gets nothing, whatever happens. -/
theorem C99_poisoned_false : ∃ ls s, Scrape.run (setup 0) (.start (setup 0) true) ls = some s ∧ s.answers = [] ∧ s.server = .polling ∧
    ∀ ls' s', Scrape.run (setup 0) s ls' = some s' → ∀ x ∈ s'.answers, x.2 = none := by
  refine ⟨[point 7, .finish, .deliver 1 (promSummary 1 1), .finish, .deliver 1 (promSummary 2 1), .finish], _, rfl, rfl, rfl, ?_⟩
  intro ls' s' hr x hx
  rcases poisoned_run (setup 0) ls' _ s' rfl rfl rfl rfl hr x hx with h | h
  · cases h
  · exact h

/-- If the address cannot be bound, the sink starts and takes points all the same, no scrape is ever answered, and the sink panics when it
is shut down. -/
theorem C99_unbound_false : ∃ s, Scrape.run (setup 600) (.start (setup 600) false) [point 2, .finish, .request] = some s ∧
    s.sink = .idle ∧ s.answers = [] ∧ (∀ l ∈ [.poll, .recv, .fail, .tryLock, .write 1 [0]], Scrape.step (setup 600) s l = none) ∧
    ∃ s', Scrape.run (setup 600) s [.shutdown 1, .finish, .join] = some s' ∧ s'.sink = .panicked := by
  refine ⟨_, rfl, rfl, rfl, ?_, _, rfl, rfl⟩
  intro l hl
  simp only [List.mem_cons, List.not_mem_nil, or_false] at hl
  rcases hl with rfl | rfl | rfl | rfl | rfl <;> rfl

end Verif
