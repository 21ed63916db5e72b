import Verif.Lemmas.NetExit
namespace Verif
namespace Net
open Pipeline (FilterCode after Proper after_sent after_snoc after_unfinished)
open Topology (Wiring)
variable {F : Type} [F64 F] {p : Setup F} {ls : Nat → Label F}

/-- Nodes are those of the wiring. -/
theorem node_of (t : Nat) {m : Str} {nd : Node F} (h : (run p ls t).nodes m = some nd) :
    (∃ ups ch q r, (m, ups, ch) ∈ p.wiring.filters ∧ nd = .filter (p.filter m) ups.length ch q r) ∨
    ∃ ups r, (m, ups) ∈ p.wiring.sinks ∧ nd = .sink (p.sink m) ups.length r := by
  induction t generalizing nd with
  | zero =>
    simp only [run, initial] at h
    split at h
    · rename_i n ups ch hf
      obtain rfl : n = m := by simpa using List.find?_some hf
      cases h
      exact .inl ⟨ups, ch, _, _, List.mem_of_find?_eq_some hf, rfl⟩
    · split at h
      · rename_i n ups hf
        obtain rfl : n = m := by simpa using List.find?_some hf
        cases h
        exact .inr ⟨ups, _, List.mem_of_find?_eq_some hf, rfl⟩
      · cases h
  | succ t ih =>
    cases hn : (run p ls t).nodes m with
    | none => rw [run, step_nodes, hn] at h; cases h
    | some nd0 =>
      rcases ih hn with ⟨ups, ch, q, r, h1, rfl⟩ | ⟨ups, r, h1, rfl⟩
      · rcases filter_step p _ (ls t) hn with ⟨g, -⟩ | ⟨e, q0, now, -, -, -, g⟩
        · rw [run, g] at h; cases h; exact .inl ⟨ups, ch, _, _, h1, rfl⟩
        · rw [run, g] at h; cases h; exact .inl ⟨ups, ch, _, _, h1, rfl⟩
      · rcases sink_step p _ (ls t) hn with ⟨g, -⟩ | ⟨-, g⟩
        · rw [run, g] at h; cases h; exact .inr ⟨ups, _, h1, rfl⟩
        · rw [run, g] at h; cases h; exact .inr ⟨ups, _, h1, rfl⟩

/-- Only sources `main` has a handle of are told to shut down. -/
theorem told_handles (t : Nat) : (∀ i ∈ (run p ls t).told, i ∈ p.stopOrder) ∧
    ∀ todo, (run p ls t).main = .stopping todo → ∀ i ∈ todo, i ∈ p.stopOrder := by
  induction t with
  | zero => simp [run, initial]
  | succ t ih =>
    by_cases hl : ls t = .main
    · rw [run, hl]
      simp only [step, State.mainStep]
      cases hm : (run p ls t).main with
      | waiting =>
        simp only
        split
        · exact ⟨ih.1, by rintro todo h i hi; cases h; exact hi⟩
        · exact ⟨ih.1, by intro todo h; rw [hm] at h; cases h⟩
      | stopping todo =>
        have hin := ih.2 todo hm
        cases todo with
        | nil => exact ⟨ih.1, by rintro todo h; cases h⟩
        | cons i is =>
          simp only
          split
          · split
            · exact ⟨ih.1, by rintro todo h j hj; cases h; exact hin j (List.mem_cons_of_mem _ hj)⟩
            · exact ih
          · refine ⟨?_, ?_⟩
            · intro j hj
              rcases List.mem_cons.1 hj with rfl | hj
              · exact hin j List.mem_cons_self
              · exact ih.1 j hj
            · intro todo h; cases h; exact hin
      | joining todo =>
        cases todo with
        | nil => exact ⟨ih.1, by rintro todo h; cases h⟩
        | cons n ns =>
          simp only
          split
          · split
            · exact ⟨ih.1, by rintro todo h; cases h⟩
            · exact ⟨ih.1, by intro todo h; rw [hm] at h; cases h⟩
          · exact ⟨ih.1, by rintro todo h; cases h⟩
      | exited => exact ⟨ih.1, by intro todo h; simp only at h; rw [hm] at h; cases h⟩
    · rw [run, step_told p _ _ hl, step_main p _ _ hl]
      exact ih

/-- No `Shutdown` has come near the node. -/
def Calm (p : Setup F) (s : State F) (n : Str) : Prop :=
  (∀ f k ch q r, s.nodes n = some (.filter f k ch q r) → ∃ ins, r = after f.process k { state := f.start } ins ∧
    (∀ i ∈ ins, i.2.isShutdown = false) ∧ ∀ e ∈ q, e.isShutdown = false) ∧
  ∀ k m r, s.nodes n = some (.sink k m r) → r.returned = false ∧ r.current ≠ some .shutdown ∧ some .shutdown ∉ r.queue

theorem calm_not_gone {s : State F} {n : Str} (h : Calm p s n) : ¬ gone s n := by
  rintro ⟨nd, h1, h2⟩
  cases nd with
  | filter f k ch q r =>
    obtain ⟨ins, rfl, h3, -⟩ := h.1 f k ch q r h1
    rw [Node.returned, after_unfinished f.process k ins _ rfl h3] at h2
    cases h2
  | sink k m r =>
    rw [Node.returned, (h.2 k m r h1).1] at h2
    cases h2

theorem sink_calm {κ : Type} (k : SinkImpl F κ) (n : Nat) (r : SinkRun F κ)
    (h : r.returned = false ∧ r.current ≠ some .shutdown ∧ some .shutdown ∉ r.queue) :
    (r.step k n).returned = false ∧ (r.step k n).current ≠ some .shutdown ∧ some .shutdown ∉ (r.step k n).queue := by
  obtain ⟨h1, h2, h3⟩ := h
  simp only [SinkRun.step, h1, Bool.false_eq_true, if_false]
  cases hc : r.current with
  | none =>
    cases hq : r.queue with
    | nil => simp [h1, hc, hq]
    | cons x q =>
      rw [hq] at h3
      simp only [List.mem_cons, not_or] at h3
      cases x with
      | none => exact ⟨rfl, by simp, h3.2⟩
      | some e => exact ⟨rfl, fun h => h3.1 h.symm, h3.2⟩
  | some e =>
    rw [hc] at h2
    simp only
    split
    · have he : e.isShutdown = false := by
        cases he : e.isShutdown with
        | false => rfl
        | true => rw [isShutdown_true he] at h2; exact absurd rfl h2
      obtain ⟨a, b, c, -⟩ := handle_other k n r e he
      rw [a, b, c]
      exact ⟨h1, by simp, h3⟩
    · exact ⟨rfl, h2, h3⟩

/-- What a filter that has not seen a `Shutdown` sends is no `Shutdown`. -/
theorem calm_sends {f : FilterCode F} (hp : Proper f) (k : Nat) (ins : List (Int × Event F)) (now : Int) (e : Event F)
    (hins : ∀ i ∈ ins, i.2.isShutdown = false) (he : e.isShutdown = false) :
    ∀ x ∈ ((after f.process k { state := f.start } ins).step f.process k (some (now, e))).sent.drop
      (after f.process k { state := f.start } ins).sent.length, x.isShutdown = false := by
  intro x hx
  have hx := List.mem_of_mem_drop hx
  rw [← after_snoc, after_sent hp.tidy k _ _ rfl] at hx
  simp only [List.nil_append] at hx
  refine hp.keeps (ins ++ [(now, e)]) ?_ x hx
  intro i hi
  rcases List.mem_append.1 hi with hi | hi
  · exact hins i hi
  · simp only [List.mem_singleton] at hi; rw [hi]; exact he

theorem calm_run (hp : ∀ n ∈ p.wiring.filters.map (·.1), Proper (p.filter n)) (t : Nat) :
    ∀ n, ¬ FedW p n → Calm p (run p ls t) n := by
  induction t with
  | zero =>
    intro n _
    refine ⟨?_, ?_⟩
    · intro f k ch q r h
      simp only [run, initial] at h
      split at h
      · cases h; exact ⟨[], rfl, by simp, by simp⟩
      · split at h <;> cases h
    · intro k m r h
      simp only [run, initial] at h
      split at h
      · cases h
      · split at h
        · cases h; simp
        · cases h
  | succ t ih =>
    intro n hn
    -- nothing that arrives is a `Shutdown`
    have harr : ∀ e ∈ arrive p (run p ls t) (ls t) n, e.isShutdown = false := by
      suffices h : ∀ e ∈ offered p (run p ls t) (ls t) n, e.isShutdown = false from fun e he => h e (arrive_mem he)
      cases hl : ls t with
      | act m now =>
        simp only [offered]
        cases hm : (run p ls t).nodes m with
        | none => simp
        | some nd =>
          simp only
          rcases node_of t hm with ⟨ups, ch, q, r, h1, rfl⟩ | ⟨ups, r, h1, rfl⟩
          · by_cases hfm : FedW p m
            · have hch : ch.count n = 0 := by
                rw [List.count_eq_zero]; intro hc; exact hn (.filter m ups ch n h1 hfm hc)
              intro e he
              simp only [Node.channels, hch, List.mem_flatMap, List.replicate_zero, List.not_mem_nil,
                and_false, exists_false] at he
            · obtain ⟨ins, h2, h3, h4⟩ := (ih m hfm).1 _ _ _ _ _ hm
              intro e he
              obtain ⟨x, hx, he⟩ := List.mem_flatMap.1 he
              rw [(List.mem_replicate.1 he).2]
              cases q with
              | nil => simp [Node.act] at hx
              | cons e0 q0 =>
                simp only [Node.act] at hx
                split at hx
                · simp at hx
                · simp only [h2] at hx
                  exact calm_sends (hp m (List.mem_map.2 ⟨_, h1, rfl⟩)) _ ins now e0 h3 (h4 e0 List.mem_cons_self) x hx
          · simp [Node.act]
      | emit i e =>
        simp only [offered]
        split
        · simp
        · split
          · rename_i hc
            intro x hx
            rw [(List.mem_replicate.1 hx).2]
            have := hc.1
            cases e with
            | shutdown => simp [Event.isServed] at this
            | _ => rfl
          · simp
      | pulse idx =>
        intro x hx
        rw [(List.mem_replicate.1 hx).2]; rfl
      | stop i =>
        simp only [offered]
        split
        · simp
        · rename_i u ch hs
          split
          · rename_i hc
            have hch : ch.count n = 0 := by
              rw [List.count_eq_zero]; intro h
              exact hn (.source i u ch n ((told_handles t).1 i hc.1) hs h)
            simp [hch]
          · simp
      | signal => simp [offered]
      | main => simp [offered]
    have h0 := ih n hn
    cases hnd : (run p ls t).nodes n with
    | none =>
      have : (run p ls (t + 1)).nodes n = none := by rw [run, step_nodes, hnd]; rfl
      refine ⟨?_, ?_⟩
      · intro f k ch q r h; rw [this] at h; cases h
      · intro k m r h; rw [this] at h; cases h
    | some nd =>
      cases nd with
      | filter f k ch q r =>
        obtain ⟨ins, h1, h2, h3⟩ := h0.1 f k ch q r hnd
        rcases filter_step p _ (ls t) hnd with ⟨g, -⟩ | ⟨e, q0, now, -, g1, -, g⟩
        · refine ⟨?_, by intro k m r h; rw [run, g] at h; cases h⟩
          intro f' k' ch' q' r' h
          rw [run, g] at h; cases h
          refine ⟨ins, h1, h2, ?_⟩
          intro e he
          rcases List.mem_append.1 he with he | he
          · exact h3 e he
          · exact harr e he
        · refine ⟨?_, by intro k m r h; rw [run, g] at h; cases h⟩
          intro f' k' ch' q' r' h
          rw [run, g] at h; cases h
          refine ⟨ins ++ [(now, e)], by rw [after_snoc, h1], ?_, ?_⟩
          · intro i hi
            rcases List.mem_append.1 hi with hi | hi
            · exact h2 i hi
            · simp only [List.mem_singleton] at hi; rw [hi]; exact h3 e (by rw [g1]; exact List.mem_cons_self)
          · intro x hx
            rcases List.mem_append.1 hx with hx | hx
            · exact h3 x (by rw [g1]; exact List.mem_cons_of_mem _ hx)
            · exact harr x hx
      | sink k m r =>
        have hr := h0.2 k m r hnd
        have harr' : some .shutdown ∉ (arrive p (run p ls t) (ls t) n).map some := by
          intro h
          obtain ⟨x, hx, he⟩ := List.mem_map.1 h
          have := harr x hx
          rw [Option.some.inj he] at this
          cases this
        rcases sink_step p _ (ls t) hnd with ⟨g, -⟩ | ⟨-, g⟩
        · refine ⟨(by intro f k ch q r h; rw [run, g] at h; cases h), ?_⟩
          intro k' m' r' h
          rw [run, g] at h; cases h
          exact ⟨hr.1, hr.2.1, fun h => (List.mem_append.1 h).elim hr.2.2 harr'⟩
        · refine ⟨(by intro f k ch q r h; rw [run, g] at h; cases h), ?_⟩
          intro k' m' r' h
          rw [run, g] at h; cases h
          have hr := sink_calm k.impl m r hr
          exact ⟨hr.1, hr.2.1, fun h => (List.mem_append.1 h).elim hr.2.2 harr'⟩

/-- `main` leaves `signal.recv()` only when a signal has arrived. -/
theorem signal_seen (t : Nat) : ((run p ls t).signalled = true → ∃ t' < t, ls t' = .signal) ∧
    ((run p ls t).main ≠ .waiting → (run p ls t).signalled = true) := by
  induction t with
  | zero => exact ⟨(by intro h; cases h), (by intro h; exact absurd rfl h)⟩
  | succ t ih =>
    have hback : (run p ls (t + 1)).signalled = true → (run p ls t).signalled = true ∨ ls t = .signal := by
      intro h
      cases hl : ls t with
      | signal => exact .inr rfl
      | act n now =>
        left; rw [run, hl] at h; simp only [step] at h
        split at h
        · exact h
        · rw [(sendAll_rest _ _ _ _ _).1] at h; exact h
      | emit i e =>
        left; rw [run, hl] at h; simp only [step] at h
        repeat' split at h
        all_goals first | exact h | (rw [(send_rest _ _ _ _ _).1] at h; exact h)
      | pulse idx => left; rw [run, hl] at h; simp only [step] at h; rw [(send_rest _ _ _ _ _).1] at h; exact h
      | stop i =>
        left; rw [run, hl] at h; simp only [step] at h
        repeat' split at h
        all_goals first | exact h | (simp only at h; rw [(send_rest _ _ _ _ _).1] at h; exact h)
      | main =>
        left; rw [run, hl] at h; simp only [step, State.mainStep] at h
        repeat' split at h
        all_goals exact h
    refine ⟨?_, ?_⟩
    · intro h
      rcases hback h with h | h
      · obtain ⟨t', h1, h2⟩ := ih.1 h
        exact ⟨t', by omega, h2⟩
      · exact ⟨t, by omega, h⟩
    · intro h
      rw [run]
      apply step_signalled
      by_cases hl : ls t = .main
      · rw [run, hl] at h
        simp only [step, State.mainStep] at h
        by_cases hw : (run p ls t).main = .waiting
        · cases hs : (run p ls t).signalled with
          | true => rfl
          | false => simp [hw, hs] at h
        · exact ih.2 hw
      · rw [run, step_main p _ _ hl] at h
        exact ih.2 h

/-- `main` gets past a source only when it has returned. -/
theorem stopped {i : Nat} (hj : i ∈ p.stopOrder) (t : Nat) :
    (∀ todo, (run p ls t).main = .stopping todo → i ∈ todo ∨ i ∈ (run p ls t).ended) ∧
    (∀ todo, (run p ls t).main = .joining todo → i ∈ (run p ls t).ended) ∧
    ((run p ls t).main = .exited → i ∈ (run p ls t).ended) := by
  induction t with
  | zero => simp [run, initial]
  | succ t ih =>
    have keep : i ∈ (run p ls t).ended → i ∈ (run p ls (t + 1)).ended := fun h => ended_stable _ h
    by_cases hl : ls t = .main
    · have hmain : (run p ls (t + 1)).main = ((run p ls t).mainStep p).main := by rw [run, hl]; rfl
      rw [hmain]
      simp only [State.mainStep]
      cases hm : (run p ls t).main with
      | waiting =>
        simp only
        split
        · exact ⟨(by rintro todo h; cases h; exact .inl hj), (by rintro todo h; cases h), (by intro h; cases h)⟩
        · rw [hm]; exact ⟨(by rintro todo h; cases h), (by rintro todo h; cases h), (by intro h; cases h)⟩
      | stopping todo =>
        have h1 := ih.1 todo hm
        cases todo with
        | nil =>
          have h1 : i ∈ (run p ls t).ended := by simpa using h1
          exact ⟨(by rintro todo h; cases h), fun _ _ => keep h1, (by intro h; cases h)⟩
        | cons j js =>
          simp only
          split
          · split
            · rename_i hj2
              refine ⟨?_, (by rintro todo h; cases h), (by intro h; cases h)⟩
              rintro todo h; cases h
              rcases h1 with h1 | h1
              · rcases List.mem_cons.1 h1 with rfl | h1
                · exact .inr (keep hj2)
                · exact .inl h1
              · exact .inr (keep h1)
            · rw [hm]
              refine ⟨?_, (by rintro todo h; cases h), (by intro h; cases h)⟩
              rintro todo h; cases h; exact h1.imp id keep
          · simp only [hm]
            refine ⟨?_, (by rintro todo h; cases h), (by intro h; cases h)⟩
            rintro todo h; cases h; exact h1.imp id keep
      | joining todo =>
        have h1 := keep (ih.2.1 todo hm)
        exact ⟨fun _ _ => .inr h1, fun _ _ => h1, fun _ => h1⟩
      | exited =>
        have h1 := keep (ih.2.2 hm)
        exact ⟨fun _ _ => .inr h1, fun _ _ => h1, fun _ => h1⟩
    · have hmain : (run p ls (t + 1)).main = (run p ls t).main := by rw [run]; exact step_main p _ _ hl
      rw [hmain]
      exact ⟨fun todo h => (ih.1 todo h).imp id keep, fun todo h => keep (ih.2.1 todo h), fun h => keep (ih.2.2 h)⟩

/-- `main` gets past a node only when it has returned. -/
theorem joined {n : Str} (hn : ∀ t, ((run p ls t).nodes n).isSome) (hj : n ∈ p.joinOrder) (t : Nat) :
    (∀ todo, (run p ls t).main = .joining todo → n ∈ todo ∨ gone (run p ls t) n) ∧
    ((run p ls t).main = .exited → gone (run p ls t) n) := by
  induction t with
  | zero => simp [run, initial]
  | succ t ih =>
    have keep : ∀ {s' : State F}, s' = run p ls (t + 1) → gone (run p ls t) n → gone s' n := by
      rintro s' rfl h; exact gone_stable _ h
    by_cases hl : ls t = .main
    · have hnodes : (run p ls (t + 1)).nodes = (run p ls t).nodes := by
        rw [run, hl]; exact mainStep_nodes p _
      have hgone : ∀ m, gone (run p ls (t + 1)) m ↔ gone (run p ls t) m := by
        intro m; simp only [gone, hnodes]
      rw [hgone]
      have hmain : (run p ls (t + 1)).main = ((run p ls t).mainStep p).main := by rw [run, hl]; rfl
      rw [hmain]
      simp only [State.mainStep]
      cases hm : (run p ls t).main with
      | waiting =>
        simp only
        split
        · exact ⟨(by rintro todo h; cases h), (by intro h; cases h)⟩
        · rw [hm]; exact ⟨(by rintro todo h; cases h), (by intro h; cases h)⟩
      | stopping todo =>
        cases todo with
        | nil => exact ⟨(by rintro todo h; cases h; exact .inl hj), (by intro h; cases h)⟩
        | cons i is =>
          simp only
          split
          · split
            · exact ⟨(by rintro todo h; cases h), (by intro h; cases h)⟩
            · rw [hm]; exact ⟨(by rintro todo h; cases h), (by intro h; cases h)⟩
          · simp only [hm]; exact ⟨(by rintro todo h; cases h), (by intro h; cases h)⟩
      | joining todo =>
        have h1 := ih.1 todo hm
        cases todo with
        | nil => exact ⟨(by rintro todo h; cases h), fun _ => by simpa using h1⟩
        | cons a ns =>
          simp only
          cases hna : (run p ls t).nodes a with
          | none =>
            simp only
            refine ⟨?_, by intro h; cases h⟩
            rintro todo h; cases h
            rcases h1 with h1 | h1
            · rcases List.mem_cons.1 h1 with rfl | h1
              · have := hn t; rw [hna] at this; cases this
              · exact .inl h1
            · exact .inr h1
          | some nd =>
            simp only
            split
            · rename_i hr
              refine ⟨?_, by intro h; cases h⟩
              rintro todo h; cases h
              rcases h1 with h1 | h1
              · rcases List.mem_cons.1 h1 with rfl | h1
                · exact .inr ⟨nd, hna, hr⟩
                · exact .inl h1
              · exact .inr h1
            · rw [hm]; exact ⟨(by rintro todo h; cases h; exact h1), by intro h; cases h⟩
      | exited => simp only [hm]; exact ⟨(by rintro todo h; cases h), fun _ => ih.2 hm⟩
    · have hmain : (run p ls (t + 1)).main = (run p ls t).main := by rw [run]; exact step_main p _ _ hl
      rw [hmain]
      exact ⟨fun todo h => (ih.1 todo h).imp id (gone_stable _), fun h => gone_stable _ (ih.2 h)⟩

/-- A node that is not fed keeps the process from exiting. -/
theorem hangs (hp : ∀ n ∈ p.wiring.filters.map (·.1), Proper (p.filter n)) {n : Str}
    (hn : ((initial p).nodes n).isSome) (hj : n ∈ p.joinOrder) (hfed : ¬ FedW p n) (t : Nat) :
    (run p ls t).main ≠ .exited := by
  intro h
  have hsome : ∀ t, ((run p ls t).nodes n).isSome := by
    intro t
    induction t with
    | zero => exact hn
    | succ t ih => rw [run, step_nodes, Option.isSome_map]; exact ih
  exact calm_not_gone (calm_run hp t n hfed) ((joined hsome hj t).2 h)

end Net
end Verif
