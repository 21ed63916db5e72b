import Verif.Lemmas.NetHang
namespace Verif
namespace Net
open Pipeline (FilterCode after after_snoc)
open Topology (Wiring)
variable {F : Type} [F64 F] {p : Setup F} {ls : Nat → Label F}

theorem acceptedFrom_append (x : Sender) (a b : List (Sender × Event F)) :
    acceptedFrom x (a ++ b) = acceptedFrom x a ++ acceptedFrom x b := by simp [acceptedFrom]

theorem acceptedFrom_same (x : Sender) (es : List (Event F)) : acceptedFrom x (es.map (x, ·)) = es := by
  induction es with
  | nil => rfl
  | cons e es ih => simpa [acceptedFrom] using ih

theorem acceptedFrom_other {x y : Sender} (h : y ≠ x) (es : List (Event F)) : acceptedFrom x (es.map (y, ·)) = [] := by
  induction es with
  | nil => rfl
  | cons e es ih => simpa [acceptedFrom, h] using ih

theorem acceptedFrom_only {x : Sender} {log : List (Sender × Event F)} (h : ∀ y ∈ log, y.1 = x) :
    log.map (·.2) = acceptedFrom x log := by
  rw [acceptedFrom, List.filter_eq_self.2]
  intro y hy
  simp [h y hy]

theorem present {n : Str} (h : ((initial p).nodes n).isSome) (t : Nat) : ((run p ls t).nodes n).isSome := by
  induction t with
  | zero => exact h
  | succ t ih => rw [run, step_nodes, Option.isSome_map]; exact ih

theorem log_succ {n : Str} (h : ((initial p).nodes n).isSome) (t : Nat) :
    (run p ls (t + 1)).log n = (run p ls t).log n ++ (arrive p (run p ls t) (ls t) n).map (sender (ls t), ·) := by
  rw [run, step_log, if_pos (present h t)]

theorem lost_succ {n : Str} (h : ((initial p).nodes n).isSome) (t : Nat) :
    (run p ls (t + 1)).lost n = (run p ls t).lost n ++
      (spill (p.full n) ((run p ls t).tries n) (offered p (run p ls t) (ls t) n)).map (sender (ls t), ·) := by
  rw [run, step_lost, if_pos (present h t)]

/-- A filter's queue and what it has made of it. -/
theorem filter_log (hL : Linked p) {n : Str} {ups downs : List Str} (h : (n, ups, downs) ∈ p.wiring.filters) (t : Nat) :
    ∃ ins q, (run p ls t).nodes n = some (.filter (p.filter n) ups.length downs q
        (after (p.filter n).process ups.length { state := (p.filter n).start } ins)) ∧
      ((run p ls t).log n).map (·.2) = ins.map (·.2) ++ q := by
  have h0 : ((initial p).nodes n).isSome := by rw [hL.filterNode n ups downs h]; rfl
  induction t with
  | zero => exact ⟨[], [], hL.filterNode n ups downs h, rfl⟩
  | succ t ih =>
    obtain ⟨ins, q, h1, h2⟩ := ih
    rw [log_succ h0]
    rcases filter_step p _ (ls t) h1 with ⟨g, -⟩ | ⟨e, q0, now, -, rfl, g2, g3⟩
    · exact ⟨ins, _, g, by simp [h2, Function.comp_def]⟩
    · refine ⟨ins ++ [(now, e)], _, by rw [after_snoc]; exact g3, by simp [h2, Function.comp_def]⟩

/-- A sink's queue and what it has made of it. -/
theorem sink_log (hL : Linked p) {n : Str} {ups : List Str} (h : (n, ups) ∈ p.wiring.sinks) {iv : Option Nat}
    (hiv : ∀ s, (p.sink n).impl.flushInterval s = iv) (t : Nat) :
    ∃ r c, (run p ls t).nodes n = some (.sink (p.sink n) ups.length r) ∧
      SinkInv (p.sink n).impl iv (((run p ls t).log n).map (·.2)) r c := by
  have h0 : ((initial p).nodes n).isSome := by rw [hL.sinkNode n ups h]; rfl
  have push : ∀ {all r c} (es : List (Event F)), SinkInv (p.sink n).impl iv all r c →
      SinkInv (p.sink n).impl iv (all ++ es) { r with queue := r.queue ++ es.map some } c := by
    intro all r c es h
    refine ⟨?_, h.noShutdown, h.delivered, h.last, h.flushed, h.valve, h.shutdown, h.ret⟩
    rw [h.split]
    have : arrivals (es.map some) = es := by
      simp [arrivals, List.filterMap_map, Function.comp_def]
    simp only [arrivals, List.filterMap_append] at this ⊢
    rw [this, List.append_assoc]
  induction t with
  | zero => exact ⟨_, [], hL.sinkNode n ups h, SinkInv.init _ iv _ []⟩
  | succ t ih =>
    obtain ⟨r, c, h1, h2⟩ := ih
    rw [log_succ h0, List.map_append, List.map_map]
    have he : (arrive p (run p ls t) (ls t) n).map ((·.2) ∘ (sender (ls t), ·)) = arrive p (run p ls t) (ls t) n := by
      simp [Function.comp_def]
    rw [he]
    rcases sink_step p _ (ls t) h1 with ⟨g, -⟩ | ⟨-, g⟩
    · exact ⟨_, c, g, push _ h2⟩
    · obtain ⟨c', h3, -⟩ := h2.step hiv ups.length
      exact ⟨_, c', g, push _ h3⟩

/-- A sink whose queue has not accepted a `Shutdown` has not returned. -/
theorem sink_unended (hL : Linked p) {n : Str} {ups : List Str} (h : (n, ups) ∈ p.wiring.sinks) (t : Nat)
    (hno : ∀ x ∈ (run p ls t).log n, x.2.isShutdown = false) : ∃ r, (run p ls t).nodes n = some (.sink (p.sink n) ups.length r) ∧
      r.returned = false ∧ r.current ≠ some .shutdown ∧ some .shutdown ∉ r.queue := by
  have h0 : ((initial p).nodes n).isSome := by rw [hL.sinkNode n ups h]; rfl
  induction t with
  | zero => exact ⟨_, hL.sinkNode n ups h, rfl, by simp, by simp⟩
  | succ t ih =>
    rw [log_succ h0] at hno
    obtain ⟨r, h1, h2⟩ := ih fun x hx => hno x (List.mem_append_left _ hx)
    have harr : some Event.shutdown ∉ (arrive p (run p ls t) (ls t) n).map some := by
      intro hx
      obtain ⟨e, he, hs⟩ := List.mem_map.1 hx
      have := hno (sender (ls t), e) (List.mem_append_right _ (List.mem_map.2 ⟨e, he, rfl⟩))
      rw [Option.some.inj hs] at this
      cases this
    rcases sink_step p _ (ls t) h1 with ⟨g, -⟩ | ⟨-, g⟩
    · exact ⟨_, g, h2.1, h2.2.1, fun h => (List.mem_append.1 h).elim h2.2.2 harr⟩
    · have h3 := sink_calm (p.sink n).impl ups.length r h2
      exact ⟨_, g, h3.1, h3.2.1, fun h => (List.mem_append.1 h).elim h3.2.2 harr⟩

/-- Nor has a filter. -/
theorem unended (hL : Linked p) {n : Str} (h : (∃ ups, (n, ups) ∈ p.wiring.sinks) ∨ ∃ ups downs, (n, ups, downs) ∈ p.wiring.filters) (t : Nat)
    (hno : ∀ x ∈ (run p ls t).log n, x.2.isShutdown = false) : ¬ gone (run p ls t) n := by
  rintro ⟨nd, h1, h2⟩
  rcases h with ⟨ups, h⟩ | ⟨ups, downs, h⟩
  · obtain ⟨r, h3, h4, -⟩ := sink_unended hL h t hno
    rw [h3] at h1
    cases h1
    rw [Node.returned, h4] at h2
    cases h2
  · obtain ⟨ins, q, h3, h4⟩ := filter_log (ls := ls) hL h t
    rw [h3] at h1
    cases h1
    rw [Node.returned, Pipeline.after_unfinished _ _ ins _ rfl] at h2
    · cases h2
    · intro i hi
      have : i.2 ∈ ((run p ls t).log n).map (·.2) := by rw [h4]; exact List.mem_append_left _ (List.mem_map.2 ⟨i, hi, rfl⟩)
      obtain ⟨x, hx, he⟩ := List.mem_map.1 this
      rw [← he]; exact hno x hx

theorem log_stable {n : Str} (h : ((initial p).nodes n).isSome) {t t' : Nat} (ht : t ≤ t') : (run p ls t).log n <+: (run p ls t').log n := by
  induction ht with
  | refl => exact List.prefix_rfl
  | step _ ih => exact ih.trans (by rw [log_succ h]; exact List.prefix_append _ _)

theorem lost_stable {n : Str} (h : ((initial p).nodes n).isSome) {t t' : Nat} (ht : t ≤ t') : (run p ls t).lost n <+: (run p ls t').lost n := by
  induction ht with
  | refl => exact List.prefix_rfl
  | step _ ih => exact ih.trans (by rw [lost_succ h]; exact List.prefix_append _ _)

theorem spill_none {α : Type} {full : Nat → Bool} : ∀ {a : List α} {k : Nat}, (∀ j ≥ k, full j = false) → spill full k a = [] := by
  intro a
  induction a with
  | nil => intro k _; rfl
  | cons e a ih =>
    intro k h
    simp only [spill, h k (Nat.le_refl _), Bool.false_eq_true, if_false]
    exact ih fun j hj => h j (by omega)

/-- Once a queue is never full again, nothing more is lost. -/
theorem lost_settled {n : Str} {T t : Nat} (ht : T ≤ t) (h : ∀ k ≥ (run p ls T).tries n, p.full n k = false) :
    (run p ls t).lost n = (run p ls T).lost n := by
  suffices (run p ls t).lost n = (run p ls T).lost n ∧ (run p ls T).tries n ≤ (run p ls t).tries n from this.1
  induction ht with
  | refl => exact ⟨rfl, Nat.le_refl _⟩
  | @step t _ ih =>
    have h1 : (run p ls (t + 1)).lost n = (run p ls t).lost n := by
      rw [run, step_lost]
      split
      · rw [spill_none fun j hj => h j (by omega)]; simp
      · simp
    refine ⟨h1.trans ih.1, ?_⟩
    show _ ≤ (run p ls (t + 1)).tries n
    have h2 : ((run p ls t).log n).length ≤ ((run p ls (t + 1)).log n).length := by
      rw [run, step_log]; simp
    have := ih.2
    simp only [State.tries] at this ⊢
    rw [h1]; omega

theorem shutdowns_kept (T : Nat) (h : ∀ n, (∀ k, p.full n k = false) ∨
    (∀ t < T, ∀ x, (x, Event.shutdown) ∉ (run p ls t).lost n) ∧ (∀ x, (x, Event.shutdown) ∉ (run p ls T).lost n) ∧
      ∀ k ≥ (run p ls T).tries n, p.full n k = false) : ShutdownsKept p ls := by
  intro t n x
  rcases h n with h | ⟨h1, h2, h3⟩
  · rw [lost_settled (Nat.zero_le t) fun k _ => h k]; simp [run, initial]
  · by_cases ht : t < T
    · exact h1 t ht x
    · rw [lost_settled (by omega) h3]; exact h2 x

theorem keep_zipIdx {α β : Type} (full : Nat → Bool) (f : α → β) : ∀ (a : List α) (k : Nat),
    (keep full k a).map f = (((a.map f).zipIdx k).filter fun x => !full x.2).map (·.1) ∧
    (spill full k a).map f = (((a.map f).zipIdx k).filter fun x => full x.2).map (·.1) := by
  intro a
  induction a with
  | nil => intro k; exact ⟨rfl, rfl⟩
  | cons e a ih =>
    intro k
    obtain ⟨h1, h2⟩ := ih (k + 1)
    simp only [keep, spill, List.map_cons, List.zipIdx_cons]
    cases hk : full k <;> simp [hk, h1, h2]

/-- What was sent to a queue, and which of it was accepted. -/
theorem log_full (n : Str) (t : Nat) : ∃ sent : List (Sender × Event F), sent.length = (run p ls t).tries n ∧
    (run p ls t).log n = ((sent.zipIdx).filter fun x => !p.full n x.2).map (·.1) ∧
    (run p ls t).lost n = ((sent.zipIdx).filter fun x => p.full n x.2).map (·.1) := by
  induction t with
  | zero => exact ⟨[], rfl, rfl, rfl⟩
  | succ t ih =>
    obtain ⟨sent, h1, h2, h3⟩ := ih
    rw [State.tries, run, step_log, step_lost]
    by_cases hn : ((run p ls t).nodes n).isSome
    · simp only [hn, if_true]
      refine ⟨sent ++ (offered p (run p ls t) (ls t) n).map (sender (ls t), ·), ?_, ?_, ?_⟩
      · have := keep_spill_length (p.full n) (offered p (run p ls t) (ls t) n) ((run p ls t).tries n)
        simp only [List.length_append, List.length_map, arrive, State.tries] at h1 this ⊢
        omega
      · rw [List.zipIdx_append, List.filter_append, List.map_append, ← h2, arrive, (keep_zipIdx _ _ _ _).1, h1, Nat.zero_add]
      · rw [List.zipIdx_append, List.filter_append, List.map_append, ← h3, (keep_zipIdx _ _ _ _).2, h1, Nat.zero_add]
    · simp only [hn, Bool.false_eq_true, if_false, List.append_nil]
      exact ⟨sent, h1, h2, h3⟩

/-- Who may send to a node. -/
theorem log_senders {n : Str} (h : ((initial p).nodes n).isSome) (t : Nat) : ∀ x ∈ (run p ls t).log n,
    match x.1 with
    | .source i => ∃ u ch, p.wiring.sources[i]? = some (u, ch) ∧ n ∈ ch
    | .filter f => ∃ ups ch, (f, ups, ch) ∈ p.wiring.filters ∧ n ∈ ch
    | .timer => n ∈ p.wiring.flush ∧ x.2.isTimerFlush = true := by
  induction t with
  | zero => intro x hx; cases hx
  | succ t ih =>
    intro x hx
    rw [log_succ h] at hx
    rcases List.mem_append.1 hx with hx | hx
    · exact ih x hx
    obtain ⟨e, he, rfl⟩ := List.mem_map.1 hx
    have he := arrive_mem he
    cases hl : ls t with
    | act f now =>
      simp only [hl, offered, sender] at he ⊢
      cases hf : (run p ls t).nodes f with
      | none => simp [hf] at he
      | some nd =>
        simp only [hf, List.mem_flatMap, List.mem_replicate] at he
        obtain ⟨e', h1, h2, -⟩ := he
        have hmem : n ∈ nd.channels := List.count_pos_iff.1 (Nat.pos_of_ne_zero h2)
        rcases node_of t hf with ⟨ups, ch, q, r, g1, rfl⟩ | ⟨ups, r, g1, rfl⟩
        · exact ⟨ups, ch, g1, hmem⟩
        · simp [Node.channels] at hmem
    | emit i e' =>
      simp only [hl, offered, sender] at he ⊢
      split at he
      · cases he
      · rename_i u ch hs
        split at he
        · exact ⟨u, ch, hs, List.count_pos_iff.1 (Nat.pos_of_ne_zero (List.mem_replicate.1 he).1)⟩
        · cases he
    | pulse idx =>
      simp only [hl, offered, sender] at he ⊢
      obtain ⟨h1, rfl⟩ := List.mem_replicate.1 he
      exact ⟨List.count_pos_iff.1 (Nat.pos_of_ne_zero h1), rfl⟩
    | stop i =>
      simp only [hl, offered, sender] at he ⊢
      split at he
      · cases he
      · rename_i u ch hs
        split at he
        · exact ⟨u, ch, hs, List.count_pos_iff.1 (Nat.pos_of_ne_zero (List.mem_replicate.1 he).1)⟩
        · cases he
    | signal => simp [hl, offered] at he
    | main => simp [hl, offered] at he

/-- What a node's queue has accepted from a source, and what was dropped. -/
theorem from_source {n : Str} (h : ((initial p).nodes n).isSome) {i : Nat} {u : Str} {ch : List Str}
    (hs : p.wiring.sources[i]? = some (u, ch)) (t : Nat) :
    Parted (acceptedFrom (.source i) ((run p ls t).log n)) (acceptedFrom (.source i) ((run p ls t).lost n))
      ((sourceSent p ls i t).flatMap (List.replicate (ch.count n))) := by
  induction t with
  | zero => exact .nil
  | succ t ih =>
    rw [log_succ h, lost_succ h, acceptedFrom_append, acceptedFrom_append, sourceSent, List.flatMap_append]
    refine ih.append ?_
    cases hl : ls t with
    | act f now =>
      simp only [sender]
      rw [acceptedFrom_other (by simp), acceptedFrom_other (by simp)]; exact .nil
    | pulse idx =>
      simp only [sender]
      rw [acceptedFrom_other (by simp), acceptedFrom_other (by simp)]; exact .nil
    | signal => exact .nil
    | main => exact .nil
    | emit j e =>
      by_cases hj : j = i
      · subst hj
        simp only [sender, acceptedFrom_same, arrive, offered, hs, true_and]
        by_cases hc : Event.isServed e = true ∧ j ∉ (run p ls t).ended
        · rw [if_pos hc, if_pos hc]
          simpa using keep_spill_parted (p.full n) (List.replicate (ch.count n) e) ((run p ls t).tries n)
        · rw [if_neg hc, if_neg hc]; exact .nil
      · simp only [hj, false_and, if_false, sender]
        rw [acceptedFrom_other (by simpa using hj), acceptedFrom_other (by simpa using hj)]; exact .nil
    | stop j =>
      by_cases hj : j = i
      · subst hj
        simp only [sender, acceptedFrom_same, arrive, offered, hs, true_and]
        by_cases hc : j ∈ (run p ls t).told ∧ j ∉ (run p ls t).ended
        · rw [if_pos hc, if_pos hc]
          simpa using keep_spill_parted (p.full n) (List.replicate (ch.count n) (Event.shutdown : Event F)) ((run p ls t).tries n)
        · rw [if_neg hc, if_neg hc]; exact .nil
      · simp only [hj, false_and, if_false, sender]
        rw [acceptedFrom_other (by simpa using hj), acceptedFrom_other (by simpa using hj)]; exact .nil

/-- What a node's queue has accepted from a filter, and what was dropped. -/
theorem from_filter (hL : Linked p) {n : Str} (h : ((initial p).nodes n).isSome) {f : Str} {ups ch : List Str}
    (hf : (f, ups, ch) ∈ p.wiring.filters) (t : Nat) : ∃ q r,
    (run p ls t).nodes f = some (.filter (p.filter f) ups.length ch q r) ∧
    Parted (acceptedFrom (.filter f) ((run p ls t).log n)) (acceptedFrom (.filter f) ((run p ls t).lost n))
      (r.sent.flatMap (List.replicate (ch.count n))) := by
  induction t with
  | zero => exact ⟨_, _, hL.filterNode f ups ch hf, .nil⟩
  | succ t ih =>
    obtain ⟨q, r, h1, h2⟩ := ih
    rw [log_succ h, lost_succ h, acceptedFrom_append, acceptedFrom_append]
    by_cases hl : ∃ now, ls t = .act f now
    · obtain ⟨now, hl⟩ := hl
      rw [run, step_nodes, h1]
      simp only [hl, sender, acceptedFrom_same, base, if_true, Option.map_some]
      have key := keep_spill_parted (p.full n) (offered p (run p ls t) (.act f now) n) ((run p ls t).tries n)
      have both := h2.append key
      simp only [offered, h1] at both
      cases q with
      | nil =>
        refine ⟨_, r, by simp only [Node.act, pushAll_filter]; rfl, ?_⟩
        simp only [Node.act, List.flatMap_nil, List.append_nil] at both
        simpa [arrive, offered, h1, Node.act] using both
      | cons e q0 =>
        by_cases hfin : r.finished = true
        · refine ⟨_, r, by simp only [Node.act, hfin, if_true, pushAll_filter]; rfl, ?_⟩
          simp only [Node.act, hfin, if_true, List.flatMap_nil, List.append_nil] at both
          simpa [arrive, offered, h1, Node.act, hfin] using both
        · refine ⟨_, r.step (p.filter f).process ups.length (some (now, e)), by simp only [Node.act, if_neg hfin, pushAll_filter]; rfl, ?_⟩
          obtain ⟨more, hm⟩ := Pipeline.step_sent (p.filter f).process ups.length r (now, e)
          simp only [arrive, offered, h1, Node.act, if_neg hfin, Node.channels, hm, List.drop_left, List.flatMap_append] at both ⊢
          exact both
    · have hne : sender (ls t) ≠ .filter f := by
        cases hl' : ls t with
        | act g now =>
          simp only [sender, ne_eq, Sender.filter.injEq]
          rintro rfl
          exact hl ⟨now, hl'⟩
        | _ => simp [sender]
      rw [acceptedFrom_other hne, acceptedFrom_other hne, List.append_nil, List.append_nil]
      rcases filter_step p _ (ls t) h1 with ⟨g, -⟩ | ⟨e, q0, now, g1, -⟩
      · exact ⟨_, r, g, h2⟩
      · exact absurd ⟨now, g1⟩ hl

end Net
end Verif
