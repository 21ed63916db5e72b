import Verif.Spec.Tcp
import Verif.Lemmas.Thread
/-! # Lemmas about the accept loop and the datagram loop -/
namespace Verif
namespace Tcp

/-- The tokens the loop has been told about and is not done with. -/
def State.look (s : State) : List Nat := match s.phase with
  | .handling es => es
  | .accepting i es => i :: es
  | _ => []

theorem noticed_iff (s : State) (t : Nat) : s.noticed t ↔ s.pending t = true ∨ t ∈ s.look := by
  unfold State.noticed State.look
  cases s.phase <;> simp
  · constructor
    · rintro (h | ⟨i, es, ⟨rfl, rfl⟩, h⟩)
      · exact .inl h
      · exact .inr h
    · rintro (h | h)
      · exact .inl h
      · exact .inr ⟨_, _, ⟨rfl, rfl⟩, h⟩

structure Inv (n : Nat) (s : State) : Prop where
  len : s.listeners.length = n
  threads : Thread.Inv s.threads
  serving : s.threads.phase = .serving
  count : s.threads.spawned.length = s.accepted.length
  range : ∀ t ∈ s.look, t = SYSTEM ∨ t ≤ n
  acc : ∀ i es, s.phase = .accepting i es → i < n
  waiting : s.serving → ∀ i l, s.listeners[i]? = some l → l.registered = true → 0 < l.waiting → s.pending i = true ∨ i ∈ s.look
  ended : s.serving → ∀ id ∈ s.threads.pool.joinable, id ∈ s.unflagged ∨ s.pending n = true ∨ n ∈ s.look

theorem Inv.start (bs : List Bool) : Inv bs.length (State.start bs) := by
  constructor <;> simp [State.start, State.look]
  · exact Thread.Inv.init
  · rintro - i l (⟨-, rfl⟩ | ⟨-, rfl⟩) - h <;> simp at h

theorem pending_listener {s : State} {i : Nat} (hi : i < s.listeners.length) (hn : s.listeners.length < SYSTEM) :
    s.pending i = (s.listeners[i].registered && s.listeners[i].ready) := by
  have h1 : i ≠ SYSTEM := by omega
  have h2 : i ≠ s.listeners.length := by omega
  simp [State.pending, h1, h2, hi]

theorem pending_stream {s : State} (hn : s.listeners.length < SYSTEM) : s.pending s.listeners.length = s.streamReady := by
  have h1 : s.listeners.length ≠ SYSTEM := by omega
  simp [State.pending, h1]

theorem report_len (s : State) (t : Nat) : (s.report t).listeners.length = s.listeners.length := by
  simp only [State.report, State.modify]; split <;> (try split) <;> simp

/-- Reporting one event leaves the others pending. -/
theorem report_pending {s : State} {t u : Nat} (h : s.pending u = true) (hne : u ≠ t) : (s.report t).pending u = true := by
  simp only [State.pending, State.report, State.modify] at *
  by_cases ht : t = SYSTEM
  · subst ht; simp_all
  · by_cases ht' : t = s.listeners.length
    · subst ht'; simp_all
    · simp only [ht, ht', if_false, List.length_modify, List.getElem?_modify]
      by_cases hu : u = SYSTEM
      · simp_all
      · by_cases hu' : u = s.listeners.length
        · simp_all
        · simp only [hu, hu', if_false] at h ⊢
          have : t ≠ u := fun e => hne e.symm
          cases hl : s.listeners[u]? <;> simp_all

theorem report_rest (s : State) (t : Nat) : (s.report t).threads = s.threads ∧ (s.report t).accepted = s.accepted ∧
    (s.report t).unflagged = s.unflagged ∧ (s.report t).phase = s.phase := by
  simp only [State.report, State.modify]; split <;> (try split) <;> simp

theorem report_listener (s : State) (t i : Nat) (l : Listener) (h : (s.report t).listeners[i]? = some l) :
    ∃ l', s.listeners[i]? = some l' ∧ l'.registered = l.registered ∧ l'.waiting = l.waiting := by
  simp only [State.report, State.modify] at h
  by_cases ht : t = SYSTEM
  · simp_all
  · by_cases ht' : t = s.listeners.length
    · simp_all
    · simp only [ht, ht', if_false, List.getElem?_modify] at h
      cases hl : s.listeners[i]? with
      | none => simp [hl] at h
      | some l' =>
        simp only [hl, Option.map_eq_map, Option.map_some, Option.some.injEq] at h
        refine ⟨l', rfl, ?_⟩
        subst h
        by_cases hti : t = i <;> simp [hti]

theorem reports (es : List Nat) : ∀ s : State,
    (es.foldl State.report s).listeners.length = s.listeners.length ∧
    (es.foldl State.report s).threads = s.threads ∧ (es.foldl State.report s).accepted = s.accepted ∧
    (es.foldl State.report s).unflagged = s.unflagged ∧
    (∀ u, s.pending u = true → u ∉ es → (es.foldl State.report s).pending u = true) ∧
    ∀ (i : Nat) (l : Listener), (es.foldl State.report s).listeners[i]? = some l →
      ∃ l' : Listener, s.listeners[i]? = some l' ∧ l'.registered = l.registered ∧ l'.waiting = l.waiting := by
  induction es with
  | nil => intro s; exact ⟨rfl, rfl, rfl, rfl, fun _ h _ => h, fun _ l h => ⟨l, h, rfl, rfl⟩⟩
  | cons e es ih =>
    intro s
    obtain ⟨h1, h2, h3, h4, h5, h6⟩ := ih (s.report e)
    obtain ⟨r1, r2, r3, -⟩ := report_rest s e
    simp only [List.foldl_cons]
    refine ⟨h1.trans (report_len s e), h2.trans r1, h3.trans r2, h4.trans r3, ?_, ?_⟩
    · intro u hu hn
      simp only [List.mem_cons, not_or] at hn
      exact h5 u (report_pending hu hn.1) hn.2
    · intro i l hl
      obtain ⟨l', hl', e1, e2⟩ := h6 i l hl
      obtain ⟨l'', hl'', e1', e2'⟩ := report_listener s e i l' hl'
      exact ⟨l'', hl'', e1'.trans e1, e2'.trans e2⟩

theorem pending_congr {s s' : State} (h1 : s'.listeners = s.listeners) (h2 : s'.streamReady = s.streamReady)
    (h3 : s'.systemReady = s.systemReady) (t : Nat) : s'.pending t = s.pending t := by
  simp [State.pending, h1, h2, h3]

theorem pending_modify {s : State} {i u : Nat} {f : Listener → Listener} (hf : ∀ l, (f l).registered = l.registered ∧ (l.ready = true → (f l).ready = true))
    (h : s.pending u = true) : (s.modify i f).pending u = true := by
  simp only [State.pending, State.modify, List.length_modify, List.getElem?_modify] at *
  by_cases hu : u = SYSTEM
  · simp_all
  · by_cases hu' : u = s.listeners.length
    · simp_all
    · simp only [hu, hu', if_false] at h ⊢
      cases hl : s.listeners[u]? with
      | none => simp [hl] at h
      | some l =>
        simp only [hl, Option.map_some] at h ⊢
        by_cases hiu : i = u
        · simp only [hiu, if_true]; have := hf l; simp_all
        · simpa [hiu] using h

theorem Inv.step {n : Nat} (hn : n < SYSTEM) {s s' : State} (h : Inv n s) (l : Label) (hs : step s l = some s') :
    Inv n s' ∧ (l ≠ .pollFails → s.phase ≠ .panicked → s'.phase ≠ .panicked) := by
  cases l with
  | connect i =>
    simp only [Tcp.step] at hs
    split at hs
    case isFalse => cases hs
    case isTrue hi =>
      simp only [Option.some.injEq] at hs
      subst hs
      have hpm : ∀ u, s.pending u = true → (s.modify i fun l => { l with waiting := l.waiting + 1, ready := true }).pending u = true :=
        fun u hu => pending_modify (by simp) hu
      refine ⟨⟨by simp [State.modify, h.len], h.threads, h.serving, h.count, h.range, h.acc, ?_, ?_⟩, fun _ hp => hp⟩
      · intro hsv j l hl hr hw
        by_cases hij : i = j
        · subst hij
          left
          rw [pending_listener (by simpa [State.modify] using hi) (by simpa [State.modify, h.len] using hn)]
          rw [List.getElem?_eq_getElem (by simpa [State.modify] using hi)] at hl
          simp only [Option.some.injEq] at hl
          rw [hl, hr]
          subst hl
          simp [State.modify]
        · simp only [State.modify, List.getElem?_modify] at hl
          cases hl' : s.listeners[j]? with
          | none => simp [hl'] at hl
          | some l' =>
            simp [hl', hij] at hl
            subst hl
            rcases h.waiting hsv j l' hl' hr hw with h1 | h1
            · exact .inl (hpm j h1)
            · exact .inr h1
      · intro hsv id hid
        rcases h.ended hsv id hid with h1 | h1 | h1
        · exact .inl h1
        · exact .inr (.inl (hpm n h1))
        · exact .inr (.inr h1)
  | shutdown =>
    simp only [Tcp.step, Option.some.injEq] at hs
    subst hs
    have hpm : ∀ u, s.pending u = true → ({ s with systemReady := true } : State).pending u = true := by
      intro u hu
      simp only [State.pending] at *
      split
      · rfl
      · rename_i hne; simp only [hne, if_false] at hu; exact hu
    refine ⟨⟨h.len, h.threads, h.serving, h.count, h.range, h.acc, ?_, ?_⟩, fun _ hp => hp⟩
    · intro hsv j l hl hr hw
      exact (h.waiting hsv j l hl hr hw).imp (hpm j) id
    · intro hsv id hid
      exact (h.ended hsv id hid).imp (fun x => x) (fun x => x.imp (hpm n) (fun x => x))
  | poll es =>
    simp only [Tcp.step] at hs
    split at hs
    case isFalse => cases hs
    case isTrue hc =>
      obtain ⟨hp, -, -, hall⟩ := hc
      simp only [Option.some.injEq] at hs
      subst hs
      obtain ⟨h1, h2, h3, h4, h5, h6⟩ := reports es s
      have hsv : s.serving := by simp [State.serving, hp]
      have hlook : s.look = [] := by simp [State.look, hp]
      refine ⟨⟨h1.trans h.len, h2 ▸ h.threads, h2 ▸ h.serving, by simp [h2, h3, h.count], ?_, by simp, ?_, ?_⟩, by simp⟩
      · intro t ht
        have := hall t ht
        simp only [State.pending] at this
        by_cases e1 : t = SYSTEM
        · exact .inl e1
        · right
          by_cases e2 : t = s.listeners.length
          · rw [h.len] at e2; omega
          · simp only [e1, e2, if_false] at this
            cases hl : s.listeners[t]? with
            | none => simp [hl] at this
            | some l =>
              have := (List.getElem?_eq_some_iff.1 hl).1
              have := h.len; omega
      · intro _ j l hl hr hw
        obtain ⟨l', hl', e1, e2⟩ := h6 j l hl
        have hh := h.waiting hsv j l' hl' (e1.trans hr) (e2 ▸ hw)
        rw [hlook] at hh
        simp only [List.not_mem_nil, or_false] at hh
        by_cases hj : j ∈ es
        · exact .inr hj
        · exact .inl (h5 j hh hj)
      · intro _ id hid
        simp only [h2] at hid
        have hh := h.ended hsv id hid
        rw [hlook] at hh
        simp only [List.not_mem_nil, or_false] at hh
        rcases hh with hh | hh
        · left; simpa [h4] using hh
        · by_cases hj : n ∈ es
          · exact .inr (.inr hj)
          · exact .inr (.inl (h5 n hh hj))
  | pollFails =>
    simp only [Tcp.step] at hs
    split at hs
    case isFalse => cases hs
    case isTrue hc =>
      simp only [Option.some.injEq] at hs
      subst hs
      exact ⟨⟨h.len, h.threads, h.serving, h.count, by simp [State.look], by simp, by simp [State.serving], by simp [State.serving]⟩, by simp⟩
  | event =>
    simp only [Tcp.step] at hs
    cases hp : s.phase with
    | polling => simp [hp] at hs
    | accepting i es => simp [hp] at hs
    | stopping => simp [hp] at hs
    | panicked => simp [hp] at hs
    | handling es =>
      have hsv : s.serving := by simp [State.serving, hp]
      have hlook : s.look = es := by simp [State.look, hp]
      cases es with
      | nil =>
        simp only [hp, Option.some.injEq] at hs
        subst hs
        refine ⟨⟨h.len, h.threads, h.serving, h.count, by simp [State.look], by simp, ?_, ?_⟩, by simp⟩
        · intro _ j l hl hr hw
          have := h.waiting hsv j l hl hr hw
          rw [hlook] at this
          exact this
        · intro _ id hid
          have := h.ended hsv id hid
          rw [hlook] at this
          exact this
      | cons t es =>
        simp only [hp, Option.some.injEq] at hs
        have hrange := h.range
        rw [hlook] at hrange
        have hw' := h.waiting hsv
        rw [hlook] at hw'
        have he' := h.ended hsv
        rw [hlook] at he'
        simp only [State.dispatch] at hs
        by_cases e1 : t = SYSTEM
        · rw [if_pos e1] at hs
          subst hs
          exact ⟨⟨h.len, h.threads, h.serving, h.count, by simp [State.look], by simp, by simp [State.serving], by simp [State.serving]⟩, by simp⟩
        · rw [if_neg e1] at hs
          by_cases e2 : t = s.listeners.length
          · rw [if_pos e2] at hs
            have hth : Thread.step s.threads .joinReady = some { s.threads with
                pool := { s.threads.pool with threads := s.threads.pool.threads.filter (fun i => decide (i ∉ s.threads.pool.joinable)), joinable := [] },
                reported := s.threads.reported ++ s.threads.pool.joinable } := by
              simp only [Thread.step, h.serving, if_true, Thread.joinReady_inv h.threads]
            have hinv := h.threads.step _ hth
            rw [hth] at hs
            subst hs
            refine ⟨⟨h.len, hinv, h.serving, h.count, ?_, by simp, ?_, by simp⟩, by simp⟩
            · intro u hu
              exact hrange u (List.mem_cons_of_mem _ hu)
            · intro _ j l hl hr hw
              rcases hw' j l hl hr hw with hh | hh
              · exact .inl hh
              · right
                rcases List.mem_cons.1 hh with hh | hh
                · have := (List.getElem?_eq_some_iff.1 hl).1
                  simp only at this; omega
                · exact hh
          · rw [if_neg e2] at hs
            have hlt : t < s.listeners.length := by
              have := hrange t (by simp); have := h.len; omega
            rw [if_pos hlt] at hs
            subst hs
            refine ⟨⟨h.len, h.threads, h.serving, h.count, hrange, ?_, ?_, ?_⟩, by simp⟩
            · intro i es' he
              simp only [Phase.accepting.injEq] at he
              have := h.len; omega
            · intro _; exact hw'
            · intro _; exact he'
  | accept a =>
    simp only [Tcp.step] at hs
    cases hp : s.phase with
    | polling => simp [hp] at hs
    | handling es => simp [hp] at hs
    | stopping => simp [hp] at hs
    | panicked => simp [hp] at hs
    | accepting i es =>
      have hsv : s.serving := by simp [State.serving, hp]
      have hlook : s.look = i :: es := by simp [State.look, hp]
      have hi := h.acc i es hp
      have hl : s.listeners[i]? = some (s.listeners[i]'(by have := h.len; omega)) := by simp [h.len, hi]
      generalize s.listeners[i]'(by have := h.len; omega) = l at hl
      have hrange := h.range
      rw [hlook] at hrange
      have hw' := h.waiting hsv
      rw [hlook] at hw'
      have he' := h.ended hsv
      rw [hlook] at he'
      -- taking one connection off the queue
      have hdec : ∀ (j : Nat) (k : Listener), (s.modify i fun l => { l with waiting := l.waiting - 1 }).listeners[j]? = some k →
          ∃ k' : Listener, s.listeners[j]? = some k' ∧ k'.registered = k.registered ∧ k.waiting ≤ k'.waiting := by
        intro j k hk
        simp only [State.modify, List.getElem?_modify] at hk
        cases hj : s.listeners[j]? with
        | none => simp [hj] at hk
        | some k' =>
          refine ⟨k', rfl, ?_⟩
          by_cases hij : i = j <;> simp [hj, hij] at hk <;> subst hk <;> simp
      cases a with
      | ok =>
        simp only [hp, hl] at hs
        split at hs
        case isTrue => cases hs
        case isFalse hz =>
          have hth : Thread.step s.threads .spawn = some { s.threads with
              pool := s.threads.pool.spawn.2, running := s.threads.running ++ [s.threads.pool.threadId],
              spawned := s.threads.spawned ++ [s.threads.pool.threadId] } := by
            simp only [Thread.step, h.serving, if_true, Thread.Pool.spawn]
          have hinv := h.threads.step _ hth
          rw [hth] at hs
          simp only [Option.map_some, Option.some.injEq] at hs
          subst hs
          refine ⟨⟨by simp [State.modify, h.len], hinv, h.serving, by simp [h.count], ?_, ?_, ?_, ?_⟩, ?_⟩
          · simp only [State.look, State.modify, hp]; exact hrange
          · simp only [State.modify, hp]
            intro j es' he; simp only [Phase.accepting.injEq] at he; omega
          · intro _ j k hk hr hw
            obtain ⟨k', hk', e1, e2⟩ := hdec j k hk
            simp only [State.look, State.modify, hp]
            rcases hw' j k' hk' (e1.trans hr) (by omega) with hh | hh
            · exact .inl (pending_modify (f := fun l => { l with waiting := l.waiting - 1 }) (by simp) hh)
            · exact .inr hh
          · intro _ id hid
            simp only [State.look, State.modify, hp]
            rcases he' id (by simpa [Thread.Pool.spawn] using hid) with hh | hh | hh
            · exact .inl hh
            · exact .inr (.inl (pending_modify (f := fun l => { l with waiting := l.waiting - 1 }) (by simp) hh))
            · exact .inr (.inr hh)
          · simp [State.modify, hp]
      | aborted =>
        simp only [hp, hl] at hs
        split at hs
        case isTrue => cases hs
        case isFalse hz =>
          simp only [Option.some.injEq] at hs
          subst hs
          refine ⟨⟨by simp [State.modify, h.len], h.threads, h.serving, h.count, ?_, ?_, ?_, ?_⟩, ?_⟩
          · simp only [State.look, State.modify, hp]; exact hrange
          · simp only [State.modify, hp]
            intro j es' he; simp only [Phase.accepting.injEq] at he; omega
          · intro _ j k hk hr hw
            obtain ⟨k', hk', e1, e2⟩ := hdec j k hk
            simp only [State.look, State.modify, hp]
            rcases hw' j k' hk' (e1.trans hr) (by omega) with hh | hh
            · exact .inl (pending_modify (f := fun l => { l with waiting := l.waiting - 1 }) (by simp) hh)
            · exact .inr hh
          · intro _ id hid
            simp only [State.look, State.modify, hp]
            rcases he' id hid with hh | hh | hh
            · exact .inl hh
            · exact .inr (.inl (pending_modify (f := fun l => { l with waiting := l.waiting - 1 }) (by simp) hh))
            · exact .inr (.inr hh)
          · simp [State.modify, hp]
      | again =>
        simp only [hp, hl, Option.some.injEq] at hs
        subst hs
        exact ⟨h, by simp [hp]⟩
      | wouldBlock =>
        simp only [hp, hl] at hs
        split at hs
        case isFalse => cases hs
        case isTrue hz =>
          simp only [Option.some.injEq] at hs
          subst hs
          refine ⟨⟨h.len, h.threads, h.serving, h.count, ?_, by simp, ?_, ?_⟩, by simp⟩
          · intro t ht; exact hrange t (List.mem_cons_of_mem _ ht)
          · intro _ j k hk hr hw
            rcases hw' j k hk hr hw with hh | hh
            · exact .inl hh
            · right
              rcases List.mem_cons.1 hh with hh | hh
              · subst hh; simp only [hl, Option.some.injEq] at hk; subst hk; omega
              · exact hh
          · intro _ id hid
            rcases he' id hid with hh | hh | hh
            · exact .inl hh
            · exact .inr (.inl hh)
            · rcases List.mem_cons.1 hh with hh | hh
              · omega
              · exact .inr (.inr hh)
      | other =>
        simp only [hp, hl, Option.some.injEq] at hs
        subst hs
        refine ⟨⟨by simp [State.modify, h.len], h.threads, h.serving, h.count, ?_, by simp, ?_, ?_⟩, by simp⟩
        · intro t ht; exact hrange t (List.mem_cons_of_mem _ ht)
        · intro _ j k hk hr hw
          simp only [State.modify, List.getElem?_modify] at hk
          cases hj : s.listeners[j]? with
          | none => simp [hj] at hk
          | some k' =>
            by_cases hij : i = j
            · simp [hj, hij] at hk; subst hk; simp at hr
            · simp [hj, hij] at hk
              subst hk
              rcases hw' j k' hj hr hw with hh | hh
              · left
                have hjl := (List.getElem?_eq_some_iff.1 hj).1
                rw [pending_listener hjl (by have := h.len; omega)] at hh
                rw [pending_listener (by simpa [State.modify] using hjl) (by simpa [State.modify, h.len] using hn)]
                simpa [State.modify, List.getElem_modify, hij] using hh
              · right
                rcases List.mem_cons.1 hh with hh | hh
                · omega
                · exact hh
        · intro _ id hid
          rcases he' id hid with hh | hh | hh
          · exact .inl hh
          · right; left
            have e := h.len
            rw [← e, pending_stream (by omega)] at hh
            have hnl : n ≠ SYSTEM := by omega
            simp [State.pending, State.modify, e, hnl, hh]
          · rcases List.mem_cons.1 hh with hh | hh
            · omega
            · exact .inr (.inr hh)
  | finish id =>
    simp only [Tcp.step] at hs
    cases hth : Thread.step s.threads (.finish id) with
    | none => simp [hth] at hs
    | some th =>
      have hinv := h.threads.step _ hth
      simp only [hth, Option.map_some, Option.some.injEq] at hs
      subst hs
      simp only [Thread.step] at hth
      split at hth
      case isFalse => cases hth
      case isTrue hr =>
        simp only [Option.some.injEq] at hth
        subst hth
        refine ⟨⟨h.len, hinv, h.serving, h.count, h.range, h.acc, h.waiting, ?_⟩, fun _ x => x⟩
        intro hsv j hj
        simp only [List.mem_cons] at hj ⊢
        rcases hj with hj | hj
        · exact .inl (.inl hj)
        · rcases h.ended hsv j hj with hh | hh
          · exact .inl (.inr hh)
          · exact .inr hh
  | flag id =>
    simp only [Tcp.step] at hs
    split at hs
    case isFalse => cases hs
    case isTrue hr =>
      simp only [Option.some.injEq] at hs
      subst hs
      have hpn : ({ s with unflagged := s.unflagged.erase id, streamReady := true } : State).pending n = true := by
        have hnl : n ≠ SYSTEM := by omega
        simp [State.pending, hnl, h.len]
      have hpm : ∀ u, s.pending u = true → ({ s with unflagged := s.unflagged.erase id, streamReady := true } : State).pending u = true := by
        intro u hu
        simp only [State.pending] at *
        split
        · simp_all
        · split
          · rfl
          · simp_all
      refine ⟨⟨h.len, h.threads, h.serving, h.count, h.range, h.acc, ?_, ?_⟩, fun _ x => x⟩
      · intro hsv j l hl hr hw
        exact (h.waiting hsv j l hl hr hw).imp (hpm j) (fun x => x)
      · intro hsv j hj
        exact .inr (.inl hpn)
  | crash id =>
    simp only [Tcp.step] at hs
    cases hth : Thread.step s.threads (.crash id) with
    | none => simp [hth] at hs
    | some th =>
      have hinv := h.threads.step _ hth
      simp only [hth, Option.map_some, Option.some.injEq] at hs
      subst hs
      simp only [Thread.step] at hth
      split at hth
      case isFalse => cases hth
      case isTrue hr =>
        simp only [Option.some.injEq] at hth
        subst hth
        exact ⟨⟨h.len, hinv, h.serving, h.count, h.range, h.acc, h.waiting, h.ended⟩, fun _ x => x⟩

theorem Inv.run {n : Nat} (hn : n < SYSTEM) (ls : List Label) : ∀ {s s' : State}, Inv n s → run s ls = some s' →
    Inv n s' ∧ (.pollFails ∉ ls → s.phase ≠ .panicked → s'.phase ≠ .panicked) := by
  induction ls with
  | nil => intro s s' h hr; simp only [Tcp.run, Option.some.injEq] at hr; subst hr; exact ⟨h, fun _ x => x⟩
  | cons l ls ih =>
    intro s s' h hr
    simp only [Tcp.run, Option.bind_eq_some_iff] at hr
    obtain ⟨s1, h1, h2⟩ := hr
    obtain ⟨i1, p1⟩ := h.step hn l h1
    obtain ⟨i2, p2⟩ := ih i1 h2
    refine ⟨i2, fun hm hp => ?_⟩
    simp only [List.mem_cons, not_or] at hm
    exact p2 hm.2 (p1 (fun e => hm.1 e.symm) hp)

theorem run_append (ls ms : List Label) : ∀ s, run s (ls ++ ms) = (run s ls).bind fun s' => run s' ms := by
  induction ls with
  | nil => intro s; simp [run]
  | cons l ls ih => intro s; simp only [List.cons_append, run]; cases step s l <;> simp [ih]

/-- Nothing of a listener that has been given up is accepted any more. -/
def GivenUp (i : Nat) (s : State) : Prop :=
  i < s.listeners.length ∧ (∀ l, s.listeners[i]? = some l → l.registered = false) ∧ i ∉ s.look

theorem GivenUp.report {i : Nat} {s : State} (h : ∀ l, s.listeners[i]? = some l → l.registered = false) (es : List Nat) :
    ∀ l, (es.foldl State.report s).listeners[i]? = some l → l.registered = false := by
  intro l hl
  obtain ⟨l', hl', e, -⟩ := (reports es s).2.2.2.2.2 i l hl
  rw [← e]; exact h l' hl'

theorem givenUp_modify {i j : Nat} {s : State} {f : Listener → Listener} (hf : ∀ l, l.registered = false → (f l).registered = false)
    (h : ∀ l, s.listeners[i]? = some l → l.registered = false) :
    ∀ l, (s.modify j f).listeners[i]? = some l → l.registered = false := by
  intro l hl
  simp only [State.modify, List.getElem?_modify] at hl
  cases hi : s.listeners[i]? with
  | none => simp [hi] at hl
  | some l' =>
    by_cases hij : j = i
    · simp [hi, hij] at hl; subst hl; exact hf _ (h l' hi)
    · simp [hi, hij] at hl; subst hl; exact h l' hi

theorem GivenUp.step {i : Nat} {s s' : State} (hn : s.listeners.length < SYSTEM) (h : GivenUp i s) (l : Label) (hs : step s l = some s') :
    GivenUp i s' ∧ s'.listeners.length = s.listeners.length ∧
      s'.accepted.count i = s.accepted.count i ∧
      ∀ k, s.listeners[i]? = some k → ∃ k', s'.listeners[i]? = some k' ∧ k.waiting ≤ k'.waiting := by
  obtain ⟨hi, hreg, hlook⟩ := h
  have hmod : ∀ (j : Nat) (f : Listener → Listener), (j ≠ i ∨ ∀ l, l.waiting ≤ (f l).waiting) →
      ∀ k, s.listeners[i]? = some k → ∃ k', (s.modify j f).listeners[i]? = some k' ∧ k.waiting ≤ k'.waiting := by
    intro j f hf k hk
    simp only [State.modify, List.getElem?_modify, hk]
    by_cases hij : j = i
    · simp only [hij, ne_eq, not_true, false_or] at hf
      exact ⟨f k, by simp [hij], hf k⟩
    · exact ⟨k, by simp [hij], Nat.le_refl _⟩
  have hsame : ∀ k, s.listeners[i]? = some k → ∃ k', s.listeners[i]? = some k' ∧ k.waiting ≤ k'.waiting :=
    fun k hk => ⟨k, hk, Nat.le_refl _⟩
  cases l with
  | connect j =>
    simp only [Tcp.step] at hs
    split at hs
    case isFalse => cases hs
    case isTrue hj =>
      simp only [Option.some.injEq] at hs
      subst hs
      exact ⟨⟨by simpa [State.modify] using hi, givenUp_modify (by simp) hreg, hlook⟩, by simp [State.modify], rfl,
        hmod j _ (.inr (by simp))⟩
  | shutdown =>
    simp only [Tcp.step, Option.some.injEq] at hs
    subst hs
    exact ⟨⟨hi, hreg, hlook⟩, rfl, rfl, hsame⟩
  | poll es =>
    simp only [Tcp.step] at hs
    split at hs
    case isFalse => cases hs
    case isTrue hc =>
      obtain ⟨-, -, -, hall⟩ := hc
      simp only [Option.some.injEq] at hs
      subst hs
      obtain ⟨h1, h2, h3, h4, h5, h6⟩ := reports es s
      refine ⟨⟨by simpa [h1] using hi, GivenUp.report hreg es, ?_⟩, h1, by simp [h3], ?_⟩
      · intro hm
        have := hall i hm
        rw [pending_listener hi hn, hreg _ (List.getElem?_eq_getElem hi)] at this
        simp at this
      · intro k hk
        have hlt : i < (es.foldl State.report s).listeners.length := by rw [h1]; exact hi
        obtain ⟨l', hl', -, e2⟩ := h6 i _ (List.getElem?_eq_getElem hlt)
        rw [hk, Option.some.injEq] at hl'
        exact ⟨_, List.getElem?_eq_getElem hlt, by rw [hl', e2]; exact Nat.le_refl _⟩
  | pollFails =>
    simp only [Tcp.step] at hs
    split at hs
    case isFalse => cases hs
    case isTrue hc =>
      simp only [Option.some.injEq] at hs
      subst hs
      exact ⟨⟨hi, hreg, by simp [State.look]⟩, rfl, rfl, hsame⟩
  | event =>
    simp only [Tcp.step] at hs
    cases hp : s.phase with
    | polling => simp [hp] at hs
    | accepting i es => simp [hp] at hs
    | stopping => simp [hp] at hs
    | panicked => simp [hp] at hs
    | handling es =>
      have hl : s.look = es := by simp [State.look, hp]
      cases es with
      | nil =>
        simp only [hp, Option.some.injEq] at hs
        subst hs
        exact ⟨⟨hi, hreg, by simp [State.look]⟩, rfl, rfl, hsame⟩
      | cons t es =>
        simp only [hp, Option.some.injEq, State.dispatch] at hs
        rw [hl] at hlook
        have hlook' : i ∉ es := fun h => hlook (List.mem_cons_of_mem _ h)
        by_cases e1 : t = SYSTEM
        · rw [if_pos e1] at hs
          subst hs
          exact ⟨⟨hi, hreg, by simp [State.look]⟩, rfl, rfl, hsame⟩
        · rw [if_neg e1] at hs
          by_cases e2 : t = s.listeners.length
          · rw [if_pos e2] at hs
            cases hth : Thread.step s.threads .joinReady with
            | none => rw [hth] at hs; subst hs; exact ⟨⟨hi, hreg, by simp [State.look]⟩, rfl, rfl, hsame⟩
            | some th => rw [hth] at hs; subst hs; exact ⟨⟨hi, hreg, hlook'⟩, rfl, rfl, hsame⟩
          · rw [if_neg e2] at hs
            split at hs <;> subst hs
            · exact ⟨⟨hi, hreg, hlook⟩, rfl, rfl, hsame⟩
            · exact ⟨⟨hi, hreg, by simp [State.look]⟩, rfl, rfl, hsame⟩
  | accept a =>
    simp only [Tcp.step] at hs
    cases hp : s.phase with
    | polling => simp [hp] at hs
    | handling es => simp [hp] at hs
    | stopping => simp [hp] at hs
    | panicked => simp [hp] at hs
    | accepting j es =>
      have hl : s.look = j :: es := by simp [State.look, hp]
      rw [hl] at hlook
      have hji : j ≠ i := fun e => hlook (by simp [e])
      have hlook' : i ∉ es := fun h => hlook (List.mem_cons_of_mem _ h)
      cases hlj : s.listeners[j]? with
      | none => simp [hp, hlj] at hs
      | some l =>
        simp only [hp, hlj] at hs
        cases a with
        | ok =>
          simp only at hs
          split at hs
          case isTrue => cases hs
          case isFalse hz =>
            simp only [Option.map_eq_some_iff] at hs
            obtain ⟨th, -, hs⟩ := hs
            subst hs
            exact ⟨⟨by simpa [State.modify] using hi, givenUp_modify (by simp) hreg, by simpa [State.look, State.modify, hp] using hlook⟩,
              by simp [State.modify], by simp [List.count_append, hji], hmod j _ (.inl hji)⟩
        | aborted =>
          simp only at hs
          split at hs
          case isTrue => cases hs
          case isFalse hz =>
            simp only [Option.some.injEq] at hs
            subst hs
            exact ⟨⟨by simpa [State.modify] using hi, givenUp_modify (by simp) hreg, by simpa [State.look, State.modify, hp] using hlook⟩,
              by simp [State.modify], rfl, hmod j _ (.inl hji)⟩
        | again =>
          simp only [Option.some.injEq] at hs
          subst hs
          exact ⟨⟨hi, hreg, by rwa [hl]⟩, rfl, rfl, hsame⟩
        | wouldBlock =>
          simp only at hs
          split at hs
          case isFalse => cases hs
          case isTrue hz =>
            simp only [Option.some.injEq] at hs
            subst hs
            exact ⟨⟨hi, hreg, hlook'⟩, rfl, rfl, hsame⟩
        | other =>
          simp only [Option.some.injEq] at hs
          subst hs
          exact ⟨⟨by simpa [State.modify] using hi, givenUp_modify (by simp) hreg, hlook'⟩,
              by simp [State.modify], rfl, hmod j _ (.inl hji)⟩
  | finish id =>
    simp only [Tcp.step, Option.map_eq_some_iff] at hs
    obtain ⟨th, -, hs⟩ := hs
    subst hs
    exact ⟨⟨hi, hreg, hlook⟩, rfl, rfl, hsame⟩
  | flag id =>
    simp only [Tcp.step] at hs
    split at hs
    case isFalse => cases hs
    case isTrue hr =>
      simp only [Option.some.injEq] at hs
      subst hs
      exact ⟨⟨hi, hreg, hlook⟩, rfl, rfl, hsame⟩
  | crash id =>
    simp only [Tcp.step, Option.map_eq_some_iff] at hs
    obtain ⟨th, -, hs⟩ := hs
    subst hs
    exact ⟨⟨hi, hreg, hlook⟩, rfl, rfl, hsame⟩

theorem GivenUp.run {i : Nat} (ls : List Label) : ∀ {s s' : State}, s.listeners.length < SYSTEM → GivenUp i s → run s ls = some s' →
    s'.accepted.count i = s.accepted.count i ∧
      ∀ k, s.listeners[i]? = some k → ∃ k', s'.listeners[i]? = some k' ∧ k.waiting ≤ k'.waiting := by
  induction ls with
  | nil => intro s s' _ _ hr; simp only [Tcp.run, Option.some.injEq] at hr; subst hr; exact ⟨rfl, fun k hk => ⟨k, hk, Nat.le_refl _⟩⟩
  | cons l ls ih =>
    intro s s' hn h hr
    simp only [Tcp.run, Option.bind_eq_some_iff] at hr
    obtain ⟨s1, h1, h2⟩ := hr
    obtain ⟨g1, e1, c1, w1⟩ := h.step hn l h1
    obtain ⟨c2, w2⟩ := ih (by omega) g1 h2
    refine ⟨c2.trans c1, fun k hk => ?_⟩
    obtain ⟨k1, hk1, le1⟩ := w1 k hk
    obtain ⟨k2, hk2, le2⟩ := w2 k1 hk1
    exact ⟨k2, hk2, Nat.le_trans le1 le2⟩

/-- One step leaves the listeners in place, and accepts from one of them if at all. -/
theorem step_accepted {s s' : State} (l : Label) (hs : step s l = some s') : s'.listeners.length = s.listeners.length ∧
    (s'.accepted = s.accepted ∨ ∃ i, i < s.listeners.length ∧ s'.accepted = s.accepted ++ [i]) := by
  cases l with
  | connect i => simp only [step] at hs; split at hs <;> simp at hs; subst hs; exact ⟨by simp [State.modify], .inl rfl⟩
  | shutdown => simp only [step, Option.some.injEq] at hs; subst hs; exact ⟨rfl, .inl rfl⟩
  | poll es =>
    simp only [step] at hs; split at hs <;> simp at hs; subst hs
    exact ⟨(reports es s).1, .inl (reports es s).2.2.1⟩
  | pollFails => simp only [step] at hs; split at hs <;> simp at hs; subst hs; exact ⟨rfl, .inl rfl⟩
  | event =>
    simp only [step] at hs
    split at hs <;> simp at hs
    · subst hs; exact ⟨rfl, .inl rfl⟩
    · subst hs
      simp only [State.dispatch]
      split
      · exact ⟨rfl, .inl rfl⟩
      · split <;> split <;> exact ⟨rfl, .inl rfl⟩
  | accept a =>
    simp only [step] at hs
    split at hs
    case h_2 => cases hs
    case h_1 =>
      split at hs
      · cases hs
      · rename_i l _ hl
        split at hs
        · cases hs
        · simp only [Option.map_eq_some_iff] at hs
          obtain ⟨th, -, hs⟩ := hs
          subst hs
          exact ⟨by simp [State.modify], .inr ⟨_, (List.getElem?_eq_some_iff.1 hl).1, rfl⟩⟩
      · split at hs <;> simp at hs; subst hs; exact ⟨by simp [State.modify], .inl rfl⟩
      · simp only [Option.some.injEq] at hs; subst hs; exact ⟨rfl, .inl rfl⟩
      · split at hs <;> simp at hs; subst hs; exact ⟨rfl, .inl rfl⟩
      · simp only [Option.some.injEq] at hs; subst hs; exact ⟨by simp [State.modify], .inl rfl⟩
  | finish id => simp only [step, Option.map_eq_some_iff] at hs; obtain ⟨th, -, hs⟩ := hs; subst hs; exact ⟨rfl, .inl rfl⟩
  | flag id => simp only [step] at hs; split at hs <;> simp at hs; subst hs; exact ⟨rfl, .inl rfl⟩
  | crash id => simp only [step, Option.map_eq_some_iff] at hs; obtain ⟨th, -, hs⟩ := hs; subst hs; exact ⟨rfl, .inl rfl⟩

/-- With one listener, all connections are accepted from it. -/
theorem accepted_only (ls : List Label) : ∀ (s s' : State), s.listeners.length = 1 → (∀ i ∈ s.accepted, i = 0) → run s ls = some s' →
    s'.accepted.count 0 = 0 → s'.accepted = [] := by
  induction ls with
  | nil =>
    intro s s' _ h hr hc
    simp only [run, Option.some.injEq] at hr
    subst hr
    rw [List.count_eq_zero] at hc
    exact List.eq_nil_iff_forall_not_mem.2 fun i hi => hc (h i hi ▸ hi)
  | cons l ls ih =>
    intro s s' hlen h hr hc
    simp only [run, Option.bind_eq_some_iff] at hr
    obtain ⟨s1, hs1, h2⟩ := hr
    obtain ⟨e, ha⟩ := step_accepted l hs1
    refine ih s1 s' (by omega) ?_ h2 hc
    rcases ha with ha | ⟨i, hi, ha⟩
    · rw [ha]; exact h
    · rw [ha]
      intro j hj
      rcases List.mem_append.1 hj with hj | hj
      · exact h j hj
      · simp only [List.mem_singleton] at hj; omega

end Tcp

namespace Udp
open Tcp (SYSTEM)

def State.look (s : State) : List Nat := match s.phase with
  | .handling es => es
  | .reading i es => i :: es
  | _ => []

theorem noticed_iff (s : State) (t : Nat) : s.noticed t ↔ s.pending t = true ∨ t ∈ s.look := by
  unfold State.noticed State.look
  cases s.phase <;> simp
  · constructor
    · rintro (h | ⟨i, es, ⟨rfl, rfl⟩, h⟩)
      · exact .inl h
      · exact .inr h
    · rintro (h | h)
      · exact .inl h
      · exact .inr ⟨_, _, ⟨rfl, rfl⟩, h⟩

theorem report_pending {s : State} {t u : Nat} (h : s.pending u = true) (hne : u ≠ t) : (s.report t).pending u = true := by
  simp only [State.pending, State.report] at *
  by_cases ht : t = SYSTEM
  · subst ht; simp_all
  · simp only [ht, if_false, List.getElem?_modify]
    by_cases hu : u = SYSTEM
    · simp_all
    · simp only [hu, if_false] at h ⊢
      have : t ≠ u := fun e => hne e.symm
      cases hl : s.sockets[u]? <;> simp_all

theorem report_socket (s : State) (t i : Nat) : (s.report t).waitingAt i = s.waitingAt i ∧ (s.report t).read = s.read ∧
    (s.report t).arrived = s.arrived ∧ (s.report t).sockets.length = s.sockets.length := by
  simp only [State.report, State.waitingAt]
  by_cases ht : t = SYSTEM
  · simp [ht]
  · simp only [ht, if_false, List.getElem?_modify, List.length_modify, and_true]
    by_cases hti : t = i <;> cases hl : s.sockets[i]? <;> simp [hti]

theorem reports (es : List Nat) : ∀ s : State,
    (∀ i, (es.foldl State.report s).waitingAt i = s.waitingAt i) ∧ (es.foldl State.report s).read = s.read ∧
    (es.foldl State.report s).arrived = s.arrived ∧ (es.foldl State.report s).sockets.length = s.sockets.length ∧
    ∀ u, s.pending u = true → u ∉ es → (es.foldl State.report s).pending u = true := by
  induction es with
  | nil => intro s; exact ⟨fun _ => rfl, rfl, rfl, rfl, fun _ h _ => h⟩
  | cons e es ih =>
    intro s
    obtain ⟨h1, h2, h3, h4, h5⟩ := ih (s.report e)
    have hr := report_socket s e
    simp only [List.foldl_cons]
    refine ⟨fun i => (h1 i).trans (hr i).1, h2.trans (hr 0).2.1, h3.trans (hr 0).2.2.1, h4.trans (hr 0).2.2.2, ?_⟩
    intro u hu hn
    simp only [List.mem_cons, not_or] at hn
    exact h5 u (report_pending hu hn.1) hn.2

theorem waitingAt_arrive (s : State) (i j : Nat) (hj : j < s.sockets.length) :
    ({ s with sockets := s.sockets.modify j (fun k => { k with waiting := k.waiting ++ [s.arrived], ready := true }), arrived := s.arrived + 1 } : State).waitingAt i =
      s.waitingAt i ++ if j = i then [s.arrived] else [] := by
  simp only [State.waitingAt, List.getElem?_modify]
  by_cases hij : j = i
  · subst hij; simp [hj]
  · cases s.sockets[i]? <;> simp [hij]

/-- One step: what has been read from a socket, and what waits. -/
theorem step_order {s s' : State} (i : Nat) (l : Label) (hs : step s l = some s') :
    s'.readFrom i ++ s'.waitingAt i = s.readFrom i ++ s.waitingAt i ++ arrivals i s.arrived [l] ∧
    (∀ ls, arrivals i s.arrived (l :: ls) = arrivals i s.arrived [l] ++ arrivals i s'.arrived ls) ∧
    s'.sockets.length = s.sockets.length := by
  cases l with
  | arrive j =>
    simp only [step] at hs
    split at hs
    case isFalse => cases hs
    case isTrue hj =>
      simp only [Option.some.injEq] at hs
      subst hs
      refine ⟨?_, ?_, by simp⟩
      · rw [waitingAt_arrive s i j hj]
        simp only [State.readFrom, arrivals, List.append_assoc]
      · intro ls
        simp only [arrivals]
        by_cases hij : j = i <;> simp [hij]
  | shutdown =>
    simp only [step, Option.some.injEq] at hs
    subst hs
    exact ⟨by simp [arrivals, State.readFrom, State.waitingAt], by simp [arrivals], rfl⟩
  | poll es =>
    simp only [step] at hs
    split at hs
    case isFalse => cases hs
    case isTrue hc =>
      simp only [Option.some.injEq] at hs
      subst hs
      obtain ⟨h1, h2, h3, h4, -⟩ := reports es s
      refine ⟨?_, by simp [arrivals, h3], h4⟩
      have := h1 i
      simp only [State.waitingAt] at this
      simp only [State.readFrom, State.waitingAt, h2, arrivals, List.append_nil]
      rw [this]
  | pollFails =>
    simp only [step] at hs
    split at hs
    case isFalse => cases hs
    case isTrue hc =>
      simp only [Option.some.injEq] at hs
      subst hs
      exact ⟨by simp [arrivals, State.readFrom, State.waitingAt], by simp [arrivals], rfl⟩
  | event =>
    simp only [step] at hs
    split at hs
    · simp only [Option.some.injEq] at hs
      subst hs
      exact ⟨by simp [arrivals, State.readFrom, State.waitingAt], by simp [arrivals], rfl⟩
    · split at hs
      · simp only [Option.some.injEq] at hs
        subst hs
        exact ⟨by simp [arrivals, State.readFrom, State.waitingAt], by simp [arrivals], rfl⟩
      · split at hs <;>
        · simp only [Option.some.injEq] at hs
          subst hs
          exact ⟨by simp [arrivals, State.readFrom, State.waitingAt], by simp [arrivals], rfl⟩
    · cases hs
  | recv r =>
    simp only [step] at hs
    split at hs
    case h_2 => cases hs
    case h_1 j es hp =>
      cases hj : s.sockets[j]? with
      | none => simp [hj] at hs
      | some k =>
        simp only [hj] at hs
        cases r with
        | ok =>
          simp only at hs
          cases hw : k.waiting with
          | nil => simp [hw] at hs
          | cons d ds =>
            simp only [hw, Option.some.injEq] at hs
            subst hs
            obtain ⟨hlt, hjk⟩ := List.getElem?_eq_some_iff.1 hj
            refine ⟨?_, by simp [arrivals], by simp⟩
            simp only [State.readFrom, State.waitingAt, arrivals, List.append_nil, List.filter_append, List.map_append,
              List.getElem?_set]
            by_cases hji : j = i
            · subst hji; simp [hlt, hjk, hw]
            · simp [hji]
        | wouldBlock =>
          simp only at hs
          split at hs
          case isFalse => cases hs
          case isTrue =>
            simp only [Option.some.injEq] at hs
            subst hs
            exact ⟨by simp [arrivals, State.readFrom, State.waitingAt], by simp [arrivals], rfl⟩
        | other =>
          simp only [Option.some.injEq] at hs
          subst hs
          exact ⟨by simp [arrivals, State.readFrom, State.waitingAt], by simp [arrivals], rfl⟩

theorem run_order (i : Nat) (ls : List Label) : ∀ {s s' : State}, run s ls = some s' →
    s'.readFrom i ++ s'.waitingAt i = s.readFrom i ++ s.waitingAt i ++ arrivals i s.arrived ls := by
  induction ls with
  | nil => intro s s' hr; simp only [run, Option.some.injEq] at hr; subst hr; simp [arrivals]
  | cons l ls ih =>
    intro s s' hr
    simp only [run, Option.bind_eq_some_iff] at hr
    obtain ⟨s1, h1, h2⟩ := hr
    obtain ⟨a, b, -⟩ := step_order i l h1
    rw [ih h2, a, b ls, List.append_assoc]

/-- Every socket with something to read is noticed. -/
structure Inv (s : State) : Prop where
  range : ∀ t ∈ s.look, t = SYSTEM ∨ t < s.sockets.length
  waiting : s.serving → ∀ i, s.waitingAt i ≠ [] → s.pending i = true ∨ i ∈ s.look

theorem waitingAt_lt {s : State} {i : Nat} (h : s.waitingAt i ≠ []) : i < s.sockets.length := by
  simp only [State.waitingAt] at h
  cases hi : s.sockets[i]? with
  | none => simp [hi] at h
  | some k => exact (List.getElem?_eq_some_iff.1 hi).1

theorem pending_lt {s : State} {t : Nat} (h : s.pending t = true) : t = SYSTEM ∨ t < s.sockets.length := by
  simp only [State.pending] at h
  by_cases ht : t = SYSTEM
  · exact .inl ht
  · right
    simp only [ht, if_false] at h
    cases hi : s.sockets[t]? with
    | none => simp [hi] at h
    | some k => exact (List.getElem?_eq_some_iff.1 hi).1

theorem Inv.step {s s' : State} (hn : s.sockets.length < SYSTEM) (h : Inv s) (l : Label) (hs : step s l = some s') (hl : l ≠ .recv .other) :
    Inv s' ∧ (l ≠ .pollFails → s.phase ≠ .panicked → s'.phase ≠ .panicked) := by
  cases l with
  | arrive j =>
    simp only [Udp.step] at hs
    split at hs
    case isFalse => cases hs
    case isTrue hj =>
      simp only [Option.some.injEq] at hs
      subst hs
      refine ⟨⟨by simpa [State.look] using h.range, ?_⟩, fun _ x => x⟩
      intro hsv i hi
      have hlt := waitingAt_lt hi
      rw [waitingAt_arrive s i j hj] at hi
      simp only [List.length_modify] at hlt
      have his : i ≠ SYSTEM := by omega
      by_cases hij : j = i
      · left
        subst hij
        simp [State.pending, his, hj]
      · simp only [hij, if_false, List.append_nil] at hi
        rcases h.waiting hsv i hi with hh | hh
        · left
          simp only [State.pending, his, if_false, List.getElem?_modify] at hh ⊢
          cases hk : s.sockets[i]? <;> simp_all
        · exact .inr hh
  | shutdown =>
    simp only [Udp.step, Option.some.injEq] at hs
    subst hs
    refine ⟨⟨h.range, ?_⟩, fun _ x => x⟩
    intro hsv i hi
    refine (h.waiting hsv i hi).imp (fun hh => ?_) (fun x => x)
    have hlt := waitingAt_lt hi
    have his : i ≠ SYSTEM := by simp only at hlt; omega
    simpa [State.pending, his] using hh
  | poll es =>
    simp only [Udp.step] at hs
    split at hs
    case isFalse => cases hs
    case isTrue hc =>
      obtain ⟨hp, -, -, hall⟩ := hc
      simp only [Option.some.injEq] at hs
      subst hs
      obtain ⟨h1, h2, h3, h4, h5⟩ := reports es s
      refine ⟨⟨?_, ?_⟩, by simp⟩
      · intro t ht
        rw [h4]
        exact pending_lt (hall t ht)
      · intro _ i hi
        have hi' : s.waitingAt i ≠ [] := by rw [← h1 i]; exact hi
        have hsv : s.serving := by simp [State.serving, hp]
        have := h.waiting hsv i hi'
        simp only [State.look, hp, List.not_mem_nil, or_false] at this
        by_cases hm : i ∈ es
        · exact .inr hm
        · exact .inl (h5 i this hm)
  | pollFails =>
    simp only [Udp.step] at hs
    split at hs
    case isFalse => cases hs
    case isTrue hc =>
      simp only [Option.some.injEq] at hs
      subst hs
      exact ⟨⟨by simp [State.look], by simp [State.serving]⟩, by simp⟩
  | event =>
    simp only [Udp.step] at hs
    split at hs
    case h_1 hp =>
      simp only [Option.some.injEq] at hs
      subst hs
      have hsv : s.serving := by simp [State.serving, hp]
      refine ⟨⟨by simp [State.look], ?_⟩, by simp⟩
      intro _ i hi
      have := h.waiting hsv i hi
      simp only [State.look, hp] at this
      exact this
    case h_2 t es hp =>
      have hsv : s.serving := by simp [State.serving, hp]
      have hlook : s.look = t :: es := by simp [State.look, hp]
      have hr := h.range
      rw [hlook] at hr
      by_cases ht : t = SYSTEM
      · rw [if_pos ht, Option.some.injEq] at hs
        subst hs
        exact ⟨⟨by simp [State.look], by simp [State.serving]⟩, by simp⟩
      · rw [if_neg ht] at hs
        have hlt : t < s.sockets.length := by
          rcases hr t (by simp) with hh | hh
          · exact absurd hh ht
          · exact hh
        rw [if_pos hlt, Option.some.injEq] at hs
        subst hs
        refine ⟨⟨hr, ?_⟩, by simp⟩
        intro _ i hi
        have := h.waiting hsv i hi
        rw [hlook] at this
        exact this
    case h_3 => cases hs
  | recv r =>
    simp only [Udp.step] at hs
    split at hs
    case h_2 => cases hs
    case h_1 j es hp =>
      have hsv : s.serving := by simp [State.serving, hp]
      have hlook : s.look = j :: es := by simp [State.look, hp]
      have hr := h.range
      rw [hlook] at hr
      have hw := h.waiting hsv
      rw [hlook] at hw
      cases hj : s.sockets[j]? with
      | none => simp [hj] at hs
      | some k =>
        simp only [hj] at hs
        cases r with
        | ok =>
          simp only at hs
          cases hwk : k.waiting with
          | nil => simp [hwk] at hs
          | cons d ds =>
            simp only [hwk, Option.some.injEq] at hs
            subst hs
            obtain ⟨hlt, hjk⟩ := List.getElem?_eq_some_iff.1 hj
            refine ⟨⟨by simpa [State.look, hp] using hr, ?_⟩, by simp [hp]⟩
            intro _ i hi
            by_cases hji : j = i
            · right; simp [State.look, hp, hji]
            · have hi' : s.waitingAt i ≠ [] := by
                simpa [State.waitingAt, List.getElem?_set, hji] using hi
              rcases hw i hi' with hh | hh
              · left
                simp only [State.pending, List.getElem?_set, hji, if_false] at hh ⊢
                exact hh
              · right; simpa [State.look, hp] using hh
        | wouldBlock =>
          simp only at hs
          split at hs
          case isFalse => cases hs
          case isTrue hz =>
            simp only [Option.some.injEq] at hs
            subst hs
            refine ⟨⟨fun t ht => hr t (List.mem_cons_of_mem _ ht), ?_⟩, by simp⟩
            intro _ i hi
            rcases hw i hi with hh | hh
            · exact .inl hh
            · right
              rcases List.mem_cons.1 hh with hh | hh
              · subst hh
                simp [State.waitingAt, hj, hz] at hi
              · exact hh
        | other => exact absurd rfl hl

theorem step_len {s s' : State} (l : Label) (hs : step s l = some s') : s'.sockets.length = s.sockets.length :=
  (step_order 0 l hs).2.2

theorem Inv.run (ls : List Label) : ∀ {s s' : State}, s.sockets.length < SYSTEM → Inv s → run s ls = some s' →
    .recv .other ∉ ls → Inv s' ∧ (.pollFails ∉ ls → s.phase ≠ .panicked → s'.phase ≠ .panicked) := by
  induction ls with
  | nil => intro s s' _ h hr _; simp only [Udp.run, Option.some.injEq] at hr; subst hr; exact ⟨h, fun _ x => x⟩
  | cons l ls ih =>
    intro s s' hn h hr hm
    simp only [Udp.run, Option.bind_eq_some_iff] at hr
    obtain ⟨s1, h1, h2⟩ := hr
    simp only [List.mem_cons, not_or] at hm
    obtain ⟨i1, p1⟩ := h.step hn l h1 (fun e => hm.1 e.symm)
    obtain ⟨i2, p2⟩ := ih (by rw [step_len l h1]; exact hn) i1 h2 hm.2
    refine ⟨i2, fun hmp hp => ?_⟩
    simp only [List.mem_cons, not_or] at hmp
    exact p2 hmp.2 (p1 (fun e => hmp.1 e.symm) hp)

theorem Inv.start (n : Nat) : Inv (State.start n) := by
  constructor
  · simp [State.start, State.look]
  · intro _ i hi
    simp only [State.start, State.waitingAt, List.getElem?_replicate] at hi
    by_cases hin : i < n <;> simp [hin] at hi

/-- Nothing is read from a socket that is not noticed until something arrives at it. -/
theorem unnoticed_step {s s' : State} {i : Nat} (hn : s.sockets.length < SYSTEM) (hi : i < s.sockets.length) (h : ¬ s.noticed i) (l : Label) (hl : l ≠ .arrive i)
    (hs : step s l = some s') : ¬ s'.noticed i ∧ s'.readFrom i = s.readFrom i := by
  rw [noticed_iff, not_or] at h
  obtain ⟨hp, hlk⟩ := h
  have his : i ≠ SYSTEM := by omega
  rw [noticed_iff, not_or]
  cases l with
  | arrive j =>
    simp only [step] at hs
    split at hs
    case isFalse => cases hs
    case isTrue hj =>
      simp only [Option.some.injEq] at hs
      subst hs
      have hji : j ≠ i := fun e => hl (by rw [e])
      refine ⟨⟨?_, hlk⟩, rfl⟩
      simp only [State.pending, his, if_false, List.getElem?_modify] at hp ⊢
      cases hk : s.sockets[i]? <;> simp_all
  | shutdown =>
    simp only [step, Option.some.injEq] at hs
    subst hs
    exact ⟨⟨by simpa [State.pending, his] using hp, hlk⟩, rfl⟩
  | poll es =>
    simp only [step] at hs
    split at hs
    case isFalse => cases hs
    case isTrue hc =>
      obtain ⟨-, -, -, hall⟩ := hc
      simp only [Option.some.injEq] at hs
      subst hs
      obtain ⟨-, h2, -, -, -⟩ := reports es s
      have hnot : i ∉ es := fun hm => hp (hall i hm)
      refine ⟨⟨?_, hnot⟩, by simp [State.readFrom, h2]⟩
      have : ∀ (es : List Nat) (s : State), i ∉ es → (es.foldl State.report s).pending i = s.pending i := by
        intro es
        induction es with
        | nil => intro s _; rfl
        | cons e es ih =>
          intro s hm
          simp only [List.mem_cons, not_or] at hm
          rw [List.foldl_cons, ih _ hm.2]
          simp only [State.report]
          split
          · simp [State.pending, his]
          · have : e ≠ i := fun x => hm.1 x.symm
            simp only [State.pending, his, if_false, List.getElem?_modify]
            cases s.sockets[i]? <;> simp [this]
      have hh := this es s hnot
      simp only [State.pending, his, if_false] at hh hp ⊢
      rw [hh]; exact hp
  | pollFails =>
    simp only [step] at hs
    split at hs
    case isFalse => cases hs
    case isTrue hc =>
      simp only [Option.some.injEq] at hs
      subst hs
      exact ⟨⟨hp, by simp [State.look]⟩, rfl⟩
  | event =>
    simp only [step] at hs
    split at hs
    case h_1 hph =>
      simp only [Option.some.injEq] at hs
      subst hs
      exact ⟨⟨hp, by simp [State.look]⟩, rfl⟩
    case h_2 t es hph =>
      simp only [State.look, hph, List.mem_cons, not_or] at hlk
      split at hs
      · simp only [Option.some.injEq] at hs
        subst hs
        exact ⟨⟨hp, by simp [State.look]⟩, rfl⟩
      · split at hs <;> simp only [Option.some.injEq] at hs <;> subst hs
        · exact ⟨⟨hp, by simpa [State.look] using hlk⟩, rfl⟩
        · exact ⟨⟨hp, by simp [State.look]⟩, rfl⟩
    case h_3 => cases hs
  | recv r =>
    simp only [step] at hs
    split at hs
    case h_2 => cases hs
    case h_1 j es hph =>
      simp only [State.look, hph, List.mem_cons, not_or] at hlk
      cases hj : s.sockets[j]? with
      | none => simp [hj] at hs
      | some k =>
        simp only [hj] at hs
        cases r with
        | ok =>
          simp only at hs
          cases hwk : k.waiting with
          | nil => simp [hwk] at hs
          | cons d ds =>
            simp only [hwk, Option.some.injEq] at hs
            subst hs
            have hji : j ≠ i := fun e => hlk.1 e.symm
            refine ⟨⟨?_, by simpa [State.look, hph] using hlk⟩, by simp [State.readFrom, List.filter_append, hji]⟩
            simp only [State.pending, his, List.getElem?_set, hji, if_false] at hp ⊢
            exact hp
        | wouldBlock =>
          simp only at hs
          split at hs
          case isFalse => cases hs
          case isTrue hz =>
            simp only [Option.some.injEq] at hs
            subst hs
            exact ⟨⟨hp, hlk.2⟩, rfl⟩
        | other =>
          simp only [Option.some.injEq] at hs
          subst hs
          exact ⟨⟨hp, hlk.2⟩, rfl⟩

theorem unnoticed_run {i : Nat} (ls : List Label) : ∀ {s s' : State}, s.sockets.length < SYSTEM → i < s.sockets.length → ¬ s.noticed i →
    run s ls = some s' → .arrive i ∉ ls → s'.readFrom i = s.readFrom i := by
  induction ls with
  | nil => intro s s' _ _ _ hr _; simp only [run, Option.some.injEq] at hr; subst hr; rfl
  | cons l ls ih =>
    intro s s' hn hi h hr hm
    simp only [run, Option.bind_eq_some_iff] at hr
    obtain ⟨s1, h1, h2⟩ := hr
    simp only [List.mem_cons, not_or] at hm
    obtain ⟨a, b⟩ := unnoticed_step hn hi h l (fun e => hm.1 e.symm) h1
    have e := step_len l h1
    rw [ih (by omega) (by omega) a h2 hm.2, b]

end Udp
end Verif
