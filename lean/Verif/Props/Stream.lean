import Verif.Lemmas.Stream
/-!
# C102 — a connection is read to the end, and then released

The sockets are polled edge triggered: a handler that goes back to `poll` before it has taken everything is not told again that
something is there.
-/
namespace Verif
open Stream Graphite

variable {σ : Type}

/-! ## Native and Avro -/

/-- **C102, native and Avro (waiting).**  Whatever a client sends, in whatever pieces, whatever the handler makes of the payloads, and
however the handler's steps and the arrival of bytes interleave: when the handler waits and nothing will wake it, everything that
arrived was read, and the connection is still open. -/
theorem C102_waits_only_for_more (accepts : Bytes → Bool) (k : Sock) (ls : List Label) (s : State Wire.Reader)
    (hr : run (framed accepts) (init (framed accepts) k) ls = some s) (hs : Asleep s) :
    AllRead (framed accepts) s ∧ s.sock.ending = .none := by
  let P : State Wire.Reader → Prop := fun s => s.phase = .polling → s.edge = false →
    AllRead (framed accepts) s ∧ s.sock.ending = .none
  have key : P s := by
    refine run_inv (framed accepts) P ?_ ls _ s ?_ hr
    · intro s l s' hP hst
      cases l with
      | arrive bs =>
        simp only [step] at hst
        split at hst
        · simp only [Option.some.injEq] at hst; subst hst; intro _ he; simp at he
        · simp at hst
      | close =>
        simp only [step] at hst
        split at hst
        · simp only [Option.some.injEq] at hst; subst hst; intro _ he; simp at he
        · simp at hst
      | reset =>
        simp only [step] at hst
        split at hst
        · simp only [Option.some.injEq] at hst; subst hst; intro _ he; simp at he
        · simp at hst
      | spurious =>
        simp only [step, Option.some.injEq] at hst; subst hst; intro _ he; simp at he
      | system =>
        simp only [step, Option.some.injEq] at hst; subst hst; exact hP
      | poll first =>
        simp only [step] at hst
        repeat' split at hst
        all_goals (try simp only [Option.some.injEq, reduceCtorEq] at hst)
        all_goals (subst hst; intro hp; simp at hp)
      | read =>
        simp only [step] at hst
        split at hst
        · cases hx : (framed accepts).read s.own s.sock with
          | mk n rest =>
            obtain ⟨o', k'⟩ := rest
            obtain ⟨-, -, -, g⟩ := framed_read accepts _ _ _ _ _ hx
            next stop hp =>
            rw [hx] at hst
            cases n with
            | got a => simp only [Option.some.injEq] at hst; subst hst; intro h0; simp [hp] at h0
            | stop => simp only [Option.some.injEq] at hst; subst hst; intro h0; simp at h0
            | wait =>
              simp only [Option.some.injEq] at hst
              subst hst
              intro _ _
              obtain ⟨g1, g2, g3⟩ := g rfl
              exact ⟨⟨g1, g2⟩, g3⟩
        · simp at hst
    · intro _ he
      obtain ⟨kernel, ending⟩ := k
      cases kernel <;> cases ending <;> simp [init, AllRead, framed] at he ⊢
  exact key hs.1 hs.2.1

/-- Half a payload arrives, then the rest and half a length; the handler is asleep after each, and has taken the payload. -/
example : ((run (framed fun _ => true) (init (framed fun _ => true) {})
      [.arrive [0, 0, 0, 2, 65], .poll false, .read, .arrive [66], .poll false, .read, .read]).map fun s =>
        (s.phase, s.edge, s.sock, s.taken)) =
    some (.polling, false, {}, [[65, 66]]) := by decide +kernel

/-- **C102 (progress), all three handlers.**  Left alone, a handler takes at most as many steps as there are bytes left, and four; it can
always take another one unless it has ended or waits with nothing to wake it. -/
theorem C102_progress (accepts : Bytes → Bool) :
    (∀ (s s' : State Wire.Reader) (ms : List Label), (∀ l ∈ ms, l.own = true) → run (framed accepts) s ms = some s' →
      ms.length ≤ unread (framed accepts) s + 4 ∧ (Stuck (framed accepts) s' → s'.phase = .ended ∨ Asleep s')) ∧
    (∀ (s s' : State (Bytes × Bytes)) (ms : List Label), (∀ l ∈ ms, l.own = true) → run graphite s ms = some s' →
      ms.length ≤ unread graphite s + 4 ∧ (Stuck graphite s' → s'.phase = .ended ∨ Asleep s')) := by
  have key : ∀ {σ : Type} (h : Handler σ), Lawful h → ∀ (s s' : State σ) (ms : List Label), (∀ l ∈ ms, l.own = true) →
      run h s ms = some s' → ms.length ≤ unread h s + 4 ∧ (Stuck h s' → s'.phase = .ended ∨ Asleep s') := by
    intro σ h hl s s' ms ho hr
    refine ⟨?_, stuck_cases h s'⟩
    have := (own_run h hl ms s s' ho hr).1
    have hw : work h s ≤ unread h s + 4 := by
      simp only [work]
      cases s.phase <;> cases s.edge <;> simp <;> omega
    omega
  exact ⟨key _ (framed_lawful accepts), key _ graphite_lawful⟩

example : ((run graphite (init graphite { kernel := [97, 10, 98, 10] }) [.poll false, .read, .read, .read]).map fun s =>
    (s.phase, s.edge, s.taken)) = some (.polling, false, [[97, 10], [98, 10]]) := by decide +kernel

/-- **C102, native and Avro (the end).**  Once the client has closed or reset the connection, or shutdown was signalled, the handler
ends, whatever is still to be read and in whatever order its events come: no sequence of its own steps is longer than the bytes left
and four, and when it can take none it has ended. -/
theorem C102_ends (accepts : Bytes → Bool) (k : Sock) (ls ms : List Label) (s s' : State Wire.Reader)
    (hr : run (framed accepts) (init (framed accepts) k) ls = some s)
    (he : k.ending ≠ .none ∨ .close ∈ ls ∨ .reset ∈ ls ∨ .system ∈ ls)
    (ho : ∀ l ∈ ms, l.own = true) (hm : run (framed accepts) s ms = some s') :
    ms.length ≤ unread (framed accepts) s + 4 ∧ (Stuck (framed accepts) s' → s'.phase = .ended) := by
  obtain ⟨h1, h2⟩ := (C102_progress accepts).1 s s' ms ho hm
  refine ⟨h1, fun hst => ?_⟩
  rcases h2 hst with h | h
  · exact h
  · exfalso
    obtain ⟨-, e1, e2⟩ := own_run _ (framed_lawful accepts) ms s s' ho hm
    have hrun : run (framed accepts) (init (framed accepts) k) (ls ++ ms) = some s' := by
      rw [run_append, hr]; exact hm
    have := (C102_waits_only_for_more accepts k (ls ++ ms) s' hrun h).2
    obtain ⟨b1, b2⟩ := run_ends _ (framed_lawful accepts) ls _ s hr
    have he : s.sock.ending ≠ .none ∨ s.system = true := by
      rcases he with he | he | he | he
      · exact Or.inl (b2 (Or.inl he))
      · exact Or.inl (b2 (Or.inr (Or.inl he)))
      · exact Or.inl (b2 (Or.inr (Or.inr he)))
      · exact Or.inr (b1 (Or.inr he))
    rcases he with he | he
    · exact he (e1 ▸ this)
    · have := h.2.2; rw [e2, he] at this; exact absurd this (by simp)

/-- The client sends a payload and the beginning of another, and closes; both are read and the handler ends. -/
example : ((run (framed fun _ => true) (init (framed fun _ => true) {})
      [.arrive [0, 0, 0, 1, 65, 0, 0], .close, .poll false, .read, .read]).map fun s => (s.phase, s.sock, s.taken)) =
    some (.ended, { ending := .fin }, [[65]]) := by decide +kernel

/-- **C102 (shutdown), graphite.**  Once shutdown was signalled the handler ends. -/
theorem C102_graphite_shutdown (k : Sock) (ls ms : List Label) (s s' : State (Bytes × Bytes))
    (hr : run graphite (init graphite k) ls = some s) (he : .system ∈ ls)
    (ho : ∀ l ∈ ms, l.own = true) (hm : run graphite s ms = some s') :
    ms.length ≤ unread graphite s + 4 ∧ (Stuck graphite s' → s'.phase = .ended) := by
  obtain ⟨h1, h2⟩ := (C102_progress fun _ => true).2 s s' ms ho hm
  refine ⟨h1, fun hst => ?_⟩
  rcases h2 hst with h | h
  · exact h
  · exfalso
    obtain ⟨-, -, e2⟩ := own_run _ graphite_lawful ms s s' ho hm
    have he := (run_ends _ graphite_lawful ls _ s hr).1 (Or.inr he)
    have := h.2.2; rw [e2, he] at this; exact absurd this (by simp)

example : ((run graphite (init graphite {}) [.arrive [97, 10], .poll false, .system, .read, .read, .poll true]).map fun s =>
    (s.phase, s.taken)) = some (.ended, [[97, 10]]) := by decide +kernel

/-- **C102** (shutdown) Once shutdown has been signalled, a handler of either protocol polls at most once more, however the client goes on
sending: the batch of events that poll returns is its last. -/
theorem C102_one_more_poll {σ : Type} (h : Handler σ) (k : Sock) (ls ms : List Label) (s s' : State σ)
    (hr : run h (init h k) (ls ++ [.system]) = some s) (hm : run h s ms = some s') :
    (ms.filter fun l => l = .poll true ∨ l = .poll false).length ≤ 1 := by
  have key : ∀ (ms : List Label) (s s' : State σ), s.system = true → run h s ms = some s' →
      (ms.filter fun l => l = .poll true ∨ l = .poll false).length ≤
        (match s.phase with | .polling => 1 | .reading false => 1 | _ => 0) := by
    intro ms
    induction ms with
    | nil => intro s s' _ _; simp
    | cons l ms ih =>
      intro s s' hs hr
      simp only [run] at hr
      cases hst : step h s l with
      | none => rw [hst] at hr; simp at hr
      | some s1 =>
        rw [hst] at hr
        simp only [Option.bind_some] at hr
        cases l with
        | arrive bs =>
          simp only [step] at hst
          split at hst
          · simp only [Option.some.injEq] at hst; subst hst
            simpa using ih _ s' (by simpa using hs) hr
          · simp at hst
        | close =>
          simp only [step] at hst
          split at hst
          · simp only [Option.some.injEq] at hst; subst hst
            simpa using ih _ s' (by simpa using hs) hr
          · simp at hst
        | reset =>
          simp only [step] at hst
          split at hst
          · simp only [Option.some.injEq] at hst; subst hst
            simpa using ih _ s' (by simpa using hs) hr
          · simp at hst
        | spurious =>
          simp only [step, Option.some.injEq] at hst; subst hst
          simpa using ih _ s' (by simpa using hs) hr
        | system =>
          simp only [step, Option.some.injEq] at hst; subst hst
          simpa using ih _ s' rfl hr
        | poll f =>
          simp only [step] at hst
          cases hp : s.phase with
          | polling =>
            simp only [hp, hs, Bool.true_and, if_true] at hst
            have h1 : s1.system = true ∧ (s1.phase = .ended ∨ s1.phase = .reading true) := by
              by_cases he : s.edge = true <;> cases f <;>
                simp [he] at hst <;> subst hst <;> simp [hs]
            have := ih s1 s' h1.1 hr
            rcases h1.2 with e | e <;> rw [e] at this <;> cases f <;> simpa using this
          | reading b => simp [hp] at hst
          | ended => simp [hp] at hst
        | read =>
          simp only [step] at hst
          cases hp : s.phase with
          | polling => simp [hp] at hst
          | ended => simp [hp] at hst
          | reading stop =>
            simp only [hp] at hst
            rcases hh : h.read s.own s.sock with ⟨o, own, sock⟩
            cases o <;> simp only [hh, Option.some.injEq] at hst <;> subst hst
            · have := ih _ s' (by simpa using hs) hr
              cases stop <;> simpa [hp] using this
            · have := ih _ s' (by simpa using hs) hr
              cases stop <;> simpa using this
            · have := ih _ s' (by simpa using hs) hr
              have h0 : (ms.filter fun l => l = .poll true ∨ l = .poll false).length = 0 := Nat.le_zero.1 this
              simpa using (by rw [h0]; exact Nat.zero_le _ :
                (ms.filter fun l => l = .poll true ∨ l = .poll false).length ≤ (match Phase.reading stop with | .polling => 1 | .reading false => 1 | _ => 0))
  have hs : s.system = true := by
    rw [run_append] at hr
    cases h1 : run h (init h k) ls with
    | none => rw [h1] at hr; simp at hr
    | some s0 =>
      rw [h1] at hr
      simp only [Option.bind_some, run, step, Option.some.injEq] at hr
      subst hr; rfl
  refine Nat.le_trans (key ms s s' hs hm) ?_
  cases s.phase with
  | polling => exact Nat.le_refl 1
  | reading b => cases b <;> simp
  | ended => simp

example : (run graphite (init graphite {}) ([.arrive [97, 10], .poll false] ++ [.system])).isSome = true ∧
    ((run graphite (init graphite {}) ([.arrive [97, 10], .poll false] ++ [.system])).bind fun s =>
      (run graphite s [.read, .read, .arrive [98, 10], .poll false, .arrive [99, 10], .read, .read, .read]).map fun s =>
        (s.phase, s.taken)) = some (.ended, [[97, 10], [98, 10], [99, 10]]) := by decide +kernel

/-! ## Graphite -/

/-- **C102 is false of the graphite handler (the end).**  Unless shutdown is signalled it never ends: not when the client closes or resets the
connection, and whatever was sent.  The thread and its socket stay. -/
theorem C102_graphite_end_false (k : Sock) (ls : List Label) (hn : Label.system ∉ ls) (s : State (Bytes × Bytes))
    (hr : run graphite (init graphite k) ls = some s) : s.phase ≠ .ended := by
  have key : ∀ (ls : List Label) (s s' : State (Bytes × Bytes)), Label.system ∉ ls →
      (s.system = false ∧ (s.phase = .polling ∨ s.phase = .reading false)) → run graphite s ls = some s' →
      (s'.system = false ∧ (s'.phase = .polling ∨ s'.phase = .reading false)) := by
    intro ls
    induction ls with
    | nil => intro s s' _ h hr; simp only [run, Option.some.injEq] at hr; exact hr ▸ h
    | cons l ls ih =>
      intro s s' hn ⟨h1, h2⟩ hr
      simp only [List.mem_cons, not_or] at hn
      simp only [run] at hr
      cases hst : step graphite s l with
      | none => rw [hst] at hr; simp at hr
      | some s1 =>
        rw [hst] at hr
        refine ih s1 s' hn.2 ?_ hr
        cases l with
        | system => exact absurd rfl hn.1
        | arrive bs =>
          simp only [step] at hst
          split at hst
          · simp only [Option.some.injEq] at hst; subst hst; exact ⟨h1, h2⟩
          · simp at hst
        | close =>
          simp only [step] at hst
          split at hst
          · simp only [Option.some.injEq] at hst; subst hst; exact ⟨h1, h2⟩
          · simp at hst
        | reset =>
          simp only [step] at hst
          split at hst
          · simp only [Option.some.injEq] at hst; subst hst; exact ⟨h1, h2⟩
          · simp at hst
        | spurious => simp only [step, Option.some.injEq] at hst; subst hst; exact ⟨h1, h2⟩
        | poll first =>
          rcases h2 with h2 | h2
          · simp only [step, h2, h1, Bool.false_and, Bool.false_eq_true, if_false] at hst
            split at hst
            · simp only [Option.some.injEq] at hst; subst hst; exact ⟨rfl, Or.inr rfl⟩
            · simp at hst
          · simp [step, h2] at hst
        | read =>
          rcases h2 with h2 | h2
          · simp [step, h2] at hst
          · simp only [step, h2] at hst
            cases hx : graphite.read s.own s.sock with
            | mk n rest =>
              obtain ⟨o', k'⟩ := rest
              rw [hx] at hst
              cases n with
              | got a => simp only [Option.some.injEq] at hst; subst hst; exact ⟨h1, Or.inr rfl⟩
              | wait => simp only [Option.some.injEq] at hst; subst hst; exact ⟨h1, Or.inl rfl⟩
              | stop =>
                obtain ⟨l, x, r, t, -, -, -, c⟩ := graphite_read _ _ _ _ _ hx
                rcases c with ⟨_, _, _, c, _⟩ | ⟨_, _, _, c, _⟩ | ⟨_, _, c, _⟩ | ⟨_, c, _⟩ <;> simp at c
  have := (key ls _ s hn ⟨rfl, Or.inl rfl⟩ hr).2
  intro h
  rcases this with h' | h' <;> rw [h] at h' <;> simp at h'

/-- The client sends a line and closes; the handler is asleep for good. -/
example : ((run graphite (init graphite {}) [.arrive [97, 10], .close, .poll false, .read, .read]).map fun s =>
    (s.phase, s.edge, s.sock, s.taken)) = some (.polling, false, { ending := .fin }, [[97, 10]]) := by decide +kernel

/-- **C102 is false of the graphite handler (waiting).**  A client sends a line that is not UTF-8 and then a good one, in one piece; after one
call of the reader the handler waits, with the good line in its buffer and nothing to wake it. -/
theorem C102_graphite_stall_false : ∃ s, run graphite (init graphite {})
    [.arrive ([255, 10] ++ [97, 32, 49, 32, 49, 10]), .poll false, .read] = some s ∧ Asleep s ∧ s.taken = [] ∧
    graphite.staged s.own = [97, 32, 49, 32, 49, 10] := by
  refine ⟨{ own := ([], [97, 32, 49, 32, 49, 10]) }, ?_, ⟨rfl, rfl, rfl⟩, rfl, rfl⟩
  decide +kernel

theorem byte_cut_append (a b : Bytes) (h : (10 : UInt8) ∉ a) :
    finishedLines (a ++ [10] ++ b) = (a ++ [10]) :: finishedLines b := by
  induction a with
  | nil => simp [finishedLines]
  | cons c a ih =>
    simp only [List.mem_cons, not_or] at h
    have hc : ¬ c = 10 := fun e => h.1 e.symm
    simp only [List.cons_append, finishedLines, hc, if_false]
    rw [ih h.2]

theorem byte_cut_none (a : Bytes) (h : (10 : UInt8) ∉ a) : finishedLines a = [] := by
  induction a with
  | nil => rfl
  | cons c a ih =>
    simp only [List.mem_cons, not_or] at h
    have hc : ¬ c = 10 := fun e => h.1 e.symm
    simp [finishedLines, hc, ih h.2]

theorem byte_cut_lines (ls : List Bytes) (h : ∀ l ∈ ls, ∃ p, l = p ++ [10] ∧ (10 : UInt8) ∉ p) (r : Bytes)
    (hr : (10 : UInt8) ∉ r) : finishedLines (ls.flatten ++ r) = ls := by
  induction ls with
  | nil => exact byte_cut_none r hr
  | cons l ls ih =>
    obtain ⟨p, rfl, hp⟩ := h l (by simp)
    rw [List.flatten_cons, List.append_assoc, byte_cut_append p _ hp, ih (fun l hl => h l (by simp [hl]))]

/-- what holds of the graphite handler along a run in which `all` has arrived -/
private structure GInv (all : Bytes) (s : State (Bytes × Bytes)) : Prop where
  bytes : all = s.taken.flatten ++ (s.own.1 ++ (s.own.2 ++ s.sock.kernel))
  line : (10 : UInt8) ∉ s.own.1
  taken : ∃ ls rest, s.taken = ls ++ rest ∧ (∀ l ∈ ls, ∃ p, l = p ++ [10] ∧ (10 : UInt8) ∉ p) ∧
    (rest = [] ∨ s.sock.ending = .fin ∧ s.own = ([], []) ∧ s.sock.kernel = [] ∧
      ∃ l, rest = [l] ∧ l ≠ [] ∧ (10 : UInt8) ∉ l)
  idle : s.phase = .polling → s.edge = false → s.own.2 = [] ∧ s.sock.kernel = []

private theorem ginv_step (all : Bytes) (ha : ∀ b ∈ all, b < 128) (s s' : State (Bytes × Bytes)) (l : Label)
    (hb : ∀ b ∈ sent [l], b < 128) (hi : GInv all s) (hst : step graphite s l = some s') : GInv (all ++ sent [l]) s' := by
  obtain ⟨i1, i2, ⟨ls, rest, i3, i4, i5⟩, i6⟩ := hi
  cases l with
  | arrive bs =>
    simp only [step] at hst
    split at hst
    · next hc =>
      simp only [Option.some.injEq] at hst; subst hst
      refine ⟨by simp [sent, i1], i2, ⟨ls, rest, i3, i4, ?_⟩, by simp⟩
      rcases i5 with h | ⟨h, -⟩
      · exact Or.inl h
      · rw [hc.1] at h; simp at h
    · simp at hst
  | close =>
    simp only [step] at hst
    split at hst
    · next hc =>
      simp only [Option.some.injEq] at hst; subst hst
      refine ⟨by simp [sent, i1], i2, ⟨ls, rest, i3, i4, ?_⟩, by simp⟩
      rcases i5 with h | ⟨h, -⟩
      · exact Or.inl h
      · rw [hc] at h; simp at h
    · simp at hst
  | reset =>
    simp only [step] at hst
    split at hst
    · next hc =>
      simp only [Option.some.injEq] at hst; subst hst
      refine ⟨by simp [sent, i1], i2, ⟨ls, rest, i3, i4, ?_⟩, by simp⟩
      rcases i5 with h | ⟨h, -⟩
      · exact Or.inl h
      · rw [hc] at h; simp at h
    · simp at hst
  | spurious =>
    simp only [step, Option.some.injEq] at hst; subst hst
    exact ⟨by simp [sent, i1], i2, ⟨ls, rest, i3, i4, i5⟩, by simp⟩
  | system =>
    simp only [step, Option.some.injEq] at hst; subst hst
    exact ⟨by simp [sent, i1], i2, ⟨ls, rest, i3, i4, i5⟩, i6⟩
  | poll first =>
    simp only [step] at hst
    repeat' split at hst
    all_goals (try simp only [Option.some.injEq, reduceCtorEq] at hst)
    all_goals subst hst
    all_goals exact ⟨by simp [sent, i1], i2, ⟨ls, rest, i3, i4, i5⟩, by simp⟩
  | read =>
    simp only [step] at hst
    split at hst
    case h_2 => simp at hst
    next stop hp =>
    cases hx : graphite.read s.own s.sock with
    | mk n rst =>
      obtain ⟨o', k'⟩ := rst
      obtain ⟨l, x, r, t, ⟨u1, u2⟩, rfl, rfl, c⟩ := graphite_read _ _ _ _ _ hx
      have hv : utf8Valid l = true := by
        refine ascii_valid l fun b hb' => ha b ?_
        rw [i1, u1]; simp [hb']
      rw [hx] at hst
      rcases c with ⟨-, c2, c3, rfl, c5⟩ | ⟨-, c2, c3, rfl, c5⟩ | ⟨-, ⟨y, c2⟩, rfl, c5⟩ | ⟨c1, -⟩
      · -- a line
        simp only [Option.some.injEq] at hst; subst hst
        have hrest : rest = [] := by
          rcases i5 with h | ⟨-, h1, h2, -⟩
          · exact h
          · rw [h1, h2] at u1
            have := congrArg List.length u1
            have hp : 0 < l.length := List.length_pos_iff.2 c3
            simp only [List.append_nil, List.length_nil, List.length_append] at this
            omega
        subst hrest
        refine ⟨?_, by simp [c5], ?_, by simp [hp]⟩
        · simp only [sent, List.append_nil, c5, List.nil_append, List.flatten_append, List.flatten_cons, List.flatten_nil]
          rw [i1, u1]; simp
        · rcases u2 with ⟨-, p, e1, e2⟩ | ⟨-, e1, e2, e3, e4⟩ | ⟨y, e1, -⟩
          · refine ⟨ls ++ [s.own.1 ++ l], [], by simp [i3], ?_, Or.inl rfl⟩
            intro m hm
            rcases List.mem_append.1 hm with hm | hm
            · exact i4 m hm
            · simp only [List.mem_singleton] at hm
              subst hm
              exact ⟨s.own.1 ++ p, by simp [e1], by simp [i2, e2]⟩
          · refine ⟨ls, [s.own.1 ++ l], by simp [i3], i4, Or.inr ⟨e4, ?_, e3, _, rfl, by simp [c3], by simp [i2, e1]⟩⟩
            exact Prod.ext c5 e2
          · rw [c2] at e1; simp at e1
      · -- end of the stream
        simp only [Option.some.injEq] at hst; subst hst
        have hd : o'.2 = [] ∧ dataOf t = [] := by
          rcases u2 with ⟨-, p, e1, e2⟩ | ⟨-, e1, e2, e3, e4⟩ | ⟨y, e1, -⟩
          · rw [c3] at e1; simp at e1
          · exact ⟨e2, e3⟩
          · rw [c2] at e1; simp at e1
        refine ⟨?_, by rw [c5]; exact i2, ⟨ls, rest, i3, i4, ?_⟩, fun _ _ => hd⟩
        · simp only [sent, List.append_nil, c5]
          rw [i1, u1, c3]; simp
        · rcases i5 with h | ⟨h1, h2, h3, h4⟩
          · exact Or.inl h
          · refine Or.inr ⟨h1, ?_, hd.2, h4⟩
            refine Prod.ext ?_ hd.1
            rw [c5, h2]
      · -- it would block, or the connection was reset
        simp only [Option.some.injEq] at hst; subst hst
        rcases u2 with ⟨e1, -⟩ | ⟨e1, -⟩ | ⟨y', -, e1, e2, e3, e4⟩
        · rw [c2] at e1; simp at e1
        · rw [c2] at e1; simp at e1
        refine ⟨?_, by rw [c5]; simp [i2, e1], ⟨ls, rest, i3, i4, ?_⟩, fun _ _ => ⟨e2, e3⟩⟩
        · simp only [sent, List.append_nil, c5]
          rw [i1, u1]; simp
        · rcases i5 with h | ⟨h1, -⟩
          · exact Or.inl h
          · exact absurd h1 e4
      · rw [hv] at c1; simp at c1

private theorem ginv_run (ls : List Label) : ∀ (all : Bytes) (s s' : State (Bytes × Bytes)), (∀ b ∈ all, b < 128) →
    (∀ b ∈ sent ls, b < 128) → GInv all s → run graphite s ls = some s' → GInv (all ++ sent ls) s' := by
  induction ls with
  | nil => intro all s s' _ _ hi hr; simp only [run, Option.some.injEq] at hr; subst hr; simpa [sent] using hi
  | cons l ls ih =>
    intro all s s' ha hb hi hr
    have hsp : sent (l :: ls) = sent [l] ++ sent ls := by cases l <;> simp [sent]
    rw [hsp] at hb ⊢
    simp only [run] at hr
    cases hst : step graphite s l with
    | none => rw [hst] at hr; simp at hr
    | some s1 =>
      rw [hst] at hr
      have h1 := ginv_step all ha s s1 l (fun b h => hb b (by simp [h])) hi hst
      have := ih (all ++ sent [l]) s1 s' ?_ (fun b h => hb b (by simp [h])) h1 hr
      · rw [← List.append_assoc]; exact this
      · intro b h
        rcases List.mem_append.1 h with h | h
        · exact ha b h
        · exact hb b (by simp [h])

/-- **C102 (part), graphite.**  If the client sends ASCII text only, then whenever the handler waits with nothing to wake it, everything that
arrived was read, and the lines it took are exactly the finished lines of what arrived, in order; once the client has closed, there may be
one more, the unfinished line at the end.  Missing from the full statement: other bytes, and the end of the handler, see above. -/
theorem C102_graphite_lines_partial (k : Sock) (ls : List Label) (s : State (Bytes × Bytes))
    (hr : run graphite (init graphite k) ls = some s) (hs : Asleep s) (ha : ∀ b ∈ k.kernel ++ sent ls, b < 128) :
    AllRead graphite s ∧ ∃ rest, s.taken = finishedLines (k.kernel ++ sent ls) ++ rest ∧
      (rest = [] ∨ s.sock.ending = .fin ∧ ∃ l, rest = [l] ∧ l ≠ [] ∧ (10 : UInt8) ∉ l ∧ l <:+ k.kernel ++ sent ls) := by
  have h0 : GInv k.kernel (init graphite k) := by
    refine ⟨by simp [init, graphite], by simp [init, graphite], ⟨[], [], rfl, by simp, Or.inl rfl⟩, ?_⟩
    intro _ he
    obtain ⟨kernel, ending⟩ := k
    cases kernel <;> simp [init, graphite] at he ⊢
  obtain ⟨i1, i2, ⟨fl, rest, i3, i4, i5⟩, i6⟩ := ginv_run ls k.kernel _ s (fun b h => ha b (by simp [h]))
    (fun b h => ha b (by simp [h])) h0 hr
  obtain ⟨j1, j2⟩ := i6 hs.1 hs.2.1
  refine ⟨⟨j2, j1⟩, rest, ?_, ?_⟩
  · rw [i1, i3, j1, j2]
    rcases i5 with rfl | ⟨-, h2, -, l, rfl, h5, h6⟩
    · simp only [List.append_nil]
      rw [byte_cut_lines fl i4 _ i2]
    · rw [h2]
      simp only [List.append_nil, List.flatten_append, List.flatten_cons, List.flatten_nil]
      rw [byte_cut_lines fl i4 _ h6]
  · rcases i5 with rfl | ⟨h1, h2, -, l, rfl, h5, h6⟩
    · exact Or.inl rfl
    · refine Or.inr ⟨h1, l, rfl, h5, h6, ?_⟩
      rw [i1, i3, j1, j2, h2]
      exact ⟨fl.flatten, by simp⟩

/-- What holds of the graphite handler at any time, asleep or not. -/
theorem graphite_at_any_time (k : Sock) (ls : List Label) (s : State (Bytes × Bytes))
    (hr : run graphite (init graphite k) ls = some s) (ha : ∀ b ∈ k.kernel ++ sent ls, b < 128) :
    ∃ (fl rest : List Bytes) (after : Bytes), s.taken = fl ++ rest ∧ k.kernel ++ sent ls = s.taken.flatten ++ after ∧
      (∀ l ∈ fl, ∃ p, l = p ++ [10] ∧ (10 : UInt8) ∉ p) ∧
      (rest = [] ∨ s.sock.ending = .fin ∧ after = [] ∧ ∃ l, rest = [l] ∧ l ≠ [] ∧ (10 : UInt8) ∉ l) ∧
      (Asleep s → (10 : UInt8) ∉ after) := by
  have h0 : GInv k.kernel (init graphite k) := by
    refine ⟨by simp [init, graphite], by simp [init, graphite], ⟨[], [], rfl, by simp, Or.inl rfl⟩, ?_⟩
    intro _ he
    obtain ⟨kernel, ending⟩ := k
    cases kernel <;> simp [init, graphite] at he ⊢
  obtain ⟨i1, i2, ⟨fl, rest, i3, i4, i5⟩, i6⟩ := ginv_run ls k.kernel _ s (fun b h => ha b (by simp [h]))
    (fun b h => ha b (by simp [h])) h0 hr
  refine ⟨fl, rest, _, i3, i1, i4, ?_, ?_⟩
  · rcases i5 with h | ⟨h1, h2, h3, h4⟩
    · exact .inl h
    · exact .inr ⟨h1, by rw [h2, h3]; rfl, h4⟩
  · intro hs
    obtain ⟨j1, j2⟩ := i6 hs.1 hs.2.1
    rw [j1, j2]
    simpa using i2

/-- Three pieces, cut in the middle of lines, with the client closing after an unfinished line. -/
example : ((run graphite (init graphite {}) [.arrive [97], .poll false, .read, .arrive [98, 10, 99], .poll false, .read, .read,
      .arrive [100], .close, .poll true, .read, .read]).map fun s => (s.phase, s.edge, s.taken)) =
    some (.polling, false, [[97, 98, 10], [99, 100]]) := by decide +kernel

end Verif
