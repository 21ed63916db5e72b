import Verif.Model.JsonFilter
import Verif.Spec.JsonFilter
import Verif.Props.Json
import Verif.Props.Date
/-!
# C131: when the JSON-encoding filter stops

`Spec/JsonFilter` says what is to be sent for an event.
-/
namespace Verif
open JsonFilter
open Native (Each)
variable {F : Type} [F64 F]

theorem JsonFilter.format_some (t : Int) : (∃ s, Chrono.formatTime t = some s) ↔ InCalendar t := by
  have h := (C130_time t Chrono.formatTime _ (.inl ⟨rfl, rfl⟩)).1
  unfold InCalendar
  cases hf : Chrono.formatTime t with
  | none => simp only [reduceCtorEq, exists_false, false_iff]; have := h.1 hf; omega
  | some s =>
    refine ⟨fun _ => ?_, fun _ => ⟨s, rfl⟩⟩
    have : ¬ (t < -8334632851200 ∨ 8210298412799 < t) := fun c => by rw [h.2 c] at hf; simp at hf
    omega

private theorem line_sent (num : Str → Option Str) (hnum : ∀ t u, num t = some u → Json.IsNumber u) (now : Int) (s : JsonEncode) (l : LogLine) (time : Str)
    (ht : Chrono.formatTime l.time = some time) :
    ∃ e, process num now s (.log l : Event F) [] = some ({ s with drawn := s.drawn + 1 }, [e], .ok ()) ∧ LineSent num s.parseLine s.tags l e := by
  obtain ⟨obj, r, text, h1, h2, h3, h4, -, h5, h6⟩ := C129_payload (F := F) num hnum (fun _ => time) now s l
  exact ⟨.raw r, by simp only [process, ht, h1], obj, r, text, time, rfl, h2, h3, h4, h5,
    (C130_time l.time Chrono.formatTime _ (.inl ⟨rfl, rfl⟩)).2 time ht, h6⟩

private theorem step_event (num : Str → Option Str) (hnum : ∀ t u, num t = some u → Json.IsNumber u) (sources : Nat) (r : FilterRun F JsonEncode)
    (hr : r.events = []) (now : Int) (e : Event F) (he : e.isShutdown = false) (hc : ∀ l, e = .log l → InCalendar l.time) :
    ∃ a d, Sent num r.state.parseLine r.state.tags e a ∧
      step num sources r (some (now, e)) = some { r with state := { r.state with drawn := d }, events := [], sent := r.sent ++ [a] } := by
  cases e with
  | shutdown => simp [Event.isShutdown] at he
  | log l =>
    obtain ⟨time, ht⟩ := (format_some l.time).2 (hc l rfl)
    obtain ⟨a, h1, h2⟩ := line_sent (F := F) num hnum now r.state l time ht
    exact ⟨a, r.state.drawn + 1, h2, by simp only [step, hr, h1]⟩
  | _ => exact ⟨_, r.state.drawn, rfl, by simp [step, process, jsonProcess, hr]⟩

private theorem run_spec (num : Str → Option Str) (hnum : ∀ t u, num t = some u → Json.IsNumber u) (sources : Nat) (pl : Bool) (tags : TagMap)
    (recv : List (Option (Int × Event F))) : ∀ r : FilterRun F JsonEncode, r.events = [] → r.finished = false → r.state.parseLine = pl → r.state.tags = tags →
    r.totalShutdowns < max 1 sources →
    ∃ consumed rest new, recv = consumed ++ rest ∧ (run num sources r recv).run.sent = r.sent ++ new ∧
      (∀ now l, some (now, .log l) ∈ consumed → InCalendar l.time) ∧
      Each (Sent num pl tags) (consumed.filterMap fun i => i.map Prod.snd) new ∧
      ((run num sources r recv).panicked = true → r.totalShutdowns + shutdownsIn consumed < max 1 sources ∧
        ∃ now l, rest = some (now, .log l) :: (run num sources r recv).unread ∧ ¬ InCalendar l.time) ∧
      ((run num sources r recv).panicked = false → rest = (run num sources r recv).unread ∧
        (((run num sources r recv).run.finished = false ∧ rest = [] ∧ r.totalShutdowns + shutdownsIn consumed < max 1 sources) ∨
         ((run num sources r recv).run.finished = true ∧ r.totalShutdowns + shutdownsIn consumed = max 1 sources ∧
          ∃ pre now, consumed = pre ++ [some (now, .shutdown)]))) := by
  induction recv with
  | nil =>
    intro r he hf hp ht hs
    exact ⟨[], [], [], rfl, by simp [run], by simp, .nil, by simp [run], fun _ => ⟨rfl, .inl ⟨hf, rfl, by simpa [shutdownsIn] using hs⟩⟩⟩
  | cons i is ih =>
    intro r he hf hp ht hs
    have stop : ∀ x : FilterRun F JsonEncode, x.finished = true → run num sources x is = ⟨false, x, is⟩ := by
      intro x hx
      cases is with
      | nil => rfl
      | cons j js => simp [run, hx]
    cases i with
    | none =>
      obtain ⟨c, rest, new, h1, h2, h3, h4, h5, h6⟩ := ih r he hf hp ht hs
      have hr : run num sources r (none :: is) = run num sources r is := by simp [run, hf, step]
      rw [hr]
      have hsd : shutdownsIn (none :: c : List (Option (Int × Event F))) = shutdownsIn c := by simp [shutdownsIn]
      refine ⟨none :: c, rest, new, by rw [h1]; rfl, h2, fun now l h => h3 now l (by simpa using h), by simpa using h4, by rw [hsd]; exact h5, fun hp => ?_⟩
      obtain ⟨g1, g2⟩ := h6 hp
      refine ⟨g1, ?_⟩
      rcases g2 with g2 | ⟨g2, g3, pre, n, g4⟩
      · exact .inl (by rw [hsd]; exact g2)
      · exact .inr ⟨g2, by rw [hsd]; exact g3, none :: pre, n, by rw [g4]; rfl⟩
    | some ne =>
      obtain ⟨now, e⟩ := ne
      by_cases hes : e.isShutdown = true
      · have hsh : e = .shutdown := by cases e <;> simp [Event.isShutdown] at hes; rfl
        subst hsh
        have hsd : ∀ c : List (Option (Int × Event F)), shutdownsIn (some (now, .shutdown) :: c) = shutdownsIn c + 1 := by
          intro c; simp [shutdownsIn, Event.isShutdown]
        by_cases hl : r.totalShutdowns + 1 ≥ sources
        · have hr : run num sources r (some (now, .shutdown) :: is) =
              ⟨false, { r with sent := r.sent ++ [.shutdown], totalShutdowns := r.totalShutdowns + 1, finished := true }, is⟩ := by
            simp only [run, hf, step, decide_eq_true hl, Bool.false_eq_true, if_false]
            exact stop _ rfl
          rw [hr]
          refine ⟨[some (now, .shutdown)], is, [.shutdown], rfl, rfl, by simp, .cons rfl .nil, by simp, fun _ => ⟨rfl, .inr ⟨rfl, ?_, [], now, rfl⟩⟩⟩
          rw [hsd]
          simp only [shutdownsIn, List.countP_nil]
          omega
        · have hr : run num sources r (some (now, .shutdown) :: is) =
              run num sources { r with sent := r.sent ++ [.shutdown], totalShutdowns := r.totalShutdowns + 1, finished := false } is := by
            simp only [run, hf, step, decide_eq_false hl, Bool.false_eq_true, if_false]
          obtain ⟨c, rest, new, h1, h2, h3, h4, h5, h6⟩ := ih ({ r with sent := r.sent ++ [.shutdown], totalShutdowns := r.totalShutdowns + 1, finished := false } : FilterRun F JsonEncode)
            he rfl hp ht (by show r.totalShutdowns + 1 < _; omega)
          rw [hr]
          refine ⟨some (now, .shutdown) :: c, rest, .shutdown :: new, by rw [h1]; rfl, by rw [h2]; simp, fun n l h => h3 n l (by simpa using h),
            by simpa using Each.cons (R := Sent num pl tags) (a := .shutdown) (b := .shutdown) rfl h4, ?_, ?_⟩
          · intro hp
            obtain ⟨g1, g2⟩ := h5 hp
            exact ⟨by rw [hsd]; simp only at g1; omega, g2⟩
          · intro hp
            obtain ⟨g1, g2⟩ := h6 hp
            refine ⟨g1, ?_⟩
            rcases g2 with ⟨g2, g3, g4⟩ | ⟨g2, g3, pre, n, g4⟩
            · exact .inl ⟨g2, g3, by rw [hsd]; simp only at g4; omega⟩
            · exact .inr ⟨g2, by rw [hsd]; simp only at g3; omega, some (now, .shutdown) :: pre, n, by rw [g4]; rfl⟩
      · have hes : e.isShutdown = false := by simpa using hes
        have hsd : ∀ c : List (Option (Int × Event F)), shutdownsIn (some (now, e) :: c) = shutdownsIn c := by
          intro c; simp [shutdownsIn, hes]
        by_cases hc : ∀ l, e = .log l → InCalendar l.time
        · obtain ⟨a, d, ha, hst⟩ := step_event num hnum sources r he now e hes hc
          rw [hp, ht] at ha
          have hr : run num sources r (some (now, e) :: is) =
              run num sources { r with state := { r.state with drawn := d }, events := [], sent := r.sent ++ [a] } is := by
            simp only [run, hf, hst, Bool.false_eq_true, if_false]
          obtain ⟨c, rest, new, h1, h2, h3, h4, h5, h6⟩ := ih ({ r with state := { r.state with drawn := d }, events := [], sent := r.sent ++ [a] } : FilterRun F JsonEncode)
            rfl hf hp ht hs
          rw [hr]
          refine ⟨some (now, e) :: c, rest, a :: new, by rw [h1]; rfl, by rw [h2]; simp, ?_, by simpa using Each.cons ha h4, by rw [hsd]; exact h5, ?_⟩
          · intro n l h
            rcases List.mem_cons.1 h with h | h
            · simp only [Option.some.injEq, Prod.mk.injEq] at h; exact hc l h.2.symm
            · exact h3 n l h
          · intro hp
            obtain ⟨g1, g2⟩ := h6 hp
            refine ⟨g1, ?_⟩
            rw [hsd]
            rcases g2 with g2 | ⟨g2, g3, pre, n, g4⟩
            · exact .inl g2
            · exact .inr ⟨g2, g3, some (now, e) :: pre, n, by rw [g4]; rfl⟩
        · have : ∃ l, e = .log l ∧ ¬ InCalendar l.time := by
            apply Classical.byContradiction
            intro hn
            exact hc fun l hl => Classical.byContradiction fun h => hn ⟨l, hl, h⟩
          obtain ⟨l, rfl, hl⟩ := this
          have hnone : Chrono.formatTime l.time = none := by
            cases hf : Chrono.formatTime l.time with
            | none => rfl
            | some s => exact absurd ((format_some _).1 ⟨s, hf⟩) hl
          have hr : run num sources r (some (now, .log l) :: is) = ⟨true, r, is⟩ := by
            simp [run, hf, step, process, hnone]
          rw [hr]
          exact ⟨[], some (now, .log l) :: is, [], rfl, by simp, by simp, .nil,
            fun _ => ⟨by simpa [shutdownsIn] using hs, now, l, rfl, hl⟩, by simp⟩

/-- **C131 (what is sent).**  Whatever arrives, the filter sends exactly one event for each it has dealt with, in order: a line encoded, with its time in UTC,
everything else as it is.  It ends by a panic only at a line with a time outside the calendar; otherwise it reads on until it has been told to shut down by
every source. -/
theorem C131_exact (num : Str → Option Str) (hnum : ∀ t u, num t = some u → Json.IsNumber u) (sources : Nat) (s : JsonEncode)
    (recv : List (Option (Int × Event F))) :
    let out := run num sources { state := s } recv
    ∃ consumed rest, recv = consumed ++ rest ∧
      Each (Sent num s.parseLine s.tags) (consumed.filterMap fun i => i.map Prod.snd) out.run.sent ∧
      (out.panicked = true → ∃ now l, rest = some (now, .log l) :: out.unread ∧ ¬ InCalendar l.time) ∧
      (out.panicked = false → rest = out.unread ∧
        ((rest = [] ∧ shutdownsIn consumed < max 1 sources) ∨
         (shutdownsIn consumed = max 1 sources ∧ ∃ pre now, consumed = pre ++ [some (now, .shutdown)]))) := by
  intro out
  obtain ⟨c, rest, new, h1, h2, h3, h4, h5, h6⟩ := run_spec num hnum sources s.parseLine s.tags recv { state := s } rfl rfl rfl rfl (by simp only; omega)
  simp only [List.nil_append, Nat.zero_add] at h2 h5 h6
  refine ⟨c, rest, h1, h2 ▸ h4, fun h => (h5 h).2, fun h => ?_⟩
  obtain ⟨g1, g2⟩ := h6 h
  refine ⟨g1, ?_⟩
  rcases g2 with g2 | g2
  · exact .inl g2.2
  · exact .inr g2.2

/-- **C131 (when).**  The filter's thread panics exactly when a line with a time outside the calendar arrives before the last source has told it to shut
down. -/
theorem C131_when (num : Str → Option Str) (hnum : ∀ t u, num t = some u → Json.IsNumber u) (sources : Nat) (s : JsonEncode)
    (recv : List (Option (Int × Event F))) :
    (run num sources { state := s } recv).panicked = true ↔
      ∃ pre now l post, recv = pre ++ some (now, .log l) :: post ∧ shutdownsIn pre < max 1 sources ∧ ¬ InCalendar l.time := by
  obtain ⟨c, rest, new, h1, -, h3, -, h5, h6⟩ := run_spec num hnum sources s.parseLine s.tags recv { state := s } rfl rfl rfl rfl (by simp only; omega)
  simp only [Nat.zero_add] at h5 h6
  constructor
  · intro h
    obtain ⟨g1, now, l, g2, g3⟩ := h5 h
    exact ⟨c, now, l, _, by rw [h1, g2], g1, g3⟩
  · rintro ⟨pre, now, l, post, e, hs, hl⟩
    cases hp : (run num sources { state := s } recv).panicked with
    | true => rfl
    | false =>
      exfalso
      obtain ⟨g1, g2⟩ := h6 hp
      rw [h1] at e
      rcases List.append_eq_append_iff.1 e with ⟨x, e1, e2⟩ | ⟨x, e1, e2⟩
      · rcases g2 with ⟨-, g2, -⟩ | ⟨-, g2, -⟩
        · rw [g2] at e2; simp at e2
        · rw [e1, shutdownsIn_append] at hs; omega
      · cases x with
        | nil =>
          simp only [List.append_nil] at e1
          rcases g2 with ⟨-, g2, -⟩ | ⟨-, g2, -⟩
          · rw [g2] at e2; simp at e2
          · rw [← e1] at hs; omega
        | cons y x =>
          simp only [List.cons_append, List.cons.injEq] at e2
          exact hl (h3 now l (by rw [e1, e2.1]; simp))

/-- A line of the year 285000 or so, after one of 1970 and before a third: the first is encoded, the third is never read. -/
example : let out := (run (F := Int) some 1 { state := { parseLine := false, tags := [], rand := fun _ => 0 } }
      [some (0, .log ⟨5, ['p'], ['v'], [], none⟩), some (0, .log ⟨9000000000000, ['p'], ['v'], [], none⟩), some (0, .shutdown)])
    out.panicked = true ∧ out.unread.length = 1 ∧ (out.run.sent.map fun e => match e with | .raw r => r.bytes | _ => []) =
      ["{\"message\":\"v\",\"time\":\"1970-01-01T00:00:05+00:00\",\"path\":\"p\",\"tags\":{}}".toList.flatMap String.utf8EncodeChar] := by decide +kernel
/-- The same line after the shutdown does nothing. -/
example : (run (F := Int) some 1 { state := { parseLine := false, tags := [], rand := fun _ => 0 } }
      [some (0, .shutdown), some (0, .log ⟨9000000000000, ['p'], ['v'], [], none⟩)]).panicked = false := by decide +kernel

/-- **C131 (a client can stop it).**  Some message to a native source makes it emit a line that ends the thread of every JSON-encoding filter it reaches. -/
theorem C131_client_stops (bits : Native.Bits F) (now : Int) (num : Str → Option Str) :
    ∃ bs l, Native.handlePayload (F := F) bits now bs = .events [.log l] ∧
      ∀ t s, process num t s (.log l : Event F) [] = none := by
  have hp : Proto.Payload.parse (Proto.Payload.write { lines := [{ timestampMs := some 9000000000000000 }] }) =
      some { lines := [{ timestampMs := some 9000000000000000 }] } := by decide +kernel
  refine ⟨Proto.Payload.write { lines := [{ timestampMs := some 9000000000000000 }] }, Native.logOf now { timestampMs := some 9000000000000000 }, ?_, fun t s => ?_⟩
  · simp only [Native.handlePayload, hp]
    rfl
  · have ht : (Native.logOf now { timestampMs := some 9000000000000000 }).time = 9000000000000 := by
      show Native.milliToSec 9000000000000000 = _
      decide +kernel
    simp only [process, ht]
    rw [show Chrono.formatTime 9000000000000 = none by decide]

end Verif
