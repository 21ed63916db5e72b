import Verif.Lemmas.Date
import Verif.Props.Elasticsearch
import Verif.Props.Native
/-!
# C130: the index and the time of a line

`Spec/Date` says what the date of a day is and how it is written.
-/
namespace Verif
open Chrono Date Proto

private theorem year_small (t : Int) (h : -8334632851200 ≤ t ∧ t ≤ 8210298412799) : (civil (t / 86400)).year.natAbs < 1000000 := by
  have h1 := civil_year_lt (t / 86400) (-262144)
  have h2 := civil_year_lt (t / 86400) 262144
  rw [show Chrono.number ⟨-262144, 1, 1⟩ = -96465658 by decide] at h1
  rw [show Chrono.number ⟨262144, 1, 1⟩ = 95026602 by decide] at h2
  omega

/-- **C130 (dates).**  For a time within the calendar, the text in the index is the date of the day, in UTC, that the time is in; for other times the thread panics. -/
theorem C130_date (t : Int) :
    (Chrono.formatDate t = none ↔ t < -8334632851200 ∨ 8210298412799 < t) ∧
    ∀ s, Chrono.formatDate t = some s → ∃ n d, OfDay n d ∧ 86400 * n ≤ t ∧ t < 86400 * (n + 1) ∧ d.Valid ∧ IsDate s d := by
  refine ⟨by rw [← fromTimestamp_none]; simp [Chrono.formatDate], fun s h => ?_⟩
  by_cases hr : -8334632851200 ≤ t ∧ t ≤ 8210298412799
  · rw [Chrono.formatDate, fromTimestamp_some t hr] at h
    simp only [Option.map_some, Option.some.injEq] at h
    exact ⟨t / 86400, civil (t / 86400), (ofDay_iff _ _).2 rfl, by omega, by omega, (civil_spec _).1,
      h ▸ dateText_isDate _ (civil_spec _).1 (year_small t hr)⟩
  · rw [Chrono.formatDate, (fromTimestamp_none t).2 (by omega)] at h; simp at h

/-- **C130 (times).**  The same for the times in documents and on the console: date, hour, minute and second. -/
theorem C130_time (t : Int) (f : Int → Option Str) (z : Str)
    (hf : f = Chrono.formatTime ∧ z = "+00:00".toList ∨ f = Chrono.consoleTime ∧ z = ".000Z".toList) :
    (f t = none ↔ t < -8334632851200 ∨ 8210298412799 < t) ∧
    ∀ s, f t = some s → ∃ n d second, OfDay n d ∧ t = 86400 * n + (second : Nat) ∧ second < 86400 ∧ d.Valid ∧ IsTime z s d second := by
  have hf' : f t = (fromTimestamp t).map fun p => timeText p.1 p.2 z := by
    rcases hf with ⟨rfl, rfl⟩ | ⟨rfl, rfl⟩ <;> rfl
  rw [hf']
  refine ⟨by rw [← fromTimestamp_none]; simp, fun s h => ?_⟩
  by_cases hr : -8334632851200 ≤ t ∧ t ≤ 8210298412799
  · rw [fromTimestamp_some t hr] at h
    simp only [Option.map_some, Option.some.injEq] at h
    exact ⟨t / 86400, civil (t / 86400), (t % 86400).toNat, (ofDay_iff _ _).2 rfl, by omega, by omega, (civil_spec _).1,
      h ▸ timeText_isTime _ _ _ (civil_spec _).1 (year_small t hr) (by omega)⟩
  · rw [(fromTimestamp_none t).2 (by omega)] at h; simp at h

example : Chrono.formatDate 951868799 = some "2000-02-29".toList ∧ Chrono.formatTime 951868799 = some "2000-02-29T23:59:59+00:00".toList ∧
    Chrono.consoleTime (-1) = some "1969-12-31T23:59:59.000Z".toList ∧ Chrono.formatDate (-62167219201) = some "-0001-12-31".toList ∧
    Chrono.formatDate 8210298412799 = some "+262143-12-31".toList ∧ Chrono.formatDate 8210298412800 = none := by decide

/-- **C130 (nothing else).**  A day has one date, a text is the text of one date or time, and two times have the same text only if they are equal. -/
theorem C130_unique :
    (∀ n d e, OfDay n d → OfDay n e → d = e) ∧ (∀ m n d, OfDay m d → OfDay n d → m = n) ∧ (∀ s d e, IsDate s d → IsDate s e → d = e) ∧
    (∀ z s d e i j, IsTime z s d i → IsTime z s e j → d = e ∧ i = j) ∧
    (∀ t u s, Chrono.formatTime t = some s → Chrono.formatTime u = some s → t = u) ∧
    ∀ t u s, Chrono.consoleTime t = some s → Chrono.consoleTime u = some s → t = u := by
  have inj : ∀ (f : Int → Option Str) (z : Str), (f = Chrono.formatTime ∧ z = "+00:00".toList ∨ f = Chrono.consoleTime ∧ z = ".000Z".toList) →
      ∀ t u s, f t = some s → f u = some s → t = u := by
    intro f z hf t u s ht hu
    obtain ⟨n, d, i, h1, h2, -, -, h3⟩ := (C130_time t f z hf).2 s ht
    obtain ⟨m, e, j, g1, g2, -, -, g3⟩ := (C130_time u f z hf).2 s hu
    obtain ⟨rfl, rfl⟩ := isTime_unique h3 g3
    have := civil_inj (((ofDay_iff n d).1 h1).trans ((ofDay_iff m d).1 g1).symm)
    omega
  exact ⟨fun n d e h g => ((ofDay_iff n d).1 h).symm.trans ((ofDay_iff n e).1 g),
    fun m n d h g => civil_inj (((ofDay_iff m d).1 h).trans ((ofDay_iff n d).1 g).symm),
    fun _ _ _ h g => isDate_unique h g, fun _ _ _ _ _ _ h g => isTime_unique h g, inj _ _ (.inl ⟨rfl, rfl⟩), inj _ _ (.inr ⟨rfl, rfl⟩)⟩

private theorem prefix_lt (p x y : Str) : p ++ x < p ++ y ↔ x < y := by
  induction p with
  | nil => rfl
  | cons c p ih => simp only [List.cons_append, List.cons_lt_cons_iff, Char.lt_irrefl, false_or, true_and, ih]

/-- **C130 (one index a day).**  Two waiting lines go to one index exactly if their times are in one day, and from year 0 to year 9999 the names of
indices are in the order of the days. -/
theorem C130_index (showId : Nat → Str) (s s' : Elastic.State) (resp : Elastic.Response) (docs : List Elastic.Doc)
    (hd : s.tags.Ok) (hb : ∀ m ∈ s.buffer, OwnOk m.line.tags ∧ m.line.fields.Ok)
    (h : Elastic.flush (Elastic.chrono showId) s resp = some (s', some docs)) (i j : Nat) (l m : Elastic.Line) (a b : Elastic.Doc)
    (hi : s.buffer[i]? = some l) (hj : s.buffer[j]? = some m) (ha : docs[i]? = some a) (hb' : docs[j]? = some b) :
    (a.index = b.index ↔ l.line.time / 86400 = m.line.time / 86400) ∧
    (-62167219200 ≤ l.line.time → l.line.time ≤ 253402300799 → -62167219200 ≤ m.line.time → m.line.time ≤ 253402300799 →
      (a.index < b.index ↔ l.line.time / 86400 < m.line.time / 86400)) := by
  have hdoc := (C76_documents _ s s' resp docs hd hb h).2
  obtain ⟨-, -, ⟨da, hda, hia⟩, -⟩ := hdoc i l a hi ha
  obtain ⟨-, -, ⟨db, hdb, hib⟩, -⟩ := hdoc j m b hj hb'
  have text : ∀ t x, Chrono.formatDate t = some x → x = dateText (civil (t / 86400)) ∧ (-8334632851200 ≤ t ∧ t ≤ 8210298412799) := by
    intro t x hx
    by_cases hr : -8334632851200 ≤ t ∧ t ≤ 8210298412799
    · rw [Chrono.formatDate, fromTimestamp_some t hr] at hx
      simp only [Option.map_some, Option.some.injEq] at hx
      exact ⟨hx.symm, hr⟩
    · rw [Chrono.formatDate, (fromTimestamp_none t).2 (by omega)] at hx; simp at hx
  obtain ⟨ta, ra⟩ := text _ _ hda
  obtain ⟨tb, rb⟩ := text _ _ hdb
  rw [hia, hib, ta, tb]
  constructor
  · have base : dateText (civil (l.line.time / 86400)) = dateText (civil (m.line.time / 86400)) ↔ l.line.time / 86400 = m.line.time / 86400 := by
      refine ⟨fun e => civil_inj (isDate_unique (dateText_isDate _ (civil_spec _).1 (year_small _ ra)) ?_), fun e => by rw [e]⟩
      rw [e]; exact dateText_isDate _ (civil_spec _).1 (year_small _ rb)
    cases s.indexPrefix with
    | none => exact base
    | some p => simp only [List.append_cancel_left_eq, List.cons.injEq, true_and]; exact base
  · intro l1 l2 m1 m2
    have year : ∀ t : Int, -62167219200 ≤ t → t ≤ 253402300799 → 0 ≤ (civil (t / 86400)).year ∧ (civil (t / 86400)).year ≤ 9999 := by
      intro t t1 t2
      have y1 := civil_year_lt (t / 86400) 0
      have y2 := civil_year_lt (t / 86400) 10000
      rw [show Chrono.number ⟨0, 1, 1⟩ = -719528 by decide] at y1
      rw [show Chrono.number ⟨10000, 1, 1⟩ = 2932897 by decide] at y2
      omega
    have base := (dateText_lt _ _ (civil_spec _).1 (civil_spec _).1 (year _ l1 l2) (year _ m1 m2)).trans (civil_before _ _)
    cases s.indexPrefix with
    | none => exact base
    | some p =>
      simp only
      rw [prefix_lt, List.cons_lt_cons_iff]
      simpa using base

/-- Three lines, the first two of one day. -/
example : (Elastic.flush (Elastic.chrono fun _ => []) ([(0, 86399), (1, 0), (2, 86400)].foldl (fun s (p : Nat × Int) =>
      Elastic.deliverLine s p.1 (esLine p.2 "a")) (Elastic.init 3 (some ['p']) [] [])) .error).map (fun r => r.2.map fun ds => ds.map Elastic.Doc.index) =
    some (some ["p-1970-01-01".toList, "p-1970-01-01".toList, "p-1970-01-02".toList]) := by decide +kernel

/-- **C130 (a client can stop the sink).**  A native client can send a line, with any time in milliseconds that an `i64` holds, that the sink cannot write: it
panics in its next flush, whatever else is waiting. -/
theorem C130_client_stops {F : Type} [F64 F] (bits : Native.Bits F) (now : Int) (showId : Nat → Str) (uuid : Nat) (resp : Elastic.Response) :
    ∃ bs l, Native.handlePayload (F := F) bits now bs = .events [.log l] ∧
      ∀ s : Elastic.State, Elastic.flush (Elastic.chrono showId) (Elastic.deliverLine s uuid l) resp = none := by
  refine ⟨Payload.write { lines := [{ timestampMs := some 9000000000000000 }] }, Native.logOf now { timestampMs := some 9000000000000000 }, ?_, fun s => ?_⟩
  · have hp : Payload.parse (Payload.write { lines := [{ timestampMs := some 9000000000000000 }] }) =
        some { lines := [{ timestampMs := some 9000000000000000 }] } := by decide +kernel
    simp only [Native.handlePayload, hp]
    rfl
  · have ht : (Native.logOf now { timestampMs := some 9000000000000000 }).time = 9000000000000 := by
      show Native.milliToSec 9000000000000000 = _
      decide +kernel
    have hne : (Elastic.deliverLine s uuid (Native.logOf now { timestampMs := some 9000000000000000 })).buffer ≠ [] := by simp [Elastic.deliverLine]
    have hb := (bulkBody_none (Elastic.chrono showId) _ hne).2
      ⟨_, List.mem_append_right _ (List.mem_singleton.2 rfl), Or.inl (by
        show Chrono.formatTime (Native.logOf now { timestampMs := some 9000000000000000 }).time = none
        rw [ht]; decide)⟩
    simp only [Elastic.flush, if_neg hne, hb]

end Verif
