import Verif.Model.Machine
import Verif.Model.Scrape
import Verif.Props.Graphite
/-!
# C115: times of any size
-/
namespace Verif
open Machine
variable {F : Type} [F64 F]

private theorem wrap_lo {x : Int} (h1 : -2 ^ 64 ≤ x) (h2 : x < -2 ^ 63) : wrap x = x + 2 ^ 64 := by
  unfold wrap; omega

private theorem wrap_hi {x : Int} (h1 : 2 ^ 63 ≤ x) (h2 : x < 2 ^ 64) : wrap x = x - 2 ^ 64 := by
  unfold wrap; omega

private theorem result_fits (b : Build) {x : Int} (h : Fits x) : b.result x = some x := by simp [Build.result, h]
private theorem result_debug {x : Int} (h : ¬ Fits x) : Build.debug.result x = none := by simp [Build.result, h]
private theorem result_release {x y : Int} (h : ¬ Fits x) (e : wrap x = y) : Build.release.result x = some y := by
  simp [Build.result, h, e]

private theorem distance_eq (b : Build) {x y d r : Int} (h1 : b.result (x - y) = some d) (h2 : b.result d.natAbs = some r) :
    b.distance x y = some r := by
  rw [Build.distance, Build.sub, h1, Option.bind_some, Build.abs, h2]

/-- The machine's result is the exact one if that is in range; otherwise a debug build panics and a release build is wrong. -/
theorem C115_overflow (b : Build) (x : Int) :
    (Fits x → b.result x = some x) ∧
    (¬ Fits x → Build.debug.result x = none ∧ ∃ y, Build.release.result x = some y ∧ Fits y ∧ y ≠ x ∧ (y - x) % 2 ^ 64 = 0) := by
  refine ⟨fun h => by simp [Build.result, h], fun h => ⟨by simp [Build.result, h], wrap x, by simp [Build.result, h], ?_, ?_, ?_⟩⟩
  · unfold Fits wrap; omega
  · intro e; apply h; rw [← e]; unfold Fits wrap; omega
  · unfold wrap; omega

/-- **C115, distance of two times.**  For times of the machine and a clock after 1970, the distance computed is the right one exactly
when the time is less than 2^63 seconds before the clock.  Otherwise a debug build panics; a release build takes a time exactly 2^63
seconds ago to be less than any distance away, and times further back to be in the future. -/
theorem C115_distance_partial (ts now : Int) (hts : Fits ts) (hnow : Fits now) (h0 : 0 ≤ now) :
    (-2 ^ 63 < ts - now → ∀ b : Build, b.distance ts now = some ((ts - now).natAbs : Int)) ∧
    (ts - now ≤ -2 ^ 63 → Build.debug.distance ts now = none) ∧
    (ts - now = -2 ^ 63 → Build.release.distance ts now = some (-2 ^ 63)) ∧
    (ts - now < -2 ^ 63 → Build.release.distance ts now = some (ts - now + 2 ^ 64)) := by
  obtain ⟨h1, h2⟩ := hts
  obtain ⟨h3, h4⟩ := hnow
  refine ⟨fun h b => ?_, fun h => ?_, fun h => ?_, fun h => ?_⟩
  · exact distance_eq b (result_fits b (by unfold Fits; omega)) (result_fits b (by unfold Fits; omega))
  · by_cases f1 : Fits (ts - now)
    · have f2 : ¬ Fits ((ts - now).natAbs : Int) := by unfold Fits at f1 ⊢; omega
      rw [Build.distance, Build.sub, result_fits _ f1, Option.bind_some, Build.abs, result_debug f2]
    · rw [Build.distance, Build.sub, result_debug f1]
      rfl
  · exact distance_eq _ (result_fits _ (by unfold Fits; omega))
      (result_release (by unfold Fits; omega) (by unfold wrap; omega))
  · have f2 : wrap (ts - now) = ts - now + 2 ^ 64 := wrap_lo (by omega) h
    have f3 : ((ts - now + 2 ^ 64).natAbs : Int) = ts - now + 2 ^ 64 := by omega
    exact distance_eq _ (result_release (by unfold Fits; omega) f2)
      (by rw [f3]; exact result_fits _ (by unfold Fits; omega))

/-- **C115 (partial), the tests on times.**  Given a clock after 1970 and times less than 2^63 seconds before it, in either build the
delay filter, the age thresholds of the Wavefront and Prometheus sinks and the purge of the Prometheus windows decide as the models
without bounds say.  Missing: times further back. -/
theorem C115_tests_partial (b : Build) (now : Int) (hnow : Fits now) (h0 : 0 ≤ now) :
    (∀ (e : Event F) tolerance, (∀ ts, e.timestamp = some ts → Fits ts ∧ -2 ^ 63 < ts - now) →
      ∃ keep, delayKeeps b now tolerance e = some keep ∧
        delayProcess now tolerance e [] = (tolerance, if keep then [e] else [], .ok ())) ∧
    (∀ (t : Telemetry F) (p : Scrape.Setup F), Fits t.timestamp → -2 ^ 63 < t.timestamp - now →
      ageKeeps b p.ageThreshold now t = some (p.accepts now t)) ∧
    (∀ (t : Telemetry F) (s : Wavefront.State F) ext, Fits t.timestamp → -2 ^ 63 < t.timestamp - now →
      ∃ keep, ageKeeps b s.ageThreshold now t = some keep ∧ s.deliver ext now t =
        if keep then (s.aggrs.add ext.nameTagHash now t).map fun a => { s with aggrs := a } else some s) ∧
    (∀ cap sum count (samples : List (Telemetry F)), (∀ t ∈ samples, Fits t.timestamp ∧ -2 ^ 63 < t.timestamp - now) →
      ∃ kept, purgeKeeps b cap now samples = some kept ∧
        Prometheus.Acc.purge now (.windowed cap sum count samples) =
          (.windowed cap sum count kept, samples.length - kept.length)) := by
  have hd : ∀ ts, Fits ts → -2 ^ 63 < ts - now → b.distance ts now = some ((ts - now).natAbs : Int) :=
    fun ts h1 h2 => (C115_distance_partial ts now h1 hnow h0).1 h2 b
  refine ⟨?_, ?_, ?_, ?_⟩
  · intro e tolerance h
    cases e with
    | telemetry t =>
      have := h t.timestamp rfl
      refine ⟨_, by rw [delayKeeps, hd _ this.1 this.2]; rfl, ?_⟩
      by_cases hk : ((t.timestamp - now).natAbs : Int) < tolerance <;> simp [delayProcess, hk]
    | log l =>
      have := h l.time rfl
      refine ⟨_, by rw [delayKeeps, hd _ this.1 this.2]; rfl, ?_⟩
      by_cases hk : ((l.time - now).natAbs : Int) < tolerance <;> simp [delayProcess, hk]
    | _ => exact ⟨true, rfl, by simp [delayProcess]⟩
  · intro t p h1 h2
    cases hp : p.ageThreshold with
    | none => simp [ageKeeps, Scrape.Setup.accepts, hp]
    | some a => simp [ageKeeps, Scrape.Setup.accepts, hp, hd _ h1 h2]
  · intro t s ext h1 h2
    cases hp : s.ageThreshold with
    | none => exact ⟨true, rfl, by simp [Wavefront.State.deliver, hp]⟩
    | some a => exact ⟨_, by rw [ageKeeps, hd _ h1 h2]; rfl, by simp [Wavefront.State.deliver, hp]⟩
  · intro cap sum count samples h
    have key : ∀ samples : List (Telemetry F), (∀ t ∈ samples, Fits t.timestamp ∧ -2 ^ 63 < t.timestamp - now) →
        purgeKeeps b cap now samples =
          some (samples.filter fun s => !decide (((s.timestamp - now).natAbs : Int) > Wavefront.asI64 cap)) := by
      intro samples
      induction samples with
      | nil => intro _; rfl
      | cons s rest ih =>
        intro h
        have hs := h s (by simp)
        rw [purgeKeeps, hd _ hs.1 hs.2, ih (fun t ht => h t (by simp [ht]))]
        by_cases hk : ((s.timestamp - now).natAbs : Int) > Wavefront.asI64 cap <;> simp [hk]
    exact ⟨_, key samples h, rfl⟩

/-- The clock of 2018, a time of the same year, one of the far future and the year 1. -/
example : Fits 1530000000 ∧ Fits 1529999990 ∧ Fits (2 ^ 63 - 1) ∧ Fits (-62135596800) ∧
    (∀ ts ∈ [1529999990, 2 ^ 63 - 1, -62135596800], (-2 ^ 63 : Int) < ts - 1530000000) ∧
    Build.release.distance (-62135596800) 1530000000 = some 63665596800 := by
  decide

section
open Wavefront

/-- a time less than 2^62 seconds from 1970 -/
private def Small (x : Int) : Prop := -2 ^ 62 < x ∧ x < 2 ^ 62

private theorem div_eq {d span : Int} (hs : span ≠ 0) (hd : Fits d) (hm : d ≠ -2 ^ 63) : div d span = some (d.tdiv span) := by
  have h1 : (d.tdiv span).natAbs ≤ d.natAbs := by
    rw [Int.natAbs_tdiv]
    exact Nat.div_le_self _ _
  have : Fits (d.tdiv span) := by unfold Fits at hd ⊢; omega
  simp [div, hs, this]

private theorem small_sub (b : Build) {x y span : Int} (hx : Small x) (hy : Small y) (hs : span ≠ 0) :
    ((b.sub x y).bind fun d => div d span) = some ((x - y).tdiv span) := by
  obtain ⟨x1, x2⟩ := hx
  obtain ⟨y1, y2⟩ := hy
  have f : Fits (x - y) := by unfold Fits; omega
  rw [Build.sub, result_fits b f, Option.bind_some, div_eq hs f (by omega)]

private theorem small_distance (b : Build) {x y span : Int} (hx : Small x) (hy : Small y) (hs : span ≠ 0) :
    ((b.distance x y).bind fun d => div d span) = some (((x - y).natAbs : Int).tdiv span) := by
  obtain ⟨x1, x2⟩ := hx
  obtain ⟨y1, y2⟩ := hy
  have f1 : Fits (x - y) := by unfold Fits; omega
  have f2 : Fits ((x - y).natAbs : Int) := by unfold Fits; omega
  rw [distance_eq b (result_fits b f1) (result_fits b f2), Option.bind_some, div_eq hs f2 (by omega)]

private theorem satAdd_small {x y : Int} (hx : Small x) (hy : y = 1 ∨ y = -1) : Machine.satAdd x y = x + y := by
  obtain ⟨x1, x2⟩ := hx
  unfold Machine.satAdd
  omega

private theorem nextTwo_zero (b : Build) (ext : Ext F) (span : Int) (seen : LastSeen) (pc : PadControl) (p : Padding F)
    (t : Telemetry F) (ts : Int) (y : Pad F) :
    nextTwo b ext span seen pc p (.zero t ts) y = some (.zero t ts, { p with emitQ := y :: p.emitQ }) ∧
    p.nextTwo ext span seen pc (.zero t ts) y = (.zero t ts, { p with emitQ := y :: p.emitQ }) := by
  constructor <;> simp [nextTwo, Padding.nextTwo, Pad.skipPad]

private theorem nextTwo_telem (b : Build) (ext : Ext F) (span : Int) (hs : span ≠ 0) (seen : LastSeen)
    (hseen : ∀ h ts, seen h = some ts → Small ts) (pc : PadControl) (p : Padding F) (x y : Telemetry F)
    (hx : Small x.timestamp) (hy : Small y.timestamp) :
    nextTwo b ext span seen pc p (.telem x) (.telem y) = some (p.nextTwo ext span seen pc (.telem x) (.telem y)) := by
  have h1 : Machine.satAdd y.timestamp (-1) = y.timestamp - 1 := by rw [satAdd_small hy (.inr rfl)]; rfl
  have h2 : Machine.satAdd x.timestamp 1 = x.timestamp + 1 := satAdd_small hx (.inl rfl)
  have h3 : Machine.satAdd x.timestamp (-1) = x.timestamp - 1 := by rw [satAdd_small hx (.inr rfl)]; rfl
  simp only [nextTwo, Padding.nextTwo, Pad.timestamp, small_distance b hx hy hs, Option.map_some, h1, h2, h3]
  by_cases e1 : (Pad.telem x).hash ext = (Pad.telem y).hash ext
  · simp only [e1, if_true]
    by_cases e2 : (Pad.telem x).skipPad pc = true
    · simp [e2]
    · simp only [e2, Bool.false_eq_true, if_false]
      by_cases e3 : (Pad.telem y).hash ext ∈ p.flushPadded
      · simp only [e3, if_true]
        congr
      · simp only [e3, if_false]
        cases e4 : seen ((Pad.telem y).hash ext) with
        | none => simp only; congr
        | some ts =>
          have h4 := hseen _ _ e4
          simp only [small_sub b hx h4 hs, satAdd_small h4 (.inl rfl)]
          by_cases e5 : x.timestamp > ts
          · simp only [e5, if_true]
            by_cases e6 : (x.timestamp - ts).tdiv span > 1 <;> simp only [e6, if_true, if_false]
          · simp only [e5, if_false]
  · simp only [e1, if_false]

private theorem nextOne_eq (b : Build) (ext : Ext F) (span : Int) (hs : span ≠ 0) (seen : LastSeen)
    (hseen : ∀ h ts, seen h = some ts → Small ts) (pc : PadControl) (p : Padding F) (x : Pad F)
    (hx : ∀ t, x = .telem t → Small t.timestamp) :
    nextOne b ext span seen pc p x = some (p.nextOne ext span seen pc x) := by
  cases x with
  | zero t ts => simp [nextOne, Padding.nextOne, Pad.skipPad]
  | telem x =>
    have hx := hx x rfl
    have h3 : Machine.satAdd x.timestamp (-1) = x.timestamp - 1 := by rw [satAdd_small hx (.inr rfl)]; rfl
    simp only [nextOne, Padding.nextOne, Pad.timestamp, h3]
    by_cases e2 : (Pad.telem x).skipPad pc = true
    · simp [e2]
    · simp only [e2, Bool.false_eq_true, if_false]
      by_cases e3 : (Pad.telem x).hash ext ∈ p.flushPadded
      · simp only [e3, if_true]
      · simp only [e3, if_false]
        cases e4 : seen ((Pad.telem x).hash ext) with
        | none => simp only
        | some ts =>
          have h4 := hseen _ _ e4
          simp only [small_sub b hx h4 hs, satAdd_small h4 (.inl rfl)]
          by_cases e5 : x.timestamp > ts
          · simp only [e5, if_true]
            by_cases e6 : (x.timestamp - ts).tdiv span > 1 <;> simp only [e6, if_true, if_false]
          · simp only [e5, if_false]

/-- zeros first, then stored points with small times -/
private def Shape (q : List (Pad F)) : Prop :=
  ∃ zs : List (Pad F), ∃ ts : List (Telemetry F), q = zs ++ ts.map .telem ∧ (∀ z ∈ zs, ∃ t n, z = .zero t n) ∧
    ∀ t ∈ ts, Small t.timestamp

private theorem Shape.zero {q : List (Pad F)} (h : Shape q) (t : Telemetry F) (n : Int) : Shape (.zero t n :: q) := by
  obtain ⟨zs, ts, rfl, h2, h3⟩ := h
  exact ⟨.zero t n :: zs, ts, rfl, by simpa using h2, h3⟩

private theorem shape_telems {ts : List (Telemetry F)} (h : ∀ t ∈ ts, Small t.timestamp) : Shape (ts.map Pad.telem) :=
  ⟨[], ts, rfl, by simp, h⟩

private theorem Shape.tail {x : Pad F} {q : List (Pad F)} (h : Shape (x :: q)) : Shape q := by
  obtain ⟨zs, ts, h1, h2, h3⟩ := h
  cases zs with
  | nil => cases ts with
    | nil => simp at h1
    | cons t ts =>
      simp only [List.nil_append, List.map_cons, List.cons.injEq] at h1
      rw [h1.2]
      exact shape_telems (fun u hu => h3 u (by simp [hu]))
  | cons z zs =>
    simp only [List.cons_append, List.cons.injEq] at h1
    exact ⟨zs, ts, h1.2, fun u hu => h2 u (by simp [hu]), h3⟩

private theorem Shape.telem {t : Telemetry F} {q : List (Pad F)} (h : Shape (.telem t :: q)) :
    Small t.timestamp ∧ ∃ ts : List (Telemetry F), q = ts.map .telem ∧ ∀ t ∈ ts, Small t.timestamp := by
  obtain ⟨zs, ts, h1, h2, h3⟩ := h
  cases zs with
  | nil => cases ts with
    | nil => simp at h1
    | cons u ts =>
      simp only [List.nil_append, List.map_cons, List.cons.injEq, Pad.telem.injEq] at h1
      obtain ⟨rfl, h1⟩ := h1
      exact ⟨h3 t (by simp), ts, h1, fun u hu => h3 u (by simp [hu])⟩
  | cons z zs =>
    simp only [List.cons_append, List.cons.injEq] at h1
    obtain ⟨u, n, hz⟩ := h2 z (by simp)
    rw [hz] at h1
    simp at h1

private theorem Shape.cons {t : Telemetry F} (hs : Small t.timestamp) {ts : List (Telemetry F)}
    (h : ∀ t ∈ ts, Small t.timestamp) : Shape (.telem t :: ts.map .telem) :=
  shape_telems (ts := t :: ts) (by simpa using ⟨hs, h⟩)

/-- what the iterator has at hand -/
private structure Fine (p : Padding F) : Prop where
  orig : ∀ t ∈ p.orig, Small t.timestamp
  emitQ : Shape p.emitQ

private theorem nextTwo_fine (ext : Ext F) (span : Int) (seen : LastSeen) (pc : PadControl) (p : Padding F)
    (x y : Telemetry F) (ts : List (Telemetry F)) (hq : p.emitQ = ts.map .telem) (hts : ∀ t ∈ ts, Small t.timestamp)
    (ho : ∀ t ∈ p.orig, Small t.timestamp)
    (hx : Small x.timestamp) (hy : Small y.timestamp) : Fine (p.nextTwo ext span seen pc (.telem x) (.telem y)).2 := by
  have g1 : Shape (Pad.telem y :: p.emitQ) := by rw [hq]; exact Shape.cons hy hts
  have g2 : Shape (Pad.telem x :: Pad.telem y :: p.emitQ) := by
    rw [hq]; exact Shape.cons (ts := y :: ts) hx (by simpa using ⟨hy, hts⟩)
  simp only [Padding.nextTwo]
  split
  · split
    · exact ⟨ho, g1⟩
    · split
      · split
        · exact ⟨ho, g1⟩
        · exact ⟨ho, (g1.zero ..).zero ..⟩
      · split
        · split
          · exact ⟨ho, g1⟩
          · exact ⟨ho, (g1.zero ..).zero ..⟩
        · split
          · split
            · exact ⟨ho, g2.zero ..⟩
            · split
              · exact ⟨ho, g1⟩
              · exact ⟨ho, (g1.zero ..).zero ..⟩
          · exact ⟨ho, g1⟩
  · exact ⟨ho, g1⟩

private theorem nextOne_fine (ext : Ext F) (span : Int) (seen : LastSeen) (pc : PadControl) (p : Padding F) (x : Pad F)
    (hp : Fine p) (hx : ∀ t, x = .telem t → Small t.timestamp ∧ p.emitQ = []) : Fine (p.nextOne ext span seen pc x).2 := by
  cases x with
  | zero t ts => simpa [Padding.nextOne, Pad.skipPad] using hp
  | telem x =>
    obtain ⟨h1, h2⟩ := hx x rfl
    have g : Shape (Pad.telem x :: p.emitQ) := by rw [h2]; exact Shape.cons (ts := []) h1 (by simp)
    simp only [Padding.nextOne]
    split
    · exact hp
    · split
      · exact hp
      · split
        · exact hp
        · split
          · split
            · exact ⟨hp.orig, g.zero ..⟩
            · exact ⟨hp.orig, hp.emitQ⟩
          · exact hp

private theorem pull_none {p p' : Padding F} (h : p.pull = (none, p')) : p' = p ∧ p.emitQ = [] ∧ p.orig = [] := by
  simp only [Padding.pull] at h
  split at h
  · simp at h
  · rename_i e1
    split at h
    · simp at h
    · rename_i e2
      simp only [Prod.mk.injEq, true_and] at h
      exact ⟨h.symm, e1, e2⟩

private theorem take_eq (b : Build) (ext : Ext F) (span : Int) (hs : span ≠ 0) (seen : LastSeen)
    (hseen : ∀ h ts, seen h = some ts → Small ts) (pc : PadControl) : ∀ n (p : Padding F), Fine p →
    Machine.take b ext span seen pc n p = some (Padding.take ext span seen pc n p) := by
  intro n
  induction n with
  | zero => intro p _; rfl
  | succ n ih =>
    intro p hp
    simp only [Machine.take, Padding.take, Padding.next]
    -- what the first point is, and what is left
    have key : ∀ (p : Padding F), Fine p → ∀ x p1, p.pull = (some x, p1) → Fine p1 ∧
        (∀ t, x = .telem t → Small t.timestamp ∧ ∃ ts : List (Telemetry F), p1.emitQ = ts.map .telem ∧ ∀ t ∈ ts, Small t.timestamp) := by
      intro p hp x p1 h
      simp only [Padding.pull] at h
      split at h
      · rename_i z q hq
        simp only [Prod.mk.injEq, Option.some.injEq] at h
        obtain ⟨rfl, rfl⟩ := h
        have hsh := hp.emitQ
        rw [hq] at hsh
        refine ⟨⟨hp.orig, hsh.tail⟩, ?_⟩
        rintro t rfl
        exact hsh.telem
      · rename_i hq
        split at h
        · rename_i t ts ho
          simp only [Prod.mk.injEq, Option.some.injEq] at h
          obtain ⟨rfl, rfl⟩ := h
          have hot := hp.orig
          rw [ho] at hot
          refine ⟨⟨fun u hu => hot u (by simp [hu]), hp.emitQ⟩, ?_⟩
          intro u hu
          simp only [Pad.telem.injEq] at hu
          subst hu
          exact ⟨hot t (by simp), [], by simp [hq], by simp⟩
        · simp at h
    cases h1 : p.pull with
    | mk ox p1 => cases ox with
      | none => rfl
      | some x =>
        obtain ⟨f1, f2⟩ := key p hp x p1 h1
        simp only
        cases h2 : p1.pull with
        | mk oy p2 => cases oy with
          | none =>
            obtain ⟨rfl, e1, e2⟩ := pull_none h2
            simp only [nextOne_eq b ext span hs seen hseen pc p2 x (fun t ht => (f2 t ht).1)]
            rw [ih _ (nextOne_fine ext span seen pc p2 x f1 (fun t ht => ⟨(f2 t ht).1, e1⟩))]
            rfl
          | some y =>
            obtain ⟨k1, k2⟩ := key p1 f1 y p2 h2
            simp only
            cases x with
            | zero t ts =>
              obtain ⟨z1, z2⟩ := nextTwo_zero b ext span seen pc p2 t ts y
              rw [z1, z2]
              have hf : Fine { p2 with emitQ := y :: p2.emitQ } := by
                refine ⟨k1.orig, ?_⟩
                cases y with
                | zero u n => exact k1.emitQ.zero u n
                | telem u =>
                  obtain ⟨s1, us, s2, s3⟩ := k2 u rfl
                  simp only [s2]
                  exact Shape.cons s1 s3
              simp only [ih _ hf]
              rfl
            | telem x =>
              obtain ⟨s1, us, s2, s3⟩ := f2 x rfl
              -- the second point is a stored one as well
              have hy : ∃ u, y = .telem u ∧ Small u.timestamp ∧ ∃ vs : List (Telemetry F), p2.emitQ = vs.map .telem ∧
                  ∀ t ∈ vs, Small t.timestamp := by
                cases y with
                | telem u =>
                  obtain ⟨g1, vs, g2, g3⟩ := k2 u rfl
                  exact ⟨u, rfl, g1, vs, g2, g3⟩
                | zero u n =>
                  simp only [Padding.pull, s2] at h2
                  cases us with
                  | nil =>
                    simp only [List.map_nil] at h2
                    split at h2 <;> simp at h2
                  | cons v vs => simp at h2
              obtain ⟨u, rfl, g1, vs, g2, g3⟩ := hy
              rw [nextTwo_telem b ext span hs seen hseen pc p2 x u s1 g1]
              simp only [ih _ (nextTwo_fine ext span seen pc p2 x u vs g2 g3 k1.orig s1 g1)]
              rfl

private theorem satAdd_fits (x y : Int) : Fits (Machine.satAdd x y) := by unfold Fits Machine.satAdd; omega

private structure InRange (p : Padding F) : Prop where
  orig : ∀ t ∈ p.orig, Fits t.timestamp
  emitQ : ∀ x ∈ p.emitQ, Fits x.timestamp

private theorem pull_range {p : Padding F} (h : InRange p) :
    (∀ x, p.pull.1 = some x → Fits x.timestamp) ∧ InRange p.pull.2 := by
  obtain ⟨h1, h2⟩ := h
  unfold Padding.pull
  split
  · next x q hq =>
    rw [hq] at h2
    exact ⟨by intro y hy; simp only [Option.some.injEq] at hy; subst hy; exact h2 _ (by simp), h1, fun y hy => h2 y (by simp [hy])⟩
  · next hq =>
    split
    · next t ts ho =>
      rw [ho] at h1
      refine ⟨by intro y hy; simp only [Option.some.injEq] at hy; subst hy; exact h1 t (by simp), fun y hy => h1 y (by simp [hy]), ?_⟩
      exact h2
    · exact ⟨by simp, h1, h2⟩

private theorem zeroAt_time (x : Pad F) (n : Int) : (x.zeroAt n).timestamp = n := by cases x <;> rfl

private theorem range_of {p p' : Padding F} (h : InRange p) (ho : p'.orig = p.orig) (zs : List (Pad F)) (hq : p'.emitQ = zs ++ p.emitQ)
    (hz : ∀ z ∈ zs, Fits z.timestamp) : InRange p' := by
  refine ⟨by rw [ho]; exact h.orig, ?_⟩
  intro x hx
  rw [hq] at hx
  rcases List.mem_append.1 hx with hx | hx
  · exact hz x hx
  · exact h.emitQ x hx

private theorem nextTwo_range (b : Build) (ext : Ext F) (span : Int) (seen : LastSeen) (pc : PadControl) (p : Padding F) (x y : Pad F)
    (hp : InRange p) (hx : Fits x.timestamp) (hy : Fits y.timestamp) (o : Pad F) (p' : Padding F)
    (h : nextTwo b ext span seen pc p x y = some (o, p')) : Fits o.timestamp ∧ InRange p' := by
  have plain : Fits x.timestamp ∧ InRange { p with emitQ := y :: p.emitQ } := ⟨hx, range_of hp rfl [y] rfl (by simpa using hy)⟩
  have hz : ∀ (w : Pad F) n k, Fits (w.zeroAt (Machine.satAdd n k)).timestamp := by
    intro w n k; rw [zeroAt_time]; exact satAdd_fits _ _
  have gap : ∀ (fp : List Nat) (o : Pad F) (p' : Padding F),
      (((b.distance x.timestamp y.timestamp).bind fun d => Machine.div d span).map fun d =>
        if d = 0 ∨ d = 1 then (x, { p with flushPadded := fp, emitQ := y :: p.emitQ })
        else (x, { p with flushPadded := fp, emitQ := x.zeroAt (Machine.satAdd x.timestamp 1) :: y.zeroAt (Machine.satAdd y.timestamp (-1)) :: y :: p.emitQ })) = some (o, p') →
      Fits o.timestamp ∧ InRange p' := by
    intro fp o p' h
    simp only [Option.map_eq_some_iff] at h
    obtain ⟨d, -, h⟩ := h
    split at h
    · simp only [Prod.mk.injEq] at h
      obtain ⟨rfl, rfl⟩ := h
      exact ⟨hx, range_of hp rfl [y] rfl (by simpa using hy)⟩
    · simp only [Prod.mk.injEq] at h
      obtain ⟨rfl, rfl⟩ := h
      refine ⟨hx, range_of hp rfl [_, _, y] rfl ?_⟩
      intro z hm
      simp only [List.mem_cons, List.not_mem_nil, or_false] at hm
      rcases hm with rfl | rfl | rfl
      · exact hz ..
      · exact hz ..
      · exact hy
  simp only [nextTwo] at h
  split at h
  · split at h
    · simp only [Option.some.injEq, Prod.mk.injEq] at h
      obtain ⟨rfl, rfl⟩ := h; exact plain
    · split at h
      · exact gap _ _ _ h
      · split at h
        · exact gap _ _ _ h
        · split at h
          · split at h
            · simp at h
            · split at h
              · simp only [Option.some.injEq, Prod.mk.injEq] at h
                obtain ⟨rfl, rfl⟩ := h
                refine ⟨hz .., range_of hp rfl [_, x, y] rfl ?_⟩
                intro z hm
                simp only [List.mem_cons, List.not_mem_nil, or_false] at hm
                rcases hm with rfl | rfl | rfl
                · exact hz ..
                · exact hx
                · exact hy
              · exact gap _ _ _ h
          · simp only [Option.some.injEq, Prod.mk.injEq] at h
            obtain ⟨rfl, rfl⟩ := h; exact plain
  · simp only [Option.some.injEq, Prod.mk.injEq] at h
    obtain ⟨rfl, rfl⟩ := h; exact plain

private theorem nextOne_range (b : Build) (ext : Ext F) (span : Int) (seen : LastSeen) (pc : PadControl) (p : Padding F) (x : Pad F)
    (hp : InRange p) (hx : Fits x.timestamp) (o : Pad F) (p' : Padding F)
    (h : nextOne b ext span seen pc p x = some (o, p')) : Fits o.timestamp ∧ InRange p' := by
  have hz : ∀ (w : Pad F) n k, Fits (w.zeroAt (Machine.satAdd n k)).timestamp := by
    intro w n k; rw [zeroAt_time]; exact satAdd_fits _ _
  have same : ∀ (fp : List Nat), Fits x.timestamp ∧ InRange { p with flushPadded := fp } := fun fp => ⟨hx, range_of hp rfl [] rfl (by simp)⟩
  simp only [nextOne] at h
  split at h
  · simp only [Option.some.injEq, Prod.mk.injEq] at h
    obtain ⟨rfl, rfl⟩ := h; exact ⟨hx, hp⟩
  · split at h
    · simp only [Option.some.injEq, Prod.mk.injEq] at h
      obtain ⟨rfl, rfl⟩ := h; exact ⟨hx, hp⟩
    · split at h
      · simp only [Option.some.injEq, Prod.mk.injEq] at h
        obtain ⟨rfl, rfl⟩ := h; exact ⟨hx, hp⟩
      · split at h
        · split at h
          · simp at h
          · split at h
            · simp only [Option.some.injEq, Prod.mk.injEq] at h
              obtain ⟨rfl, rfl⟩ := h
              refine ⟨hz .., range_of hp rfl [_, x] rfl ?_⟩
              intro z hm
              simp only [List.mem_cons, List.not_mem_nil, or_false] at hm
              rcases hm with rfl | rfl
              · exact hz ..
              · exact hx
            · simp only [Option.some.injEq, Prod.mk.injEq] at h
              obtain ⟨rfl, rfl⟩ := h; exact same _
        · simp only [Option.some.injEq, Prod.mk.injEq] at h
          obtain ⟨rfl, rfl⟩ := h; exact ⟨hx, hp⟩

private theorem take_range (b : Build) (ext : Ext F) (span : Int) (seen : LastSeen) (pc : PadControl) (n : Nat) :
    ∀ (p : Padding F) (out : List (Pad F)), InRange p → Machine.take b ext span seen pc n p = some out →
      ∀ z ∈ out, Fits z.timestamp := by
  induction n with
  | zero => intro p out _ h; simp only [Machine.take, Option.some.injEq] at h; subst h; simp
  | succ n ih =>
    intro p out hp h
    obtain ⟨a1, a2⟩ := pull_range hp
    simp only [Machine.take] at h
    rcases hpl : p.pull with ⟨ox, p1⟩
    rw [hpl] at a1 a2 h
    cases ox with
    | none => simp only [Option.some.injEq] at h; subst h; simp
    | some x =>
      simp only at a1 a2 h
      obtain ⟨b1, b2⟩ := pull_range a2
      rcases hpl2 : p1.pull with ⟨oy, p2⟩
      rw [hpl2] at b1 b2 h
      cases oy with
      | none =>
        simp only at b2 h
        cases hn : nextOne b ext span seen pc p2 x with
        | none => simp [hn] at h
        | some op =>
          obtain ⟨c1, c2⟩ := nextOne_range b ext span seen pc p2 x b2 (a1 x rfl) op.1 op.2 hn
          simp only [hn, Option.map_eq_some_iff] at h
          obtain ⟨rest, h1, rfl⟩ := h
          intro z hz
          rcases List.mem_cons.1 hz with rfl | hz
          · exact c1
          · exact ih _ _ c2 h1 z hz
      | some y =>
        simp only at b1 b2 h
        cases hn : nextTwo b ext span seen pc p2 x y with
        | none => simp [hn] at h
        | some op =>
          obtain ⟨c1, c2⟩ := nextTwo_range b ext span seen pc p2 x y b2 (a1 x rfl) (b1 y rfl) op.1 op.2 hn
          simp only [hn, Option.map_eq_some_iff] at h
          obtain ⟨rest, h1, rfl⟩ := h
          intro z hz
          rcases List.mem_cons.1 hz with rfl | hz
          · exact c1
          · exact ih _ _ c2 h1 z hz

/-- **C115, times of padding.**  Whatever the times of the points, in either build every point the padding yields carries a time of the
machine: those next to the ends of the range do not fall out of it. -/
theorem C115_padding_times (b : Build) (ext : Ext F) (pts : List (Telemetry F)) (span : Int) (seen : LastSeen) (pc : PadControl)
    (hpts : ∀ t ∈ pts, Fits t.timestamp) (out : List (Pad F)) (h : Machine.padding b ext pts span seen pc = some out) :
    ∀ z ∈ out, Fits z.timestamp :=
  take_range b ext span seen pc _ _ out ⟨hpts, by simp⟩ h

/-- **C115 (partial), padding.**  If all times are less than 2^62 seconds from 1970 and the span is not zero, in either build the
padding of the Wavefront sink does not panic and yields what the model without bounds says.  Missing: times further off. -/
theorem C115_padding_partial (b : Build) (ext : Ext F) (pts : List (Telemetry F)) (span : Int) (hs : span ≠ 0) (seen : LastSeen)
    (pc : PadControl) (hpts : ∀ t ∈ pts, -2 ^ 62 < t.timestamp ∧ t.timestamp < 2 ^ 62)
    (hseen : ∀ h ts, seen h = some ts → -2 ^ 62 < ts ∧ ts < 2 ^ 62) :
    Machine.padding b ext pts span seen pc = some (Wavefront.padding ext pts span seen pc) :=
  take_eq b ext span hs seen hseen pc _ _ ⟨hpts, [], [], rfl, by simp, by simp⟩

end

private theorem tdiv_fits {d span : Int} (hd : Fits d) (hs : span ≠ 0) : Fits (d.tdiv span) ↔ ¬ (d = -2 ^ 63 ∧ span = -1) := by
  by_cases hm : d = -2 ^ 63
  · by_cases h1 : span = -1
    · simp [hm, h1, Fits]
    · refine ⟨fun _ h => h1 h.2, fun _ => ?_⟩
      by_cases h2 : span = 1
      · subst h2; simpa using hd
      · have h3 : (d.tdiv span).natAbs ≤ d.natAbs / 2 := by
          rw [Int.natAbs_tdiv]
          exact Nat.div_le_div_left (by omega) (by omega)
        unfold Fits at hd ⊢
        omega
  · have h3 : (d.tdiv span).natAbs ≤ d.natAbs := by
      rw [Int.natAbs_tdiv]
      exact Nat.div_le_self _ _
    refine ⟨fun _ h => hm h.1, fun _ => ?_⟩
    unfold Fits at hd ⊢
    omega

private theorem div_exact {d span : Int} (hd : Fits d) :
    div d span = if span = 0 ∨ (d = -2 ^ 63 ∧ span = -1) then none else some (d.tdiv span) := by
  unfold div
  by_cases h0 : span = 0
  · simp only [h0, true_or, if_true]
  · have := tdiv_fits hd h0
    by_cases hc : d = -2 ^ 63 ∧ span = -1
    · rw [if_neg h0, if_neg (fun hf => this.1 hf hc), if_pos (.inr hc)]
    · have hf := this.2 hc
      simp only [h0, hc, or_self, if_false, hf, if_true]

/-- **C115, bins.**  Comparing two stored points panics exactly if they are of the same series and the bin width is zero, or it is -1
and one of them carries the least time; otherwise the comparison is the one without bounds. -/
theorem C115_bins (x y : Telemetry F) (span : Int) (hx : Fits x.timestamp) (hy : Fits y.timestamp) :
    Machine.within x span y =
      if (cmpStr x.name y.name = .eq ∧ cmpTagmap x.tags y.tags = .eq) ∧
          (span = 0 ∨ (span = -1 ∧ (x.timestamp = -2 ^ 63 ∨ y.timestamp = -2 ^ 63))) then none
      else some (x.within span y) := by
  simp only [Machine.within, Telemetry.within, div_exact hx, div_exact hy]
  cases h1 : cmpStr x.name y.name with
  | lt => simp
  | gt => simp
  | eq =>
    cases h2 : cmpTagmap x.tags y.tags with
    | lt => simp
    | gt => simp
    | eq =>
      simp only [true_and]
      by_cases h0 : span = 0
      · simp [h0]
      · by_cases hm : span = -1
        · by_cases a : x.timestamp = -2 ^ 63
          · simp [hm, a]
          · by_cases b : y.timestamp = -2 ^ 63
            · rw [if_neg (by simp only [h0, a, false_and, or_self, not_false_eq_true]), if_pos (.inr ⟨b, hm⟩), if_pos (.inr ⟨hm, .inr b⟩)]
              rfl
            · rw [if_neg (by simp only [h0, a, false_and, or_self, not_false_eq_true]), if_neg (by simp only [h0, b, false_and, or_self, not_false_eq_true]), if_neg (by simp only [h0, a, b, or_self, and_false, not_false_eq_true])]
              rfl
        · simp [h0, hm]

/-- **C115 as stated**: whether a point passes an age threshold depends on how far its time is from the clock. -/
def C115Statement (b : Build) : Prop :=
  ∀ (t : Telemetry Int) (age : Nat) (now : Int), Fits t.timestamp → Fits now → 0 ≤ now → age < 2 ^ 63 →
    ageKeeps b (some age) now t = some (decide (((t.timestamp - now).natAbs : Int) ≤ age))

/-- **C115 is false of the code.**  A client may write, in a graphite line, the time 2^63 seconds before the clock.  A release build
lets that point pass every age threshold and every delay filter; a debug build panics in either. -/
theorem C115_oldest_time_false (ext : Graphite.Ext F) (now : Int) (hnow : Fits now) (h0 : 0 ≤ now) (name value time : Str) (v : F)
    (hv : ext.parseF value = some v) (ht : ext.parseI time = some (now - 2 ^ 63)) :
    Fits (now - 2 ^ 63) ∧ ∃ t : Telemetry F, Graphite.parseWords ext now [name, value, time] [] = (.accepted, [t]) ∧
      t.name = name ∧ t.timestamp = now - 2 ^ 63 ∧
      (∀ age < 2 ^ 64, ageKeeps .release (some age) now t = some true ∧ ageKeeps .debug (some age) now t = none) ∧
      (∀ tolerance, -2 ^ 63 < tolerance →
        delayKeeps .release now tolerance (.telemetry t) = some true ∧ delayKeeps .debug now tolerance (.telemetry t) = none) := by
  obtain ⟨h1, h2⟩ := hnow
  have hf : Fits (now - 2 ^ 63) := by unfold Fits; omega
  have hd := C115_distance_partial (now - 2 ^ 63) now hf ⟨h1, h2⟩ h0
  have hr := hd.2.2.1 (by omega)
  have hb := hd.2.1 (by omega)
  refine ⟨hf, { name := name, value := .set v, persist := false, tags := none, timestamp := now - 2 ^ 63, overrideCount := none, overrideSampleSum := none }, ?_, rfl, rfl, ?_, ?_⟩
  · simp [Graphite.parseWords, hv, ht, Graphite.mkPoint, SoftTelemetry.harden, Telemetry.default, Telemetry.thaw,
      SoftTelemetry.setValue, SoftTelemetry.build]
  · intro age ha
    constructor
    · rw [ageKeeps, hr, Option.map_some, decide_eq_true]
      unfold Wavefront.asI64
      split <;> omega
    · rw [ageKeeps, hb, Option.map_none]
  · intro tolerance htol
    constructor
    · rw [delayKeeps, hr, Option.map_some, decide_eq_true]
      exact htol
    · rw [delayKeeps, hb, Option.map_none]

/-- So the statement holds of no build. -/
theorem C115_age_false (b : Build) : ¬ C115Statement b := by
  intro h
  let t : Telemetry Int := { name := [], value := .set 0, persist := false, tags := none, timestamp := -2 ^ 63, overrideCount := none, overrideSampleSum := none }
  have h1 : Fits t.timestamp := by unfold Fits; exact ⟨Int.le_refl _, by decide⟩
  have h2 := h t 60 0 h1 (by decide) (by decide) (by decide)
  have hd := C115_distance_partial (-2 ^ 63) 0 h1 (by decide) (by decide)
  cases b with
  | debug =>
    rw [ageKeeps, hd.2.1 (by decide), Option.map_none] at h2
    simp at h2
  | release =>
    rw [ageKeeps, hd.2.2.1 (by decide), Option.map_some] at h2
    have h3 := Option.some.inj h2
    revert h3
    decide

section
/-- one point of `a` at the given time -/
private def at_ (ts : Int) : Telemetry Int :=
  { name := "a".toList, value := .set 7, persist := false, tags := none, timestamp := ts, overrideCount := none, overrideSampleSum := none }

/-- Two points of one series ten seconds apart are padded in either build; bins of width -1 panic on the least time only. -/
example : (∀ t ∈ [at_ 1530000000, at_ 1530000010], (-2 ^ 62 : Int) < t.timestamp ∧ t.timestamp < 2 ^ 62) ∧
    (Machine.padding .debug { nameTagHash := fun _ => 0, hash := fun _ => 0, cmp := fun _ _ => none, showF := fun _ => [], showI := fun _ => [], showN := fun _ => [] }
      [at_ 1530000000, at_ 1530000010] 1 (fun _ => some 1529999990) ⟨true, true, true, true⟩).map
        (List.map Wavefront.Pad.timestamp) =
      some [1529999991, 1529999999, 1530000000, 1530000001, 1530000009, 1530000010] ∧
    Machine.within (at_ (-2 ^ 63)) (-1) (at_ 0) = none ∧ Machine.within (at_ (-2 ^ 63)) 60 (at_ 0) = some .lt ∧
    Machine.within (at_ 59) 60 (at_ (-59)) = some .eq := by
  decide +kernel

example : (∀ t ∈ [at_ (2 ^ 63 - 1), at_ 0], Fits t.timestamp) ∧
    (Machine.padding .debug { nameTagHash := fun _ => 0, hash := fun _ => 0, cmp := fun _ _ => none, showF := fun _ => [], showI := fun _ => [], showN := fun _ => [] }
      [at_ (2 ^ 63 - 1), at_ 0] 1 (fun _ => none) ⟨true, true, true, true⟩).map
        (List.map Wavefront.Pad.timestamp) = some [2 ^ 63 - 1, 2 ^ 63 - 1, -1, 0] := by
  decide +kernel

end

end Verif
