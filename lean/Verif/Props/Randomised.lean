import Verif.Lemmas.Wavefront
import Verif.Model.Randomised
import Verif.Props.Wavefront
import Verif.Props.Prometheus
import Verif.Lemmas.Cmp
/-!
# C106: the project's randomised tests, for every input

The tests named below try a property on random inputs; here it holds for all of them, or it is shown
where it fails.  The randomised tests of the bucket store and of the file source are C104 and C105.
-/
namespace Verif
section
open Wavefront
variable {F : Type} [F64 F]

/-! ## Padding -/

/-- What `test_no_zero_runs` watches: with `n` zero points just before, never more than two in a row. -/
private def RunsOk : Nat → List (Pad F) → Prop
  | _, [] => True
  | n, .zero _ _ :: rest => n + 1 ≤ 2 ∧ RunsOk (n + 1) rest
  | _, .telem _ :: rest => RunsOk 0 rest

private theorem runsOk_padded (ext : Ext F) (span : Int) (seen : LastSeen) (pc : PadControl) :
    ∀ (pts : List (Telemetry F)) (fp : List Nat) (n : Nat),
      (n = 0 ∨ (n ≤ 2 ∧ ∀ x rest, pts = x :: rest → telemHash ext x ∈ fp ∨ seen (telemHash ext x) = none)) →
      RunsOk n (paddedS ext span seen pc fp (pts.map .telem)) := by
  intro pts
  induction pts with
  | nil => intro fp n _; trivial
  | cons x rest ih =>
    intro fp n hn
    obtain ⟨pre, post, fp', e, hpre, hpost, _⟩ := paddedS_cons ext span seen pc fp x rest
    rw [e]
    have htail : RunsOk 0 (post ++ paddedS ext span seen pc fp' (rest.map .telem)) := by
      rcases hpost with h | ⟨y, B, h1, h2, _, _, h5, h6⟩
      · subst h; exact ih fp' 0 (Or.inl rfl)
      · subst h6
        refine ⟨by omega, by omega, ih fp' 2 (Or.inr ⟨by omega, fun x' rest' hx => ?_⟩)⟩
        rw [h1] at hx
        simp only [List.cons.injEq] at hx
        rw [← hx.1, h2]; exact h5
    rcases hpre with ⟨h, _⟩ | ⟨l, h1, _, _, h4, _, _, h7⟩
    · subst h
      simpa [RunsOk] using htail
    · have hn0 : n = 0 := by
        rcases hn with h | ⟨_, h⟩
        · exact h
        · rcases h x rest rfl with h | h
          · exact absurd h h4
          · rw [h1] at h; simp at h
      subst h7 hn0
      simpa [RunsOk] using htail

private theorem no_three (a b c : Pad F) (Q : List (Pad F)) : ∀ (P : List (Pad F)) (n : Nat),
    RunsOk n (P ++ a :: b :: c :: Q) → ∃ t, a = .telem t ∨ b = .telem t ∨ c = .telem t := by
  intro P
  induction P with
  | nil =>
    intro n h
    cases a with
    | telem t => exact ⟨t, Or.inl rfl⟩
    | zero t ts =>
      cases b with
      | telem t => exact ⟨t, Or.inr (Or.inl rfl)⟩
      | zero u us =>
        cases c with
        | telem t => exact ⟨t, Or.inr (Or.inr rfl)⟩
        | zero v vs =>
          have := h.2.2.1
          omega
  | cons p P ih =>
    intro n h
    cases p with
    | telem t => exact ih 0 h
    | zero t ts => exact ih (n + 1) h.2

/-- `test_no_zero_runs` (src/sink/wavefront.rs:884-921), for all points, all settings and whatever was seen in
earlier flushes: of any three values emitted in a row one is a stored point. -/
theorem C106_no_zero_runs (ext : Ext F) (pts : List (Telemetry F)) (span : Int) (seen : LastSeen) (pc : PadControl)
    (P Q : List (Pad F)) (a b c : Pad F) (h : padding ext pts span seen pc = P ++ a :: b :: c :: Q) :
    ∃ t, a = .telem t ∨ b = .telem t ∨ c = .telem t := by
  have := runsOk_padded ext span seen pc pts [] 0 (Or.inl rfl)
  rw [← padding_eq, h] at this
  exact no_three a b c Q P 0 this

/-- `test_never_fewer_non_zero` (src/sink/wavefront.rs:923-962) and `test_pad_is_identity_with_no_pads` (:795-827), for all
inputs: padding adds no value that is not zero and drops none; with all padding off it adds nothing. -/
theorem C106_non_zero (ext : Ext F) (pts : List (Telemetry F)) (span : Int) (seen : LastSeen) (pc : PadControl) :
    (padding ext pts span seen pc).countP (fun p => !p.isZeroed) = pts.countP (fun t => !t.isZeroed) ∧
    ((∀ k, pads pc k = false) → (padding ext pts span seen pc).length = pts.length) := by
  constructor
  · have h := padded_points ext span seen pc pts []
    rw [← padding_eq] at h
    have hgen : ∀ out : List (Pad F), out.countP (fun p => !p.isZeroed) = (storedPoints out).countP (fun t => !t.isZeroed) := ?_
    · conv => rhs; rw [← h]
      exact hgen _
    intro out
    induction out with
    | nil => rfl
    | cons p out ih =>
      cases p with
      | zero t ts => simpa [storedPoints, Pad.isZeroed] using ih
      | telem t =>
        simp only [storedPoints, List.filterMap_cons, List.countP_cons] at ih ⊢
        rw [ih]; rfl
  · intro off
    rw [padding_eq]
    have : ∀ (l : List (Telemetry F)) fp, (paddedS ext span seen pc fp (l.map .telem)).length = l.length := by
      intro l
      induction l with
      | nil => intro fp; rfl
      | cons x l ih =>
        intro fp
        simp only [List.map_cons, paddedS, skipPad_telem, off, Bool.not_false, true_or, if_true, List.length_cons, ih]
    exact this pts []

/-- Neighbours in a list are related. -/
private def Chained {α : Type} (R : α → α → Prop) : List α → Prop
  | a :: b :: rest => R a b ∧ Chained R (b :: rest)
  | _ => True

private theorem Chained.rel {α : Type} {R : α → α → Prop} {a b : α} {Q : List α} :
    ∀ P : List α, Chained R (P ++ a :: b :: Q) → R a b := by
  intro P
  induction P with
  | nil => intro h; exact h.1
  | cons p P ih =>
    intro h
    refine ih ?_
    cases P with
    | nil => exact h.2
    | cons q P => exact h.2

/-- `a` and `b` follow each other; if they are of one series and two spans or more apart, both are zero points. -/
private def Close (ext : Ext F) (span : Int) (a b : Pad F) : Prop :=
  a.hash ext = b.hash ext → 2 * span ≤ ((a.timestamp - b.timestamp).natAbs : Int) →
    (∃ t ts, a = .zero t ts) ∧ ∃ t ts, b = .zero t ts

private theorem closeChain (ext : Ext F) (span : Int) (hs : 0 < span) (seen : LastSeen) (pc : PadControl) :
    ∀ (pts : List (Telemetry F)) (fp : List Nat), (∀ t ∈ pts, pads pc t.kind = true) →
      (∀ t ∈ pts, ∀ l, seen (telemHash ext t) = some l → l < t.timestamp) →
      Chained (Close ext span) (paddedS ext span seen pc fp (pts.map .telem)) ∧
      ∀ x rest, pts = x :: rest → ∃ p tail, paddedS ext span seen pc fp (pts.map .telem) = p :: tail ∧
        p.hash ext = telemHash ext x ∧ (telemHash ext x ∈ fp ∨ seen (telemHash ext x) = none → p = .telem x) := by
  intro pts
  induction pts with
  | nil => intro fp _ _; exact ⟨trivial, by simp⟩
  | cons x rest ih =>
    intro fp on fresh
    obtain ⟨pre, post, fp', e, hpre, hpost, hdec, _⟩ := paddedS_cons ext span seen pc fp x rest
    obtain ⟨ih1, ih2⟩ := ih fp' (fun t h => on t (by simp [h])) (fun t h => fresh t (by simp [h]))
    have hone : ∀ a b : Pad F, ((a.timestamp - b.timestamp).natAbs : Int) ≤ 1 → Close ext span a b := by
      intro a b h _ h'; omega
    have htail : Chained (Close ext span) (Pad.telem x :: (post ++ paddedS ext span seen pc fp' (rest.map .telem))) := by
      cases rest with
      | nil =>
        rcases hpost with h | ⟨y, B, h1, _⟩
        · subst h; exact trivial
        · simp at h1
      | cons y B =>
        obtain ⟨p, tail, e2, h3, h4⟩ := ih2 y B rfl
        by_cases hh : telemHash ext y = telemHash ext x
        · have hcase : telemHash ext x ∈ fp ∨ seen (telemHash ext x) = none ∨
              ∃ l, seen (telemHash ext x) = some l ∧ l < x.timestamp := by
            cases hse : seen (telemHash ext x) with
            | none => exact Or.inr (Or.inl rfl)
            | some l => exact Or.inr (Or.inr ⟨l, rfl, fresh x (by simp) l hse⟩)
          obtain ⟨hp, hfp⟩ := hdec (on x (by simp)) (decide_eq_true (p := telemHash ext y = telemHash ext x) hh) hcase
          rw [← hh] at hfp
          have hpy := h4 hfp
          subst hpy
          rw [e2] at ih1 ⊢
          rcases gapPads_map ext span x (y :: B) with h0 | ⟨y', B', h1, _, _, h5⟩
          · rw [hp, h0]
            refine And.intro ?_ ih1
            intro _ hfar
            exfalso
            simp only [List.map_cons, gapPads, Pad.hash, hh, if_true, Pad.timestamp] at h0 hfar
            have h2 : 2 ≤ ((x.timestamp - y.timestamp).natAbs : Int).tdiv span := by
              rw [Int.tdiv_eq_ediv_of_nonneg (by omega)]
              exact Int.le_ediv_of_mul_le hs hfar
            have hd : ¬ (((x.timestamp - y.timestamp).natAbs : Int).tdiv span = 0 ∨
                ((x.timestamp - y.timestamp).natAbs : Int).tdiv span = 1) := by omega
            have h0' : ([.zero x (x.timestamp + 1), Pad.zeroAt (y.timestamp - 1) (Pad.telem y)] : List (Pad F)) = [] :=
              (if_neg hd).symm.trans h0
            simp at h0'
          · simp only [List.cons.injEq] at h1
            obtain ⟨rfl, rfl⟩ := h1
            rw [hp, h5]
            refine And.intro (hone _ _ ?_) (And.intro (fun _ _ => ⟨⟨_, _, rfl⟩, _, _, rfl⟩)
              (And.intro (hone _ _ ?_) ih1)) <;> simp only [Pad.timestamp] <;> omega
        · have hpost0 : post = [] := by
            rcases hpost with h | ⟨y', B', h1, h2, _⟩
            · exact h
            · simp only [List.cons.injEq] at h1
              exact absurd (h1.1 ▸ h2) hh
          subst hpost0
          rw [e2] at ih1 ⊢
          refine And.intro ?_ ih1
          intro he
          exact absurd (h3.symm.trans he.symm) hh
    rcases hpre with ⟨h, _⟩ | ⟨l, h1, _, _, h4, _, _, h7⟩
    · subst h
      rw [e]
      refine ⟨by simpa using htail, fun x' rest' hx => ?_⟩
      simp only [List.cons.injEq] at hx
      exact ⟨.telem x, post ++ paddedS ext span seen pc fp' (rest.map .telem), by simp, by rw [← hx.1]; rfl,
        fun _ => by rw [hx.1]⟩
    · subst h7
      rw [e]
      refine ⟨?_, fun x' rest' hx => ?_⟩
      · simp only [List.cons_append, List.nil_append]
        refine And.intro (fun _ _ => ⟨⟨_, _, rfl⟩, _, _, rfl⟩)
          (And.intro (hone _ _ ?_) htail)
        simp only [Pad.timestamp]; omega
      · simp only [List.cons.injEq] at hx
        refine ⟨.zero x (l + 1), .zero x (x.timestamp - 1) :: .telem x :: (post ++ paddedS ext span seen pc fp' (rest.map .telem)),
          by simp, by rw [← hx.1]; rfl, fun h => ?_⟩
        rw [← hx.1, h1] at h
        rcases h with h | h
        · exact absurd h h4
        · simp at h

/-- `test_no_unpadded_gaps` (src/sink/wavefront.rs:829-882), for all inputs with a positive bin width: with padding on
for the kinds present and every point newer than what was seen of its series in earlier flushes (in the test:
nothing), two values of one series that follow each other two spans or more apart are both zero points. -/
theorem C106_no_unpadded_gaps (ext : Ext F) (pts : List (Telemetry F)) (span : Int) (seen : LastSeen) (pc : PadControl)
    (hs : 0 < span) (on : ∀ t ∈ pts, pads pc t.kind = true)
    (fresh : ∀ t ∈ pts, ∀ l, seen (telemHash ext t) = some l → l < t.timestamp)
    (P Q : List (Pad F)) (a b : Pad F) (h : padding ext pts span seen pc = P ++ a :: b :: Q)
    (same : a.hash ext = b.hash ext) (far : 2 * span ≤ ((a.timestamp - b.timestamp).natAbs : Int)) :
    (∃ t ts, a = .zero t ts) ∧ ∃ t ts, b = .zero t ts := by
  have hc := (closeChain ext span hs seen pc pts [] on fresh).1
  rw [← padding_eq, h] at hc
  exact Chained.rel P hc same far

/-- `Pad::is_zeroed` calls every padding point zero; of counters and gauges the point that is written out is zero too. -/
theorem C106_zero_points (now : Int) (t : Telemetry F) (ts : Int) (refl : F64.eqb (F64.zero : F) F64.zero = true)
    (hk : t.kind = .set ∨ t.kind = .sum) :
    (Pad.zero t ts).isZeroed = true ∧ ∃ z, (Pad.zero t ts).point now = some z ∧ z.isZeroed = true := by
  refine ⟨rfl, ?_⟩
  obtain ⟨z, hz, _, _, _, _, _, hset, hsum, _⟩ := C44_zero_point now t ts (by rcases hk with h | h <;> simp [h])
  refine ⟨z, hz, ?_⟩
  rcases hk with h | h
  · simp only [Telemetry.isZeroed, hset h]; exact refl
  · simp only [Telemetry.isZeroed, hsum h]; exact refl

/-- Disagreement: the point written out for the padding of a summary or a histogram is not zero by `Telemetry::is_zeroed`: it
holds one sample, while an empty one, which that function calls zero, is never made. -/
theorem C106_zero_points_false :
    (∃ t z : Telemetry Int, t.kind = .summarize ∧ (Pad.zero t 7).point 0 = some z ∧ z.isZeroed = false) ∧
    ∃ t z : Telemetry Int, t.kind = .histogram ∧ (Pad.zero t 7).point 0 = some z ∧ z.isZeroed = false :=
  ⟨⟨⟨['s'], .quantiles ([3] : List Int) 3, false, none, 10, none, none⟩,
      ⟨['s'], .quantiles ([0] : List Int) 0, false, none, 7, none, none⟩, rfl, rfl, rfl⟩,
    ⟨⟨['h'], .histogram (⟨[5], [3]⟩ : IHist), false, none, 10, none, none⟩,
      ⟨['h'], .histogram (⟨[1, 10, 100, 1000], [0]⟩ : IHist), false, none, 7, none, none⟩, rfl, rfl, rfl⟩⟩

end

open Wavefront in
/-- Non-vacuity: two series, gaps, an earlier flush; every hypothesis holds and padding happens. -/
example :
    let pts := [wfGauge "a" 1 10, wfGauge "a" 2 11, wfGauge "a" 0 19, wfGauge "bb" 3 4]
    let seen : LastSeen := fun h => if h = 1 then some 3 else none
    (∀ t ∈ pts, pads wfPadAll t.kind = true) ∧
    (∀ t ∈ pts, ∀ l, seen (telemHash wfExt t) = some l → l < t.timestamp) ∧
    (padding wfExt pts 2 seen wfPadAll).map (fun p => (p.isZeroed, p.timestamp)) =
      [(true, 4), (true, 9), (false, 10), (false, 11), (true, 12), (true, 18), (true, 19), (false, 4)] := by
  refine ⟨by decide, ?_, by decide⟩
  simp [wfGauge, telemHash, wfExt, Telemetry.hashInput]

/-! ## Prometheus -/
section
open Prometheus
variable {F : Type} [F64 F]

/-- `test_accumlator_window_boundary_obeyed` (src/sink/prometheus.rs:735-756), for every window size (0 as well) and all summary
points with a largest sample: no insertion panics and the window never holds more samples than its size. -/
theorem C106_window_boundary (ext : Ext F) (cap : Nat) (ts : List (Telemetry F))
    (hts : ∀ t ∈ ts, t.kind = .summarize ∧ ∃ v, top t v) :
    ∃ acc, ts.foldlM (fun acc t => Acc.insert ext acc t) (.windowed cap F64.zero 0 []) = some acc ∧
      acc.totalStoredSamples ≤ cap := by
  suffices h : ∀ (ts : List (Telemetry F)) (sum : F) (count : Nat) (samples : List (Telemetry F)),
      (∀ t ∈ ts, t.kind = .summarize ∧ ∃ v, top t v) → samples.length ≤ cap →
      samples.Pairwise (fun a b => a.timestamp < b.timestamp) →
      ∃ acc, ts.foldlM (fun acc t => Acc.insert ext acc t) (.windowed cap sum count samples) = some acc ∧
        acc.totalStoredSamples ≤ cap from h ts _ _ [] hts (by simp) List.Pairwise.nil
  intro ts
  induction ts with
  | nil => intro sum count samples _ hl _; exact ⟨_, rfl, hl⟩
  | cons t ts ih =>
    intro sum count samples h hl hsort
    obtain ⟨hk, v, hv⟩ := h t (by simp)
    have h' : ∀ u ∈ ts, u.kind = .summarize ∧ ∃ v, top u v := fun u hu => h u (by simp [hu])
    rcases Nat.eq_zero_or_pos cap with h0 | hc
    · subst h0
      have hnil : samples = [] := by simpa using hl
      subst hnil
      have hins : Acc.insert ext (.windowed 0 sum count []) t =
          some (.windowed 0 (wrapSum ext sum v) (if u64Max - count ≤ 1 then 1 else count + 1) []) := by
        have hv' : t.query (F64.ofNat 1) = some v := hv
        simp only [Acc.insert, hk, hv', ne_eq, not_true, if_false]
        rfl
      rw [List.foldlM_cons, hins]
      exact ih _ _ [] h' (by simp) List.Pairwise.nil
    · obtain ⟨sum', count', all, e, hs, _⟩ := C50_oldest_dropped ext cap sum count samples t hc hsort hl hk v hv
      rw [List.foldlM_cons, e]
      exact ih _ _ _ h' (by rw [List.length_drop]; omega) (hs.sublist (List.drop_sublist ..))

/-- Every window can hold a sample and holds one. -/
private def Full (data : List (Str × Acc F)) : Prop :=
  ∀ na ∈ data, match na.2 with
    | .perpetual _ => True
    | .windowed cap _ _ samples => 1 ≤ cap ∧ samples ≠ []

private theorem put_mem (data : List (Str × Acc F)) (n : Str) (a : Acc F) :
    ∀ x ∈ put data n a, x ∈ data ∨ x.2 = a := by
  induction data with
  | nil => intro x hx; simp [put] at hx; exact Or.inr (by rw [hx])
  | cons kb rest ih =>
    intro x hx
    simp only [put] at hx
    split at hx
    · rcases List.mem_cons.1 hx with rfl | hx
      · exact Or.inr rfl
      · exact Or.inl (List.mem_cons_of_mem _ hx)
    · rcases List.mem_cons.1 hx with rfl | hx
      · exact Or.inl (List.mem_cons_self ..)
      · exact (ih x hx).imp (List.mem_cons_of_mem _) id

private theorem find_mem' (data : List (Str × Acc F)) (n : Str) (a : Acc F) (h : find data n = some a) :
    ∃ k, (k, a) ∈ data := by
  induction data with
  | nil => simp [find] at h
  | cons kb rest ih =>
    simp only [find] at h
    split at h
    · simp only [Option.some.injEq] at h; subst h; exact ⟨_, List.mem_cons_self ..⟩
    · obtain ⟨k, hk⟩ := ih h; exact ⟨k, List.mem_cons_of_mem _ hk⟩

private theorem acc_full (ext : Ext F) (acc acc' : Acc F) (t : Telemetry F) (h : acc.insert ext t = some acc')
    (hf : Full [(t.name, acc)]) : Full [(t.name, acc')] := by
  intro na hna
  simp only [List.mem_singleton] at hna
  subst hna
  have hf := hf _ (List.mem_singleton.2 rfl)
  cases acc with
  | perpetual u => simp only [Acc.insert, Option.some.injEq] at h; subst h; trivial
  | windowed cap sum count samples =>
    simp only at hf
    simp only [Acc.insert] at h
    split at h
    · cases h
    · split at h
      · cases h
      · split at h
        · cases h
        · next s hs =>
          split at h
          · simp only [Option.some.injEq] at h
            subst h
            refine ⟨hf.1, ?_⟩
            have hpos : 1 ≤ samples.length := by
              cases samples with
              | nil => exact absurd rfl hf.2
              | cons a l => simp
            suffices 1 ≤ s.length by intro e; rw [e] at this; simp at this
            split at hs
            · split at hs
              · simp only [Option.some.injEq] at hs; subst hs; simpa using hpos
              · cases hs
            · next idx _ =>
              simp only [Option.some.injEq] at hs
              have hins : samples.length ≤ (samples.insertIdx idx t).length := by
                rw [List.length_insertIdx]; split <;> omega
              subst hs
              split
              · rw [List.length_drop]; omega
              · omega
          · cases h

private theorem insert_full (ext : Ext F) (a a' : Aggr F) (ok : Bool) (t : Telemetry F)
    (h : a.insert ext t = some (a', ok)) (hc : 1 ≤ a.capacity) (hf : Full a.data) :
    Full a'.data ∧ a'.capacity = a.capacity := by
  have hput : ∀ acc, Full [(t.name, acc)] → Full (put a.data t.name acc) := by
    intro acc hacc na hna
    rcases put_mem _ _ _ na hna with h | h
    · exact hf na h
    · rw [h]; exact hacc (t.name, acc) (List.mem_singleton.2 rfl)
  simp only [Aggr.insert] at h
  split at h
  · next prev hp =>
    split at h
    · split at h
      · cases h
      · next acc hacc =>
        simp only [Option.some.injEq, Prod.mk.injEq] at h
        obtain ⟨rfl, _⟩ := h
        obtain ⟨k, hk⟩ := find_mem' _ _ _ hp
        refine ⟨hput acc (acc_full ext prev acc t hacc ?_), rfl⟩
        intro na hna
        simp only [List.mem_singleton] at hna
        subst hna
        exact hf (k, prev) hk
    · simp only [Option.some.injEq, Prod.mk.injEq] at h
      obtain ⟨rfl, _⟩ := h
      exact ⟨hf, rfl⟩
  · split at h
    · cases h
    · next acc hacc =>
      simp only [Option.some.injEq, Prod.mk.injEq] at h
      obtain ⟨rfl, _⟩ := h
      refine ⟨hput acc ?_, rfl⟩
      intro na hna
      simp only [List.mem_singleton] at hna
      subst hna
      simp only [first] at hacc
      split at hacc
      · simp only [Option.some.injEq] at hacc; subst hacc; trivial
      · simp only [Option.some.injEq] at hacc; subst hacc; trivial
      · simp only [Option.some.injEq] at hacc; subst hacc; trivial
      · split at hacc
        · cases hacc
        · simp only [Option.some.injEq] at hacc; subst hacc; exact ⟨hc, by simp⟩

private theorem inserts_full (ext : Ext F) : ∀ (ts : List (Telemetry F)) (a a' : Aggr F),
    run ext a (ts.map .insert) = some a' → 1 ≤ a.capacity → Full a.data → Full a'.data := by
  intro ts
  induction ts with
  | nil => intro a a' h _ hf; simp only [List.map_nil, run, Option.some.injEq] at h; subst h; exact hf
  | cons t ts ih =>
    intro a a' h hc hf
    simp only [List.map_cons, run] at h
    split at h
    · cases h
    · next a1 ok he =>
      obtain ⟨h1, h2⟩ := insert_full ext a a1 ok t he hc hf
      exact ih a1 a' h (by omega) h1

private theorem report_length (now : Int) : ∀ (order : List (Str × Acc F)) (pts : List (Telemetry F)),
    Full order → report now order = some pts → pts.length = order.length := by
  intro order
  induction order with
  | nil => intro pts _ h; simp only [report, Option.some.injEq] at h; subst h; rfl
  | cons na rest ih =>
    intro pts hf h
    obtain ⟨n, acc⟩ := na
    have hacc := hf (n, acc) (by simp)
    simp only [report] at h
    split at h
    · next t ts _ e =>
      simp only [Option.some.injEq] at h; subst h
      rw [List.length_cons, List.length_cons, ih ts (fun x hx => hf x (by simp [hx])) e]
    · next ts e1 e =>
      exfalso
      cases acc with
      | perpetual u => simp [Acc.report] at e1
      | windowed cap sum count samples =>
        cases samples with
        | nil => exact hacc.2 rfl
        | cons s l =>
          simp only [Acc.report] at e1
          split at e1 <;> simp at e1
    · cases h

/-- `test_reportable` (src/sink/prometheus.rs:758-773), for all points inserted and every order of iteration: as many points are
reported as there are stored names. -/
theorem C106_reportable_partial (ext : Ext F) (cap : Nat) (hc : 1 ≤ cap) (ts : List (Telemetry F)) (a : Aggr F)
    (h : run ext (Aggr.new cap) (ts.map .insert) = some a) (now : Int) (order : List (Str × Acc F))
    (ho : order.Perm a.data) (pts : List (Telemetry F)) (hr : report now order = some pts) :
    pts.length = a.count := by
  have hf := inserts_full ext ts (Aggr.new cap) a h hc (by simp [Full, Aggr.new])
  rw [report_length now order pts (fun x hx => hf x (ho.mem_iff.1 hx)) hr, ho.length_eq]
  rfl

/-- Where the tested property fails: the test never purges.  After a purge a summary without samples is still counted but
not reported; and it is found, although looking at it panics. -/
theorem C106_reportable_false :
    ∃ a : Aggr Int, run promExt (Aggr.new 1) [.insert (promSummary 1 1), .purge 100] = some a ∧
      a.count = 1 ∧ report 100 a.data = some [] ∧ a.findMatch (promSummary 1 1) = none := by
  refine ⟨⟨[("s".toList, .windowed 1 1 1 [])], 1⟩, ?_, rfl, rfl, ?_⟩ <;> rfl

private theorem put_length (data : List (Str × Acc F)) (n : Str) (a : Acc F) :
    (put data n a).length = if (find data n).isSome then data.length else data.length + 1 := by
  induction data with
  | nil => rfl
  | cons kb rest ih =>
    simp only [put, find]
    split
    · simp
    · simp only [List.length_cons, ih]
      split <;> rfl

/-- `test_insertion_exists_property` and `test_insertion_not_exists_property` (src/sink/prometheus.rs:775-828), for every stored
aggregation and every point whose insertion does not panic: a name that is stored already keeps the count, the
point is taken exactly if the kinds agree, and the kind stays; a name that is not stored is taken, adds one to the count
and is found afterwards with the point's kind.  Entries of other names stay as they are. -/
theorem C106_insertion (ext : Ext F) (a a' : Aggr F) (ok : Bool) (t : Telemetry F) (h : a.insert ext t = some (a', ok)) :
    (∀ prev, find a.data t.name = some prev → a'.count = a.count ∧ (ok = true ↔ prev.kind = t.kind) ∧ (ok = false → a' = a) ∧
      ∃ acc, find a'.data t.name = some acc ∧ acc.kind = prev.kind) ∧
    (find a.data t.name = none → ok = true ∧ a'.count = a.count + 1 ∧
      ∃ acc, find a'.data t.name = some acc ∧ acc.kind = t.kind) ∧
    (∀ n, n ≠ t.name → find a'.data n = find a.data n) := by
  have hother : ∀ acc n, n ≠ t.name → find (put a.data t.name acc) n = find a.data n := by
    intro acc n hn
    rw [find_put, if_neg (Ne.symm hn)]
  simp only [Aggr.insert] at h
  split at h
  · next prev hp =>
    refine ⟨fun prev' hp' => ?_, fun hn => ?_, ?_⟩
    · rw [hp] at hp'
      simp only [Option.some.injEq] at hp'
      subst hp'
      by_cases hk : prev.kind = t.kind
      · simp only [hk, if_true] at h
        split at h
        · cases h
        · next acc hacc =>
          simp only [Option.some.injEq, Prod.mk.injEq] at h
          obtain ⟨rfl, rfl⟩ := h
          refine ⟨by simp [Aggr.count, put_length, hp], by simp [hk], by simp, acc, by simp [find_put], ?_⟩
          cases prev with
          | perpetual u =>
            simp only [Acc.insert, Option.some.injEq] at hacc; subst hacc
            exact (addAssign_kind u t).trans hk.symm
          | windowed cap sum count samples =>
            simp only [Acc.insert] at hacc
            split at hacc
            · cases hacc
            · split at hacc
              · cases hacc
              · split at hacc
                · cases hacc
                · split at hacc
                  · simp only [Option.some.injEq] at hacc; subst hacc; rfl
                  · cases hacc
      · simp only [hk, if_false, Option.some.injEq, Prod.mk.injEq] at h
        obtain ⟨rfl, rfl⟩ := h
        exact ⟨rfl, by simp [hk], fun _ => rfl, prev, hp, rfl⟩
    · rw [hp] at hn; cases hn
    · intro n hn
      split at h
      · split at h
        · cases h
        · simp only [Option.some.injEq, Prod.mk.injEq] at h
          obtain ⟨rfl, _⟩ := h
          exact hother _ n hn
      · simp only [Option.some.injEq, Prod.mk.injEq] at h
        rw [← h.1]
  · next hp =>
    split at h
    · cases h
    · next acc hacc =>
      simp only [Option.some.injEq, Prod.mk.injEq] at h
      obtain ⟨rfl, rfl⟩ := h
      refine ⟨fun prev hp' => ?_, fun _ => ⟨rfl, by simp [Aggr.count, put_length, hp], acc, by simp [find_put], ?_⟩, hother acc⟩
      · rw [hp] at hp'; cases hp'
      · simp only [first] at hacc
        split at hacc <;> rename_i hk
        · simp only [Option.some.injEq] at hacc; subst hacc; rfl
        · simp only [Option.some.injEq] at hacc; subst hacc; rfl
        · simp only [Option.some.injEq] at hacc; subst hacc; rfl
        · split at hacc
          · cases hacc
          · simp only [Option.some.injEq] at hacc; subst hacc; exact hk.symm

/-- What the tests look up by name is what a scrape reports for it, but for the overrides. -/
theorem C106_find_match (a : Aggr F) (t r : Telemetry F) (now : Int) (acc : Acc F) (h : find a.data t.name = some acc)
    (hr : acc.report now = some (some r)) :
    ∃ m, a.findMatch t = some (some m) ∧ r.name = m.name ∧ r.value = m.value ∧ r.tags = m.tags ∧
      r.timestamp = m.timestamp ∧ r.persist = m.persist := by
  cases acc with
  | perpetual u =>
    simp only [Acc.report, Option.some.injEq] at hr
    subst hr
    exact ⟨u, by simp [Aggr.findMatch, h], rfl, rfl, rfl, rfl, rfl⟩
  | windowed cap sum count samples =>
    cases samples with
    | nil => simp [Acc.report] at hr
    | cons s rest =>
      refine ⟨rest.foldl (fun start t => start.addAssign t) s, by simp [Aggr.findMatch, h], ?_⟩
      simp only [Acc.report] at hr
      generalize rest.foldl (fun start t => start.addAssign t) s = m at hr ⊢
      obtain ⟨name, value, persist, tags, ts, oc, os⟩ := m
      cases value <;> (cases hr; exact ⟨rfl, rfl, rfl, rfl, rfl⟩)

/-! ## Points -/

/-- `test_metric_within` (src/metric/telemetry.rs:1115-1133), for every span and all points of one name and one tag map: they compare
as their time bins do. -/
theorem C106_within_partial (span : Int) (a b : Telemetry F) (hn : a.name = b.name) (ht : a.tags = b.tags) :
    a.within span b = compare (a.timestamp.tdiv span) (b.timestamp.tdiv span) := by
  simp only [Telemetry.within, hn, ht, cmpStr_refl, cmpTagmap_refl]

/-- Where the tested property fails: the test's points have no tags.  Points of one name, kind and time but with different
tags do not compare as equal. -/
theorem C106_within_false :
    ∃ a b : Telemetry Int, a.kind = b.kind ∧ a.name = b.name ∧
      a.within 1 b ≠ compare (a.timestamp.tdiv 1) (b.timestamp.tdiv 1) :=
  ⟨⟨['a'], .set 1, false, some [], 5, none, none⟩, ⟨['a'], .set 1, false, some [(['k'], ['v'])], 5, none, none⟩, rfl, rfl, by decide⟩

end

/-- Non-vacuity: three samples in a window of two; two names of which one is refused another kind. -/
example : ((([promSummary 1 1, promSummary 2 2, promSummary 3 3] : List (Telemetry Int)).foldlM
    (fun acc t => Prometheus.Acc.insert promExt acc t) (.windowed 2 0 0 [])).map Prometheus.Acc.totalStoredSamples) = some 2 := rfl

example : ((Prometheus.run promExt (Prometheus.Aggr.new 5) [.insert (promSummary 1 1), .insert (promPoint "c" none 3),
    .insert (promSummary 2 2)]).map Prometheus.Aggr.count) = some 2 := rfl

end Verif
