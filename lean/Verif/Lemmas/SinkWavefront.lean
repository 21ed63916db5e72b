import Verif.Lemmas.SinkImpls
import Verif.Lemmas.Wavefront
import Verif.Lemmas.WavefrontText
import Verif.Spec.SinkImpls
/-!
# Lemmas about the Wavefront sink under the run-loop (C86)
-/
namespace Verif
variable {F : Type} [F64 F]

theorem runBucket_append' (hash : Str × TagMap → Nat) (ops ops' : List (BucketOp F)) :
    ∀ b : Buckets F, runBucket hash b (ops ++ ops') =
      (runBucket hash b ops).bind fun b => runBucket hash b ops' := by
  induction ops with
  | nil => intro b; rfl
  | cons o ops ih =>
    intro b
    cases o with
    | add now v =>
      simp only [List.cons_append, runBucket]
      cases b.add hash now v with
      | none => rfl
      | some b => exact ih b
    | reset now => exact ih _

namespace Wavefront

theorem fmtVal_answers (ps : List (Str × F)) (tags : TagMap) (t : Telemetry F) (toks : List (Tok F))
    (h : fmtVal ps tags t = some toks) : Answers ps t := by
  have key : ∀ (c : F64.Ckms F) (s : F) (buf : Str) (ps : List (Str × F)) (toks : List (Tok F)),
      t.value = .quantiles c s → quantileToks t buf ps = some toks →
        ∀ p ∈ ps, (F64.ckmsQuery c p.2).isSome := by
    intro c s buf ps
    induction ps with
    | nil => intro _ _ _ p hp; simp at hp
    | cons q ps ih =>
      intro toks hv h p hp
      obtain ⟨st, qu⟩ := q
      simp only [quantileToks] at h
      split at h
      · rename_i a b ha hb
        rcases List.mem_cons.1 hp with rfl | hp
        · simp only [Telemetry.query, hv] at ha
          simp [ha]
        · exact ih b hv hb p hp
      · simp at h
  unfold Answers
  split
  · rename_i c s hv
    have hk : t.kind = .summarize := by simp [Telemetry.kind, hv, Value.kind]
    simp only [fmtVal, hk] at h
    split at h
    · rename_i qs m hq hm
      exact key c s _ ps qs hv hq
    · simp at h
  · trivial

theorem formatPads_some (ext : Ext F) (now : Int) (ps : List (Str × F)) (tags : TagMap) :
    ∀ (out : List (Pad F)) (c : Caches F) (stats : Str) (tmp : LastSeen) (r : Str × LastSeen),
      formatPads ext now ps tags out c stats tmp = some r →
      ∃ shown : List (Telemetry F), out.map (Pad.point now) = shown.map some ∧ ∀ t ∈ shown, Answers ps t := by
  intro out
  induction out with
  | nil => intro _ _ _ _ _; exact ⟨[], rfl, by simp⟩
  | cons p out ih =>
    intro c stats tmp r h
    simp only [formatPads] at h
    split at h
    · simp at h
    · rename_i t ht
      split at h
      · simp at h
      · rename_i toks hf
        split at h
        · simp at h
        · obtain ⟨shown, h1, h2⟩ := ih _ _ _ _ h
          refine ⟨t :: shown, by simp [ht, h1], ?_⟩
          intro z hz
          rcases List.mem_cons.1 hz with rfl | hz
          · exact fmtVal_answers ps tags _ toks hf
          · exact h2 z hz

theorem zero_point {now : Int} {t z : Telemetry F} {ts : Int} (h : (Pad.zero t ts).point now = some z) (pts : List (Telemetry F))
    (ht : t ∈ pts) : ZeroOf pts z := by
  refine ⟨t, ht, ?_⟩
  cases hk : t.kind with
  | set =>
    simp only [Pad.point, Telemetry.thaw, SoftTelemetry.setValue, SoftTelemetry.harden, hk, Option.isSome_some, Option.isSome_none, Option.isNone_some, Option.isNone_none,
      Bool.and_false, Bool.and_true, Bool.false_and, Bool.false_eq_true, if_false, Option.getD_some, Option.some.injEq] at h
    subst h
    simp [SoftTelemetry.build, Telemetry.kind, Value.kind]
  | sum =>
    simp only [Pad.point, Telemetry.thaw, SoftTelemetry.setValue, SoftTelemetry.harden, hk, Option.isSome_some, Option.isSome_none, Option.isNone_some, Option.isNone_none,
      Bool.and_false, Bool.and_true, Bool.false_and, Bool.false_eq_true, if_false, Option.getD_some, Option.some.injEq] at h
    subst h
    simp [SoftTelemetry.build, Telemetry.kind, Value.kind]
  | summarize =>
    simp only [Pad.point, Telemetry.thaw, SoftTelemetry.setValue, SoftTelemetry.harden, hk, Option.isSome_some, Option.isSome_none, Option.isNone_some, Option.isNone_none,
      Bool.and_false, Bool.and_true, Bool.false_and, Bool.false_eq_true, if_false, Option.getD_some, Option.some.injEq] at h
    subst h
    simp [SoftTelemetry.build, Telemetry.kind, Value.kind]
    exact ⟨_, rfl⟩
  | histogram =>
    simp only [Pad.point, Telemetry.thaw, SoftTelemetry.setValue, SoftTelemetry.harden, hk, Option.isSome_some, Option.isSome_none, Option.isNone_some, Option.isNone_none,
      Bool.and_false, Bool.and_true, Bool.false_and, Bool.false_eq_true, if_false, Option.getD_none, Option.getD_some] at h
    cases hn : (F64.histNew [F64.ofNat 1, F64.ofNat 10, F64.ofNat 100, F64.ofNat 1000] : Option (F64.Hist F)) with
    | none => rw [hn] at h; simp at h
    | some h0 =>
      rw [hn] at h
      simp only [Option.some.injEq] at h
      subst h
      simp [SoftTelemetry.build, Telemetry.kind, Value.kind]
      exact ⟨_, rfl⟩

theorem shown_padded (now : Int) (all : List (Telemetry F)) : ∀ (out : List (Pad F)) (shown : List (Telemetry F)),
    out.map (Pad.point now) = shown.map some → (∀ t ts, Pad.zero t ts ∈ out → t ∈ all) →
    Padded all (storedPoints out) shown := by
  intro out
  induction out with
  | nil =>
    intro shown h _
    cases shown with
    | nil => exact .nil
    | cons t ts => simp at h
  | cons p out ih =>
    intro shown h hz
    cases shown with
    | nil => simp at h
    | cons t ts =>
      simp only [List.map_cons, List.cons.injEq] at h
      have := ih ts h.2 (fun a b hab => hz a b (List.mem_cons_of_mem _ hab))
      cases p with
      | zero a b => exact .zero t (zero_point h.1 all (hz a b (List.mem_cons_self ..))) this
      | telem a =>
        simp only [Pad.point, Option.some.injEq] at h
        rw [← h.1]
        exact .keep a this

theorem padding_zero_mem (ext : Ext F) (pts : List (Telemetry F)) (span : Int) (seen : LastSeen) (pc : PadControl) (t : Telemetry F)
    (ts : Int) (h : Pad.zero t ts ∈ padding ext pts span seen pc) : t ∈ pts := by
  rw [padding_eq] at h
  rcases padded_zero ext span seen pc t ts pts [] h with ⟨A, x, y, B, h1, _, _, _, h4⟩ | ⟨l, h1, _⟩
  · rcases h4 with ⟨rfl, _⟩ | ⟨rfl, _⟩ <;> rw [h1] <;> simp
  · exact h1

theorem padding_off (ext : Ext F) (pts : List (Telemetry F)) (span : Int) (seen : LastSeen)
    (pc : PadControl) (off : ∀ k, pads pc k = false) :
    padding ext pts span seen pc = pts.map .telem := by
  have h1 := padded_points ext span seen pc pts []
  have hz : ∀ t ts, Pad.zero t ts ∉ paddedS ext span seen pc [] (pts.map .telem) := by
    intro t ts h
    rcases padded_zero ext span seen pc t ts pts [] h with ⟨_, x, _, _, _, _, h3, _⟩ | ⟨l, _, h2, _⟩
    · rw [off] at h3; simp at h3
    · rw [off] at h2; simp at h2
  rw [padding_eq]
  generalize hg : paddedS ext span seen pc [] (pts.map .telem) = out at h1 hz
  clear hg
  subst h1
  induction out with
  | nil => rfl
  | cons p out ih =>
    have ih' := ih (fun t ts h => hz t ts (List.mem_cons_of_mem _ h))
    cases p with
    | zero t ts => exact absurd (List.mem_cons_self ..) (hz t ts)
    | telem t =>
      show Pad.telem t :: out = Pad.telem t :: (storedPoints out).map .telem
      rw [← ih']

theorem padding_zero_on (ext : Ext F) (pts : List (Telemetry F)) (span : Int) (seen : LastSeen) (pc : PadControl)
    (hash : HashOk ext pts) (t : Telemetry F) (ts : Int) (h : Pad.zero t ts ∈ padding ext pts span seen pc) :
    pads pc t.kind = true := by
  rw [padding_eq] at h
  rcases padded_zero ext span seen pc t ts pts [] h with ⟨A, x, y, B, h1, h2, h3, _, h4⟩ | ⟨l, _, h2, _⟩
  · have hx : x ∈ pts := by rw [h1]; simp
    have hy : y ∈ pts := by rw [h1]; simp
    rcases h4 with ⟨rfl, _⟩ | ⟨rfl, _⟩
    · exact h3
    · rw [(hash t hy x hx h2).2]; exact h3
  · exact h2

theorem shown_kind (now : Int) (k : Kind) : ∀ (out : List (Pad F)) (shown : List (Telemetry F)),
    out.map (Pad.point now) = shown.map some → (∀ t ts, Pad.zero t ts ∈ out → t.kind ≠ k) →
    (shown.filter fun t => t.kind = k) = (storedPoints out).filter fun t => t.kind = k := by
  intro out
  induction out with
  | nil =>
    intro shown h _
    cases shown with
    | nil => rfl
    | cons t ts => simp at h
  | cons p out ih =>
    intro shown h hz
    cases shown with
    | nil => simp at h
    | cons t ts =>
      simp only [List.map_cons, List.cons.injEq] at h
      have := ih ts h.2 (fun a b hab => hz a b (List.mem_cons_of_mem _ hab))
      cases p with
      | zero a b =>
        obtain ⟨u, hu, -, -, -, hk, -⟩ := zero_point h.1 [a] (by simp)
        have hne := hz a b (List.mem_cons_self ..)
        simp only [List.mem_singleton] at hu
        subst hu
        have hs : storedPoints (.zero u b :: out) = storedPoints out := rfl
        rw [hs, ← this, List.filter_cons_of_neg (by simp [hk, hne])]
      | telem a =>
        simp only [Pad.point, Option.some.injEq] at h
        have hs : storedPoints (.telem a :: out) = a :: storedPoints out := rfl
        rw [hs, ← h.1, List.filter_cons, List.filter_cons, this]

/-- What a successful `formatStats` has written. -/
theorem formatStats_text (ext : Ext F) (now : Int) (s s1 : State F)
    (h : s.formatStats ext now = some s1) (hst : s.stats = []) :
    s1.aggrs = s.aggrs.reset now ∧
    ∃ pts shown, s.aggrs.iter = some pts ∧ Padded pts pts shown ∧
      ((∀ k, pads s.padControl k = false) → shown = pts) ∧
      (HashOk ext pts → ∀ k, pads s.padControl k = false → (shown.filter fun t => t.kind = k) = pts.filter fun t => t.kind = k) ∧
      ∀ vals, Ordered ext vals → (∀ t ∈ shown, ∀ x, printed s.percentiles t x → vals x) →
        s1.stats = (shown.map (pointText ext s.percentiles s.tags)).flatten := by
  simp only [State.formatStats] at h
  split at h
  · simp at h
  · rename_i pts hi
    split at h
    · simp at h
    · rename_i stats tmp hf
      simp only [Option.some.injEq] at h
      subst h
      obtain ⟨shown, h1, h2⟩ := formatPads_some ext now _ _ _ _ _ _ _ hf
      refine ⟨rfl, pts, shown, hi, ?_, ?_, ?_, ?_⟩
      · have := shown_padded now pts _ _ h1 (fun t ts ht => padding_zero_mem ext pts _ _ _ t ts ht)
        rw [padding_eq, padded_points] at this
        exact this
      · intro off
        rw [padding_off ext pts _ _ _ off, List.map_map] at h1
        have e : pts.map (Pad.point now ∘ Pad.telem) = pts.map some := by
          congr 1
        rw [e] at h1
        have := congrArg (List.filterMap id) h1
        simpa [List.filterMap_map] using this.symm
      · intro hash k off
        have hz := shown_kind now k _ _ h1 (fun t ts ht e => by
          have := padding_zero_on ext pts _ _ _ hash t ts ht
          rw [e, off] at this; simp at this)
        rw [hz, padding_eq, padded_points]
      · rintro vals ⟨rank, hcmp⟩ hv
        obtain ⟨tmp', e, _⟩ := formatPads_ok ext rank vals hcmp now s.percentiles s.tags
          (padding ext pts s.binWidth s.lastSeen s.padControl) shown {} s.stats (fun _ => none)
          ⟨CacheOk.nil .., CacheOk.nil .., CacheOk.nil ..⟩ h1 (fun t ht => ⟨h2 t ht, hv t ht⟩)
        rw [e] at hf
        simp only [Option.some.injEq, Prod.mk.injEq] at hf
        rw [← hf.1, hst]
        simp

end Wavefront
end Verif
