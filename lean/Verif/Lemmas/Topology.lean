import Verif.Spec.Topology
import Verif.Lemmas.Matrix
/-! # Lemmas about the wiring -/
namespace Verif.Topology
open Matrix

/-! ## The matrix before validation -/

private theorem matrix_fold (nodes : List (Str × List Str)) : ∀ a : Adjacency Str, a.Ok → a.Full →
    (∀ x y v, Assoc.get (a.row x) y = some v → v = none) →
    (nodes.foldl (fun a nf => a.addEdges nf.1 nf.2 none) a).Ok ∧
    (nodes.foldl (fun a nf => a.addEdges nf.1 nf.2 none) a).Full ∧
    (∀ x y v, Assoc.get ((nodes.foldl (fun a nf => a.addEdges nf.1 nf.2 none) a).row x) y = some v →
      v = none) ∧
    ∀ x y, (Assoc.get ((nodes.foldl (fun a nf => a.addEdges nf.1 nf.2 none) a).row x) y).isSome ↔
      (Assoc.get (a.row x) y).isSome ∨
        ∃ nf ∈ nodes, (x = nf.1 ∧ y ∈ nf.2) ∨ (y = nf.1 ∧ x ∈ nf.2) := by
  induction nodes with
  | nil => intro a h1 h2 h3; exact ⟨h1, h2, h3, by simp⟩
  | cons nf nodes ih =>
    intro a h1 h2 h3
    obtain ⟨i1, i2, i3, i4⟩ := ih (a.addEdges nf.1 nf.2 none) (h1.addEdges _ _ _) (h2.addEdges _ _ _)
      (by
        intro x y v
        rw [Adjacency.edge_addEdges]
        split
        · simp only [Option.some.injEq]; exact fun e => e.symm
        · exact h3 x y v)
    refine ⟨i1, i2, i3, fun x y => ?_⟩
    simp only [List.foldl_cons, i4 x y, Adjacency.edge_addEdges, List.mem_cons, exists_eq_or_imp]
    by_cases h : (x = nf.1 ∧ y ∈ nf.2) ∨ (y = nf.1 ∧ x ∈ nf.2)
    · simp [h]
    · simp [h]

theorem matrix_ok (c : Config) : (matrix c).Ok := (matrix_fold _ _ Adjacency.ok_new
  (by simp [Adjacency.Full, Assoc.get]) (by simp [Adjacency.row, Assoc.get])).1

theorem matrix_full (c : Config) : (matrix c).Full := (matrix_fold _ _ Adjacency.ok_new
  (by simp [Adjacency.Full, Assoc.get]) (by simp [Adjacency.row, Assoc.get])).2.1

theorem matrix_none (c : Config) (x y : Str) (v : Option Str)
    (h : Assoc.get ((matrix c).row x) y = some v) : v = none :=
  (matrix_fold _ _ Adjacency.ok_new
    (by simp [Adjacency.Full, Assoc.get]) (by simp [Adjacency.row, Assoc.get])).2.2.1 x y v h

theorem matrix_edge (c : Config) (x y : Str) :
    (Assoc.get ((matrix c).row x) y).isSome ↔ Forwards c x y ∨ Forwards c y x := by
  have h := (matrix_fold (c.filters ++ c.natives ++ c.sources) {} Adjacency.ok_new
    (by simp [Adjacency.Full, Assoc.get]) (by simp [Adjacency.row, Assoc.get])).2.2.2 x y
  rw [matrix, h]
  simp only [Adjacency.row, Assoc.get, Option.getD_none, Option.isSome_none, Bool.false_eq_true,
    false_or, Forwards]
  constructor
  · rintro ⟨⟨n, fs⟩, hm, (⟨rfl, hy⟩ | ⟨rfl, hx⟩)⟩
    · exact Or.inl ⟨fs, hm, hy⟩
    · exact Or.inr ⟨fs, hm, hx⟩
  · rintro (⟨fs, hm, hy⟩ | ⟨fs, hm, hx⟩)
    · exact ⟨(x, fs), hm, Or.inl ⟨rfl, hy⟩⟩
    · exact ⟨(y, fs), hm, Or.inr ⟨rfl, hx⟩⟩

/-! ## Populating one node -/

theorem populate_none (senders : List Str) (node : Str) (fwds : List Str) : ∀ a : Adjacency Str,
    populate senders node a fwds = none ↔ ∃ f ∈ fwds, f ∉ senders := by
  induction fwds with
  | nil => intro a; simp [populate]
  | cons f fs ih =>
    intro a
    simp only [populate]
    by_cases h : f ∈ senders
    · simp [h, ih]
    · simp [h]

/-- Populating a node changes only its row. -/
theorem populate_some (senders : List Str) (node : Str) (fwds : List Str) :
    ∀ a a1 : Adjacency Str, a.Ok → a.Full → populate senders node a fwds = some a1 →
    a1.Ok ∧ a1.Full ∧ (∀ x, x ≠ node → Assoc.get a1.edges x = Assoc.get a.edges x) ∧
    (∀ y, Assoc.get (a1.row node) y =
      if y ∈ fwds then some (some y) else Assoc.get (a.row node) y) ∧
    (fwds = [] → a1 = a) := by
  induction fwds with
  | nil =>
    intro a a1 h hf hp
    simp only [populate, Option.some.injEq] at hp
    subst hp
    exact ⟨h, hf, fun _ _ => rfl, by simp, fun _ => rfl⟩
  | cons f fs ih =>
    intro a a1 h hf hp
    simp only [populate] at hp
    by_cases hs : f ∈ senders
    · rw [if_pos hs] at hp
      obtain ⟨i1, i2, i3, i4, -⟩ := ih _ a1 (h.addAsym node f (some f)) (hf.addAsym node f (some f)) hp
      refine ⟨i1, i2, fun x hx => ?_, fun y => ?_, by simp⟩
      · rw [i3 x hx, Adjacency.get_addAsym, if_neg hx]
      · rw [i4 y, Adjacency.edge_addAsym]
        by_cases hy : y ∈ fs
        · simp [hy]
        · by_cases hyf : y = f
          · subst hyf; simp [hy]
          · simp [hy, hyf]
    · rw [if_neg hs] at hp; simp at hp

theorem mem_filterMap_snd {row : Row Str} (h : Assoc.Ok row) (d : Str)
    (hv : ∀ y v, Assoc.get row y = some (some v) → v = y) :
    d ∈ row.filterMap Prod.snd ↔ Assoc.get row d = some (some d) := by
  rw [List.mem_filterMap]
  constructor
  · rintro ⟨⟨k, v⟩, hm, hk⟩
    have hk : v = some d := hk
    subst hk
    have hg := (Assoc.get_iff h k (some d)).2 hm
    have := hv k d hg
    subst this
    exact hg
  · intro hg
    exact ⟨(d, some d), (Assoc.get_iff h d _).1 hg, rfl⟩

theorem nodup_filterMap_snd {row : Row Str} (h : Assoc.Ok row)
    (hv : ∀ y v, Assoc.get row y = some (some v) → v = y) : (row.filterMap Prod.snd).Nodup := by
  have hv' : ∀ y v, (y, some v) ∈ row → v = y := fun y v hm => hv y v ((Assoc.get_iff h y _).2 hm)
  clear hv
  induction row with
  | nil => simp
  | cons kv row ih =>
    obtain ⟨k, v⟩ := kv
    have h' : k ∉ row.map Prod.fst ∧ Assoc.Ok row := by
      simpa [Assoc.Ok] using h
    have ih := ih h'.2 fun y v hm => hv' y v (List.mem_cons_of_mem _ hm)
    cases v with
    | none => simpa using ih
    | some v =>
      have hkv := hv' k v (by simp)
      subst hkv
      show (v :: row.filterMap Prod.snd).Nodup
      rw [List.nodup_cons]
      refine ⟨?_, ih⟩
      rw [List.mem_filterMap]
      rintro ⟨⟨k2, v2⟩, hm, hk⟩
      have hk : v2 = some v := hk
      subst hk
      have := hv' k2 v (List.mem_cons_of_mem _ hm)
      subst this
      exact h'.1 (List.mem_map.2 ⟨_, hm, rfl⟩)

/-! ## Starting sinks -/

theorem startSinks_spec (ss : List Str) : ∀ (a : Adjacency Str) (w : Wiring), ss.Nodup → a.Ok →
    a.Full →
    ∃ a', startSinks a w ss =
        (a', { w with sinks := w.sinks ++ ss.map fun s => (s, (a.row s).map Prod.fst) }) ∧
      a'.Ok ∧ a'.Full ∧ ∀ x, x ∉ ss → Assoc.get a'.edges x = Assoc.get a.edges x := by
  induction ss with
  | nil => intro a w _ h hf; exact ⟨a, by simp [startSinks], h, hf, fun _ _ => rfl⟩
  | cons s ss ih =>
    intro a w hn h hf
    rw [List.nodup_cons] at hn
    obtain ⟨a', e1, e2, e3, e4⟩ := ih (a.pop s).2
      { w with sinks := w.sinks ++ [(s, (a.row s).map Prod.fst)] } hn.2 (h.pop s) (hf.pop s)
    refine ⟨a', ?_, e2, e3, ?_⟩
    · simp only [startSinks, popNodes_eq, e1, List.append_assoc, List.map_cons, List.singleton_append,
        Prod.mk.injEq, true_and]
      congr 2
      simp only [List.cons.injEq, true_and]
      apply List.map_congr_left
      intro x hx
      have hne : x ≠ s := fun e => hn.1 (e ▸ hx)
      simp only [Adjacency.row, Adjacency.get_pop, if_neg hne]
    · intro x hx
      simp only [List.mem_cons, not_or] at hx
      rw [e4 x hx.2, Adjacency.get_pop, if_neg hx.1]

/-! ## Starting filters and sources -/

/-- What a filter is started with, from its row and its forwards. -/
structure FilterOk (row : Row Str) (fwds ups downs : List Str) : Prop where
  upsNodup : ups.Nodup
  upsMem : ∀ n, n ∈ ups ↔ (Assoc.get row n).isSome ∧ n ∉ fwds
  downsNodup : downs.Nodup
  downsMem : ∀ d, d ∈ downs ↔ d ∈ fwds

theorem rowValues {row row1 : Row Str} {fwds : List Str}
    (hnone : ∀ y v, Assoc.get row y = some v → v = none)
    (h4 : ∀ y, Assoc.get row1 y = if y ∈ fwds then some (some y) else Assoc.get row y) :
    (∀ y v, Assoc.get row1 y = some (some v) → v = y) ∧
    (∀ d, Assoc.get row1 d = some (some d) ↔ d ∈ fwds) := by
  refine ⟨fun y v hy => ?_, fun d => ?_⟩
  · rw [h4] at hy
    split at hy
    · simp only [Option.some.injEq] at hy; exact hy.symm
    · exact absurd (hnone y _ hy) (by simp)
  · rw [h4]
    split
    · next h => simp [h]
    · next h =>
      simp only [h, iff_false]
      intro hy
      exact absurd (hnone d _ hy) (by simp)

/-- One filter. -/
theorem filter_step (senders : List Str) (f : Str) (fwds : List Str) (a a1 : Adjacency Str)
    (h : a.Ok) (hf : a.Full) (hnone : ∀ y v, Assoc.get (a.row f) y = some v → v = none)
    (hp : populate senders f a fwds = some a1) :
    (a1.filterNodes f (fun kv => kv.2.isNone) = none ↔ fwds = [] ∧ ∀ y, Assoc.get (a.row f) y = none) ∧
    (∀ ups, a1.filterNodes f (fun kv => kv.2.isNone) = some ups →
      FilterOk (a.row f) fwds ups (a1.popMetadata f).1) ∧
    (a1.popMetadata f).2.Ok ∧ (a1.popMetadata f).2.Full ∧
    ∀ x, x ≠ f → Assoc.get (a1.popMetadata f).2.edges x = Assoc.get a.edges x := by
  obtain ⟨h1, h2, h3, h4, h5⟩ := populate_some senders f fwds a a1 h hf hp
  obtain ⟨hv, hd⟩ := rowValues hnone h4
  refine ⟨?_, ?_, ?_, ?_, ?_⟩
  · simp only [Adjacency.filterNodes, Option.map_eq_none_iff]
    constructor
    · intro hg
      have hrow : a1.row f = [] := by simp [Adjacency.row, hg]
      constructor
      · cases fwds with
        | nil => rfl
        | cons d ds =>
          have := h4 d
          rw [hrow] at this
          simp [Assoc.get] at this
      · intro y
        have := h4 y
        rw [hrow] at this
        simp only [Assoc.get] at this
        split at this
        · simp at this
        · exact this.symm
    · rintro ⟨e, hy⟩
      rw [h5 e]
      cases hg : Assoc.get a.edges f with
      | none => rfl
      | some row =>
        have hrow : a.row f = row := by simp [Adjacency.row, hg]
        cases row with
        | nil => exact absurd hg (hf f)
        | cons kv row =>
          have := hy kv.1
          rw [hrow] at this
          simp [Assoc.get] at this
  · intro ups hu
    simp only [Adjacency.filterNodes, Option.map_eq_some_iff] at hu
    obtain ⟨row, hg, rfl⟩ := hu
    have hrow : a1.row f = row := by simp [Adjacency.row, hg]
    have hok : Assoc.Ok row := hrow ▸ h1.row f
    rw [hrow] at h4 hv hd
    rw [popMetadata_eq, hrow]
    refine ⟨List.Nodup.sublist (List.Sublist.map _ List.filter_sublist) hok, fun n => ?_,
      nodup_filterMap_snd hok hv, fun d => by rw [mem_filterMap_snd hok d hv, hd]⟩
    simp only [List.mem_map, List.mem_filter]
    constructor
    · rintro ⟨⟨k, v⟩, ⟨hm, hn⟩, rfl⟩
      simp only [Option.isNone_iff_eq_none] at hn
      subst hn
      have hg' := (Assoc.get_iff hok k none).2 hm
      rw [h4] at hg'
      split at hg'
      · simp at hg'
      · next hk => exact ⟨by rw [hg']; rfl, hk⟩
    · rintro ⟨hs, hk⟩
      obtain ⟨v, hv'⟩ := Option.isSome_iff_exists.1 hs
      have hvn := hnone n v hv'
      subst hvn
      have hg' : Assoc.get row n = some none := by rw [h4, if_neg hk, hv']
      exact ⟨(n, none), ⟨(Assoc.get_iff hok n _).1 hg', rfl⟩, rfl⟩
  · rw [popMetadata_eq]; exact h1.pop f
  · rw [popMetadata_eq]; exact h2.pop f
  · intro x hx
    rw [popMetadata_eq, Adjacency.get_pop, if_neg hx, h3 x hx]

/-- The rows of the nodes still to be started are those of the original matrix. -/
def Untouched (a0 a : Adjacency Str) (names : List Str) : Prop :=
  ∀ x ∈ names, Assoc.get a.edges x = Assoc.get a0.edges x

theorem Untouched.row {a0 a : Adjacency Str} {names : List Str} (h : Untouched a0 a names) {x : Str}
    (hx : x ∈ names) : a.row x = a0.row x := by
  simp only [Adjacency.row, h x hx]

theorem startFilters_ok (senders : List Str) (a0 : Adjacency Str)
    (hnone : ∀ x y v, Assoc.get (a0.row x) y = some v → v = none)
    (rest : List Str) (fs : List (Str × List Str)) : ∀ (a : Adjacency Str) (w : Wiring),
    a.Ok → a.Full → (fs.map Prod.fst ++ rest).Nodup → Untouched a0 a (fs.map Prod.fst ++ rest) →
    ∀ a' w', startFilters senders a w fs = .ok (a', w') →
    ∃ out, w' = { w with filters := w.filters ++ out } ∧
        out.map (·.1) = fs.map Prod.fst ∧
        (∀ f ups downs, (f, ups, downs) ∈ out →
          ∃ fwds, (f, fwds) ∈ fs ∧ FilterOk (a0.row f) fwds ups downs) ∧
        a'.Ok ∧ a'.Full ∧ Untouched a0 a' rest := by
  induction fs with
  | nil =>
    intro a w h hf _ hu a' w' he
    simp only [startFilters, Except.ok.injEq, Prod.mk.injEq] at he
    obtain ⟨rfl, rfl⟩ := he
    exact ⟨[], by simp, rfl, by simp, h, hf, hu⟩
  | cons ff fs ih =>
    obtain ⟨f, fwds⟩ := ff
    intro a w h hf hn hu a' w' he
    simp only [List.map_cons, List.cons_append, List.nodup_cons] at hn
    simp only [startFilters] at he
    have hrow : a.row f = a0.row f := hu.row (by simp)
    cases hp : populate senders f a fwds with
    | none => rw [hp] at he; simp at he
    | some a1 =>
      rw [hp] at he
      obtain ⟨s1, s2, s3, s4, s5⟩ := filter_step senders f fwds a a1 h hf
        (by rw [hrow]; exact hnone f) hp
      cases hfn : a1.filterNodes f fun kv => kv.2.isNone with
      | none => simp [hfn] at he
      | some ups =>
        simp only [hfn] at he
        have hu2 : Untouched a0 (a1.popMetadata f).2 (fs.map Prod.fst ++ rest) := by
          intro x hx
          have hne : x ≠ f := fun e => hn.1 (e ▸ hx)
          rw [s5 x hne, hu x (by simp only [List.map_cons, List.cons_append, List.mem_cons]; exact Or.inr hx)]
        obtain ⟨out, e1, e2, e3, e4, e5, e6⟩ := ih _ _ s3 s4 hn.2 hu2 a' w' he
        refine ⟨(f, ups, (a1.popMetadata f).1) :: out, by simp [e1], by simp [e2], ?_, e4, e5, e6⟩
        intro g u d hm
        rcases List.mem_cons.1 hm with hm | hm
        · simp only [Prod.mk.injEq] at hm
          obtain ⟨rfl, rfl, rfl⟩ := hm
          exact ⟨fwds, by simp, hrow ▸ s2 _ hfn⟩
        · obtain ⟨x, hx1, hx2⟩ := e3 g u d hm
          exact ⟨x, List.mem_cons_of_mem _ hx1, hx2⟩

/-- A filter that cannot be started. -/
def FilterBad (senders : List Str) (a0 : Adjacency Str) (ff : Str × List Str) (why : Stop) : Prop :=
  (why = .exit 0 ∧ ∃ d ∈ ff.2, d ∉ senders) ∨
    (why = .panic ∧ ff.2 = [] ∧ ∀ y, Assoc.get (a0.row ff.1) y = none)

theorem startFilters_error (senders : List Str) (a0 : Adjacency Str)
    (hnone : ∀ x y v, Assoc.get (a0.row x) y = some v → v = none)
    (fs : List (Str × List Str)) : ∀ (a : Adjacency Str) (w : Wiring),
    a.Ok → a.Full → (fs.map Prod.fst).Nodup → Untouched a0 a (fs.map Prod.fst) →
    (∃ r, startFilters senders a w fs = .ok r ∧ ∀ ff ∈ fs, ∀ why, ¬ FilterBad senders a0 ff why) ∨
    ∃ pre ff suf why, fs = pre ++ ff :: suf ∧
      startFilters senders a w fs = .error ⟨why, w.sinks.map (·.1) ++ (w.filters.map (·.1) ++ pre.map (·.1)) ++ w.sources.map (·.1)⟩ ∧
      (∀ ff ∈ pre, ∀ why, ¬ FilterBad senders a0 ff why) ∧ FilterBad senders a0 ff why := by
  induction fs with
  | nil => intro a w _ _ _ _; exact Or.inl ⟨_, rfl, by simp⟩
  | cons ff fs ih =>
    obtain ⟨f, fwds⟩ := ff
    intro a w h hf hn hu
    simp only [List.map_cons, List.nodup_cons] at hn
    have hrow : a.row f = a0.row f := hu.row (by simp)
    simp only [startFilters]
    cases hp : populate senders f a fwds with
    | none =>
      refine Or.inr ⟨[], (f, fwds), fs, .exit 0, rfl, by simp [Wiring.started], by simp, ?_⟩
      exact Or.inl ⟨rfl, (populate_none senders f fwds a).1 hp⟩
    | some a1 =>
      obtain ⟨s1, s2, s3, s4, s5⟩ := filter_step senders f fwds a a1 h hf
        (by rw [hrow]; exact hnone f) hp
      have hgood : ¬ ∃ d ∈ fwds, d ∉ senders := by
        rw [← populate_none senders f fwds a, hp]; simp
      cases hfn : a1.filterNodes f fun kv => kv.2.isNone with
      | none =>
        refine Or.inr ⟨[], (f, fwds), fs, .panic, rfl, by simp [Wiring.started, hfn], by simp, ?_⟩
        exact Or.inr ⟨rfl, hrow ▸ s1.1 hfn⟩
      | some ups =>
        have hnb : ∀ why, ¬ FilterBad senders a0 (f, fwds) why := by
          rintro why (⟨-, hb⟩ | ⟨-, hb⟩)
          · exact hgood hb
          · rw [← hrow] at hb
            have := s1.2 hb
            rw [hfn] at this
            simp at this
        have hu2 : Untouched a0 (a1.popMetadata f).2 (fs.map Prod.fst) := by
          intro x hx
          have hne : x ≠ f := fun e => hn.1 (e ▸ hx)
          rw [s5 x hne, hu x (by simp only [List.map_cons, List.mem_cons]; exact Or.inr hx)]
        rcases ih (a1.popMetadata f).2
          { w with filters := w.filters ++ [(f, ups, (a1.popMetadata f).1)] } s3 s4 hn.2 hu2 with
          ⟨r, e1, e2⟩ | ⟨pre, ff, suf, why, e1, e2, e3, e4⟩
        · refine Or.inl ⟨r, by simp only [hfn]; exact e1, ?_⟩
          intro ff hff
          rcases List.mem_cons.1 hff with rfl | hff
          · exact hnb
          · exact e2 ff hff
        · refine Or.inr ⟨(f, fwds) :: pre, ff, suf, why, by simp [e1], ?_, ?_, e4⟩
          · simp only [hfn, e2]; simp
          · intro g hg
            rcases List.mem_cons.1 hg with rfl | hg
            · exact hnb
            · exact e3 g hg

theorem mem_insertAll (xs : List Str) : ∀ (set : List Str) (x : Str),
    x ∈ insertAll set xs ↔ x ∈ set ∨ x ∈ xs := by
  induction xs with
  | nil => intro set x; simp [insertAll]
  | cons y ys ih =>
    intro set x
    simp only [insertAll, ih, List.mem_cons]
    by_cases hy : y ∈ set
    · rw [if_pos hy]
      constructor
      · rintro (h | h)
        · exact Or.inl h
        · exact Or.inr (Or.inr h)
      · rintro (h | rfl | h)
        · exact Or.inl h
        · exact Or.inl hy
        · exact Or.inr h
    · rw [if_neg hy]; simp [or_assoc]

theorem nodup_insertAll (xs : List Str) : ∀ set : List Str, set.Nodup → (insertAll set xs).Nodup := by
  induction xs with
  | nil => intro set h; exact h
  | cons y ys ih =>
    intro set h
    simp only [insertAll]
    by_cases hy : y ∈ set
    · rw [if_pos hy]; exact ih set h
    · rw [if_neg hy]
      refine ih _ ?_
      rw [List.nodup_append]
      refine ⟨h, by simp, ?_⟩
      intro a ha b hb e
      simp only [List.mem_singleton] at hb
      subst hb; subst e; exact hy ha

theorem startSources_ok (senders : List Str) (a0 : Adjacency Str)
    (hnone : ∀ x y v, Assoc.get (a0.row x) y = some v → v = none)
    (ss : List (Str × List Str)) : ∀ (a : Adjacency Str) (w : Wiring),
    a.Ok → a.Full → (ss.map Prod.fst).Nodup → Untouched a0 a (ss.map Prod.fst) → w.flush.Nodup →
    ∀ a' w', startSources senders a w ss = .ok (a', w') →
    ∃ out fl, w' = { w with sources := w.sources ++ out, flush := fl } ∧
        out.map (·.1) = ss.map Prod.fst ∧
        (∀ s downs, (s, downs) ∈ out → downs.Nodup ∧ ∃ fwds, (s, fwds) ∈ ss ∧ ∀ d, d ∈ downs ↔ d ∈ fwds) ∧
        fl.Nodup ∧ ∀ d, d ∈ fl ↔ d ∈ w.flush ∨ ∃ s fwds, (s, fwds) ∈ ss ∧ d ∈ fwds := by
  induction ss with
  | nil =>
    intro a w h hf _ hu hfl a' w' he
    simp only [startSources, Except.ok.injEq, Prod.mk.injEq] at he
    obtain ⟨rfl, rfl⟩ := he
    exact ⟨[], w.flush, by simp, rfl, by simp, hfl, by simp⟩
  | cons ff fs ih =>
    obtain ⟨f, fwds⟩ := ff
    intro a w h hf hn hu hfl a' w' he
    simp only [List.map_cons, List.nodup_cons] at hn
    simp only [startSources] at he
    have hrow : a.row f = a0.row f := hu.row (by simp)
    cases hp : populate senders f a fwds with
    | none => rw [hp] at he; simp at he
    | some a1 =>
      simp only [hp] at he
      obtain ⟨p1, p2, p3, p4, -⟩ := populate_some senders f fwds a a1 h hf hp
      obtain ⟨hv, hd⟩ := rowValues (by rw [hrow]; exact hnone f) p4
      have hu2 : Untouched a0 (a1.popMetadata f).2 (fs.map Prod.fst) := by
        intro x hx
        have hne : x ≠ f := fun e => hn.1 (e ▸ hx)
        rw [popMetadata_eq, Adjacency.get_pop, if_neg hne, p3 x hne,
          hu x (by simp only [List.map_cons, List.mem_cons]; exact Or.inr hx)]
      obtain ⟨out, fl, e1, e2, e3, e4, e5⟩ := ih (a1.popMetadata f).2
        { w with sources := w.sources ++ [(f, (a1.popMetadata f).1)], flush := insertAll w.flush fwds }
        (by rw [popMetadata_eq]; exact p1.pop f)
        (by rw [popMetadata_eq]; exact p2.pop f) hn.2 hu2 (nodup_insertAll _ _ hfl) a' w' he
      refine ⟨(f, (a1.popMetadata f).1) :: out, fl, by simp [e1], by simp [e2], ?_, e4, ?_⟩
      · intro s downs hm
        rcases List.mem_cons.1 hm with hm | hm
        · simp only [Prod.mk.injEq] at hm
          obtain ⟨rfl, rfl⟩ := hm
          rw [popMetadata_eq]
          exact ⟨nodup_filterMap_snd (p1.row _) hv, fwds, by simp, fun d => by
            rw [mem_filterMap_snd (p1.row _) d hv, hd]⟩
        · obtain ⟨q1, x, hx1, hx2⟩ := e3 s downs hm
          exact ⟨q1, x, List.mem_cons_of_mem _ hx1, hx2⟩
      · intro d
        simp only [e5 d, mem_insertAll, List.mem_cons, Prod.mk.injEq]
        constructor
        · rintro ((h | h) | ⟨s, x, hm, hx⟩)
          · exact Or.inl h
          · exact Or.inr ⟨f, fwds, Or.inl ⟨rfl, rfl⟩, h⟩
          · exact Or.inr ⟨s, x, Or.inr hm, hx⟩
        · rintro (h | ⟨s, x, (⟨rfl, rfl⟩ | hm), hx⟩)
          · exact Or.inl (Or.inl h)
          · exact Or.inl (Or.inr hx)
          · exact Or.inr ⟨s, x, hm, hx⟩

theorem startSources_error (senders : List Str) (ss : List (Str × List Str)) :
    ∀ (a : Adjacency Str) (w : Wiring),
    (∃ r, startSources senders a w ss = .ok r ∧ ∀ s fwds, (s, fwds) ∈ ss → ∀ d ∈ fwds, d ∈ senders) ∨
    ∃ pre s fwds suf, ss = pre ++ (s, fwds) :: suf ∧
      startSources senders a w ss = .error ⟨.exit 0, w.started ++ pre.map (·.1)⟩ ∧
      (∀ s' fwds', (s', fwds') ∈ pre → ∀ d ∈ fwds', d ∈ senders) ∧ ∃ d ∈ fwds, d ∉ senders := by
  induction ss with
  | nil => intro a w; exact Or.inl ⟨_, rfl, by simp⟩
  | cons ff fs ih =>
    obtain ⟨f, fwds⟩ := ff
    intro a w
    simp only [startSources]
    cases hp : populate senders f a fwds with
    | none =>
      exact Or.inr ⟨[], f, fwds, fs, rfl, by simp, by simp, (populate_none senders f fwds a).1 hp⟩
    | some a1 =>
      have hgood : ∀ d ∈ fwds, d ∈ senders := by
        intro d hd
        apply Classical.byContradiction
        intro hds
        have := (populate_none senders f fwds a).2 ⟨d, hd, hds⟩
        rw [hp] at this; simp at this
      rcases ih (a1.popMetadata f).2
        { w with sources := w.sources ++ [(f, (a1.popMetadata f).1)], flush := insertAll w.flush fwds } with
        ⟨r, e1, e2⟩ | ⟨pre, s, x, suf, e1, e2, e3, e4⟩
      · refine Or.inl ⟨r, e1, ?_⟩
        intro s x hm
        rcases List.mem_cons.1 hm with hm | hm
        · simp only [Prod.mk.injEq] at hm
          obtain ⟨rfl, rfl⟩ := hm
          exact hgood
        · exact e2 s x hm
      · refine Or.inr ⟨(f, fwds) :: pre, s, x, suf, by simp [e1], ?_, ?_, e4⟩
        · simp only [e2]; simp [Wiring.started]
        · intro s' x' hm
          rcases List.mem_cons.1 hm with hm | hm
          · simp only [Prod.mk.injEq] at hm
            obtain ⟨rfl, rfl⟩ := hm
            exact hgood
          · exact e3 s' x' hm

/-! ## Validation -/

theorem topology_get (c : Config) (x : Str) :
    (Assoc.get (topology c) x).isSome ↔ HasChannel c x ∨ ∃ fs, (x, fs) ∈ c.sources := by
  have key : ∀ (l m : List (Str × List Str)),
      (Assoc.get (l.foldl (fun (m : List (Str × List Str)) (kf : Str × List Str) => Assoc.put m kf.1 kf.2) m) x).isSome ↔
        (Assoc.get m x).isSome ∨ ∃ fs, (x, fs) ∈ l := by
    intro l
    induction l with
    | nil => intro m; simp
    | cons kf l ih =>
      intro m
      obtain ⟨k, fs⟩ := kf
      simp only [List.foldl_cons, ih, Assoc.get_put, List.mem_cons, Prod.mk.injEq]
      by_cases hk : x = k
      · subst hk; simp
      · simp [hk]
  rw [topology, key]
  simp [Assoc.get, HasChannel, or_assoc]
  constructor
  · rintro ⟨fs, ⟨a, ha, rfl, -⟩ | h | h⟩
    · exact Or.inl ha
    · exact Or.inr (Or.inl ⟨fs, h⟩)
    · exact Or.inr (Or.inr ⟨fs, h⟩)
  · rintro (h | ⟨fs, h⟩ | ⟨fs, h⟩)
    · exact ⟨[], Or.inl ⟨x, h, rfl, rfl⟩⟩
    · exact ⟨fs, Or.inr (Or.inl h)⟩
    · exact ⟨fs, Or.inr (Or.inr h)⟩

theorem topology_mem (c : Config) (hd : Distinct c) (x : Str) (fs : List Str) :
    (x, fs) ∈ topology c ↔ (x ∈ c.sinks ∧ fs = []) ∨ (x, fs) ∈ c.filters ∨ (x, fs) ∈ c.sources := by
  have key : ∀ (l m : List (Str × List Str)), (m.map Prod.fst ++ l.map Prod.fst).Nodup →
      l.foldl (fun (m : List (Str × List Str)) (kf : Str × List Str) => Assoc.put m kf.1 kf.2) m = m ++ l := by
    intro l
    induction l with
    | nil => intro m _; simp
    | cons kf l ih =>
      intro m hn
      obtain ⟨k, fs⟩ := kf
      have hput : ∀ m : List (Str × List Str), k ∉ m.map Prod.fst → Assoc.put m k fs = m ++ [(k, fs)] := by
        intro m
        induction m with
        | nil => intro _; rfl
        | cons kv m ih =>
          obtain ⟨k2, v⟩ := kv
          intro h
          simp only [List.map_cons, List.mem_cons, not_or] at h
          simp only [Assoc.put, if_neg (Ne.symm h.1), ih h.2, List.cons_append]
      have hk : k ∉ m.map Prod.fst := by
        intro hk
        rw [List.nodup_append] at hn
        exact hn.2.2 k hk k (by simp) rfl
      simp only [List.foldl_cons, hput m hk]
      rw [ih (m ++ [(k, fs)]) (by simpa using hn)]
      simp
  have hn : ((c.sinks.map (fun s => (s, ([] : List Str))) ++ c.filters ++ c.sources).map Prod.fst).Nodup := by
    refine List.Nodup.sublist ?_ hd
    simp only [List.map_append, List.map_map, List.append_assoc]
    refine List.Sublist.append (by simp [Function.comp_def]) (List.Sublist.append_left ?_ _)
    exact List.sublist_append_right _ _
  rw [topology, key _ [] (by simpa using hn)]
  simp only [List.nil_append, List.mem_append, List.mem_map, Prod.mk.injEq, or_assoc]
  constructor
  · rintro (⟨a, ha, rfl, rfl⟩ | h)
    · exact Or.inl ⟨ha, rfl⟩
    · exact Or.inr h
  · rintro (⟨ha, rfl⟩ | h)
    · exact Or.inl ⟨x, ha, rfl, rfl⟩
    · exact Or.inr h

theorem validate_iff (c : Config) (hd : Distinct c) :
    validate c = true ↔ ∀ n fs, (n, fs) ∈ c.filters ++ c.sources → ∀ x ∈ fs,
      HasChannel c x ∨ ∃ fs, (x, fs) ∈ c.sources := by
  simp only [validate, List.all_eq_true, topology_get c]
  constructor
  · intro h n fs hm x hx
    exact h (n, fs) ((topology_mem c hd n fs).2 (Or.inr (List.mem_append.1 hm))) x hx
  · intro h kf hm x hx
    obtain ⟨n, fs⟩ := kf
    rcases (topology_mem c hd n fs).1 hm with ⟨_, rfl⟩ | hm
    · simp at hx
    · exact h n fs (List.mem_append.2 hm) x hx

theorem mem_senders (c : Config) (x : Str) : x ∈ senders c ↔ HasChannel c x := by
  simp [senders, HasChannel]

/-! ## The whole wiring -/

theorem forwards_iff {c : Config} (hd : Distinct c) {n : Str} {fs : List Str}
    (hm : (n, fs) ∈ c.filters ++ c.natives ++ c.sources) (x : Str) : Forwards c n x ↔ x ∈ fs := by
  constructor
  · rintro ⟨fs', hm', hx⟩
    have hn : ((c.filters ++ c.natives ++ c.sources).map (·.1)).Nodup :=
      List.Nodup.sublist (List.sublist_append_right _ _) hd
    have h1 := (Assoc.get_iff (m := c.filters ++ c.natives ++ c.sources) hn n fs).2 hm
    have h2 := (Assoc.get_iff (m := c.filters ++ c.natives ++ c.sources) hn n fs').2 hm'
    rw [h1] at h2
    simp only [Option.some.injEq] at h2
    exact h2 ▸ hx
  · exact fun hx => ⟨fs, hm, hx⟩

theorem sink_not_node {c : Config} (hd : Distinct c) {s : Str} (hs : s ∈ c.sinks) (fs : List Str) :
    (s, fs) ∉ c.filters ++ c.natives ++ c.sources := by
  intro hm
  rw [Distinct, List.nodup_append] at hd
  exact hd.2.2 s hs s (List.mem_map.2 ⟨_, hm, rfl⟩) rfl

theorem sink_no_forwards {c : Config} (hd : Distinct c) {s : Str} (hs : s ∈ c.sinks) (x : Str) :
    ¬ Forwards c s x := fun ⟨fs, hm, _⟩ => sink_not_node hd hs fs hm

/-- The stages of a start-up that passed validation. -/
theorem wire_stages (c : Config) (hd : Distinct c) : ∃ a,
    startSinks (matrix c) {} c.sinks =
      (a, { sinks := c.sinks.map fun s => (s, ((matrix c).row s).map Prod.fst) }) ∧
    a.Ok ∧ a.Full ∧
    Untouched (matrix c) a (c.filters.map Prod.fst ++ (c.natives ++ c.sources).map Prod.fst) ∧
    (c.filters.map Prod.fst ++ (c.natives ++ c.sources).map Prod.fst).Nodup := by
  have hn := hd
  rw [Distinct, List.nodup_append] at hn
  obtain ⟨a, e1, e2, e3, e4⟩ := startSinks_spec c.sinks (matrix c) {} hn.1 (matrix_ok c) (matrix_full c)
  refine ⟨a, by simpa using e1, e2, e3, ?_, ?_⟩
  · intro x hx
    refine e4 x fun hs => hn.2.2 x hs x ?_ rfl
    simp only [List.map_append, List.append_assoc] at hx ⊢
    exact hx
  · simpa using hn.2.1

theorem wire_ok (c : Config) (hd : Distinct c) (w : Wiring) (hw : wire c = .ok w) :
    w.sinks = c.sinks.map (fun s => (s, ((matrix c).row s).map Prod.fst)) ∧
    w.filters.map (·.1) = c.filters.map Prod.fst ∧
    w.sources.map (·.1) = (c.natives ++ c.sources).map Prod.fst ∧
    (∀ f ups downs, (f, ups, downs) ∈ w.filters →
      ∃ fwds, (f, fwds) ∈ c.filters ∧ FilterOk ((matrix c).row f) fwds ups downs) ∧
    (∀ s downs, (s, downs) ∈ w.sources → downs.Nodup ∧
      ∃ fwds, (s, fwds) ∈ c.natives ++ c.sources ∧ ∀ d, d ∈ downs ↔ d ∈ fwds) ∧
    w.flush.Nodup ∧ ∀ d, d ∈ w.flush ↔ ∃ s fwds, (s, fwds) ∈ c.natives ++ c.sources ∧ d ∈ fwds := by
  obtain ⟨a, e1, e2, e3, e4, e5⟩ := wire_stages c hd
  simp only [wire] at hw
  by_cases hv : validate c = true
  · rw [if_pos hv, e1] at hw
    simp only at hw
    cases hf : startFilters (senders c) a
        { sinks := c.sinks.map fun s => (s, ((matrix c).row s).map Prod.fst) } c.filters with
    | error e => simp [hf] at hw
    | ok r =>
      obtain ⟨a2, w2⟩ := r
      simp only [hf] at hw
      obtain ⟨out, f1, f2, f3, f4, f5, f6⟩ := startFilters_ok (senders c) (matrix c) (matrix_none c)
        ((c.natives ++ c.sources).map Prod.fst) c.filters _ _ e2 e3 e5 e4 a2 w2 hf
      cases hs : startSources (senders c) a2 w2 (c.natives ++ c.sources) with
      | error e => simp [hs] at hw
      | ok r =>
        obtain ⟨a3, w3⟩ := r
        simp only [hs, Except.ok.injEq] at hw
        subst hw
        have hn2 := e5
        rw [List.nodup_append] at hn2
        obtain ⟨out2, fl, s1, s2, s3, s4, s5⟩ := startSources_ok (senders c) (matrix c) (matrix_none c)
          (c.natives ++ c.sources) a2 w2 f4 f5 hn2.2.1 f6 (by subst f1; simp) a3 w3 hs
        subst s1; subst f1
        refine ⟨rfl, by simpa using f2, by simpa using s2, ?_, ?_, s4, ?_⟩
        · intro f ups downs hm; exact f3 f ups downs (by simpa using hm)
        · intro s downs hm; exact s3 s downs (by simpa using hm)
        · intro d; rw [s5 d]; simp
  · rw [if_neg hv] at hw; simp at hw

/-- A node that forwards to something without a channel. -/
def NodeBad (c : Config) (n : Str) : Prop := ∃ x, Forwards c n x ∧ ¬ HasChannel c x

/-- A filter that nothing forwards to and that forwards to nothing. -/
def Isolated (c : Config) (f : Str) : Prop := (f, []) ∈ c.filters ∧ ∀ n, ¬ Forwards c n f

theorem filterBad_iff (c : Config) (hd : Distinct c) (f : Str) (fwds : List Str)
    (hm : (f, fwds) ∈ c.filters) :
    (∃ why, FilterBad (senders c) (matrix c) (f, fwds) why) ↔ NodeBad c f ∨ Isolated c f := by
  have hm' : (f, fwds) ∈ c.filters ++ c.natives ++ c.sources := by simp [hm]
  have hfw := forwards_iff hd hm'
  constructor
  · rintro ⟨why, ⟨-, x, hx, hs⟩ | ⟨-, he, hrow⟩⟩
    · exact Or.inl ⟨x, (hfw x).2 hx, fun h => hs ((mem_senders c x).2 h)⟩
    · have he : fwds = [] := he
      subst he
      refine Or.inr ⟨hm, fun n hn => ?_⟩
      have := (matrix_edge c f n).2 (Or.inr hn)
      rw [hrow n] at this
      simp at this
  · rintro (⟨x, hx, hs⟩ | ⟨hm2, hn⟩)
    · exact ⟨.exit 0, Or.inl ⟨rfl, x, (hfw x).1 hx, fun h => hs ((mem_senders c x).1 h)⟩⟩
    · have he : fwds = [] := by
        have h1 := forwards_iff hd (n := f) (fs := []) (by simp [hm2])
        cases fwds with
        | nil => rfl
        | cons d ds => exact absurd ((h1 d).1 ((hfw d).2 (by simp))) (by simp)
      refine ⟨.panic, Or.inr ⟨rfl, he, fun y => ?_⟩⟩
      cases hg : Assoc.get ((matrix c).row f) y with
      | none => rfl
      | some v =>
        rcases (matrix_edge c f y).1 (by rw [hg]; rfl) with h | h
        · have := (hfw y).1 h
          subst he
          simp at this
        · exact absurd h (hn y)

theorem nodeBad_iff (c : Config) (hd : Distinct c) {n : Str} {fs : List Str}
    (hm : (n, fs) ∈ c.filters ++ c.natives ++ c.sources) :
    NodeBad c n ↔ ∃ x ∈ fs, x ∉ senders c := by
  simp only [NodeBad, forwards_iff hd hm, mem_senders]

theorem fst_unique {c : Config} (hd : Distinct c) {n : Str} {f1 f2 : List Str}
    (h1 : (n, f1) ∈ c.filters ++ c.natives ++ c.sources)
    (h2 : (n, f2) ∈ c.filters ++ c.natives ++ c.sources) : f1 = f2 := by
  have hn : ((c.filters ++ c.natives ++ c.sources).map (·.1)).Nodup :=
    List.Nodup.sublist (List.sublist_append_right _ _) hd
  have e1 := (Assoc.get_iff (m := c.filters ++ c.natives ++ c.sources) hn n f1).2 h1
  have e2 := (Assoc.get_iff (m := c.filters ++ c.natives ++ c.sources) hn n f2).2 h2
  rw [e1] at e2
  simpa using e2

/-- A node that cannot be started, and does not get started. -/
theorem wire_error (c : Config) (hd : Distinct c) :
    ((∃ w, wire c = .ok w) ∧ ∀ n, ¬ (NodeBad c n ∨ Isolated c n)) ∨
    ∃ e, wire c = .error e ∧ (∃ n, NodeBad c n ∨ Isolated c n) ∧
      ∀ n, (NodeBad c n ∨ Isolated c n) → n ∉ e.started := by
  obtain ⟨a, e1, e2, e3, e4, e5⟩ := wire_stages c hd
  have hn := e5
  rw [List.nodup_append] at hn
  have hnode : ∀ n, NodeBad c n ∨ Isolated c n → ∃ fs, (n, fs) ∈ c.filters ++ c.natives ++ c.sources := by
    rintro n (⟨x, ⟨fs, hm, -⟩, -⟩ | ⟨hm, -⟩)
    · exact ⟨fs, hm⟩
    · exact ⟨[], by simp [hm]⟩
  have hsink : ∀ n, NodeBad c n ∨ Isolated c n → n ∉ c.sinks := fun n hb hs =>
    let ⟨fs, hm⟩ := hnode n hb
    sink_not_node hd hs fs hm
  have hgoodf : ∀ f fwds, (f, fwds) ∈ c.filters →
      (∀ why, ¬ FilterBad (senders c) (matrix c) (f, fwds) why) → ¬ (NodeBad c f ∨ Isolated c f) := by
    intro f fwds hm hg hb
    obtain ⟨why, hw⟩ := (filterBad_iff c hd f fwds hm).2 hb
    exact hg why hw
  have hgoods : ∀ s fwds, (s, fwds) ∈ c.natives ++ c.sources → (∀ d ∈ fwds, d ∈ senders c) →
      ¬ (NodeBad c s ∨ Isolated c s) := by
    intro s fwds hm hg hb
    have hm' : (s, fwds) ∈ c.filters ++ c.natives ++ c.sources := by
      rw [List.append_assoc]; exact List.mem_append_right _ hm
    rcases hb with hb | ⟨hb, -⟩
    · obtain ⟨x, hx, hs⟩ := (nodeBad_iff c hd hm').1 hb
      exact hs (hg x hx)
    · exact hn.2.2 s (List.mem_map.2 ⟨_, hb, rfl⟩) s (List.mem_map.2 ⟨_, hm, rfl⟩) rfl
  by_cases hv : validate c = true
  · simp only [wire, if_pos hv, e1]
    rcases startFilters_error (senders c) (matrix c) (matrix_none c) c.filters a
        { sinks := c.sinks.map fun s => (s, ((matrix c).row s).map Prod.fst) } e2 e3 hn.1
        (fun x hx => e4 x (List.mem_append_left _ hx)) with
      ⟨⟨a2, w2⟩, f1, f2⟩ | ⟨pre, ⟨f, fwds⟩, suf, why, f1, f2, f3, f4⟩
    · simp only [f1]
      obtain ⟨out, g1, g2, -, -, -, -⟩ := startFilters_ok (senders c) (matrix c) (matrix_none c)
        ((c.natives ++ c.sources).map Prod.fst) c.filters _ _ e2 e3 e5 e4 a2 w2 f1
      rcases startSources_error (senders c) (c.natives ++ c.sources) a2 w2 with
        ⟨⟨a3, w3⟩, s1, s2⟩ | ⟨pre, s, fwds, suf, s1, s2, s3, s4⟩
      · refine Or.inl ⟨⟨w3, by simp only [s1]⟩, fun n hb => ?_⟩
        obtain ⟨fs, hm⟩ := hnode n hb
        rw [List.append_assoc, List.mem_append] at hm
        rcases hm with hm | hm
        · exact hgoodf n fs hm (f2 _ hm) hb
        · exact hgoods n fs hm (s2 n fs hm) hb
      · refine Or.inr ⟨⟨.exit 0, w2.started ++ pre.map (·.1)⟩, by simp only [s2], ⟨s, Or.inl ?_⟩, ?_⟩
        · have hm' : (s, fwds) ∈ c.filters ++ c.natives ++ c.sources := by
            rw [List.append_assoc, s1]; simp
          exact (nodeBad_iff c hd hm').2 s4
        · intro n hb hst
          subst g1
          simp only [Wiring.started, List.map_map, List.map_nil, List.append_nil, List.nil_append,
            List.mem_append, g2] at hst
          rcases hst with (hst | hst) | hst
          · exact hsink n hb (by simpa [Function.comp_def] using hst)
          · obtain ⟨⟨f, fs⟩, hm, rfl⟩ := List.mem_map.1 hst
            exact hgoodf f fs hm (f2 _ hm) hb
          · obtain ⟨⟨s', fs⟩, hm, rfl⟩ := List.mem_map.1 hst
            exact hgoods s' fs (by rw [s1]; exact List.mem_append_left _ hm) (s3 s' fs hm) hb
    · simp only [f2]
      have hmf : (f, fwds) ∈ c.filters := by rw [f1]; simp
      refine Or.inr ⟨_, rfl, ⟨f, (filterBad_iff c hd f fwds hmf).1 ⟨why, f4⟩⟩, ?_⟩
      intro n hb hst
      simp only [List.map_map, List.map_nil, List.append_nil, List.nil_append, List.mem_append] at hst
      rcases hst with hst | hst
      · exact hsink n hb (by simpa [Function.comp_def] using hst)
      · obtain ⟨⟨g, fs⟩, hm, rfl⟩ := List.mem_map.1 hst
        exact hgoodf g fs (by rw [f1]; exact List.mem_append_left _ hm) (f3 _ hm) hb
  · simp only [wire, if_neg hv]
    refine Or.inr ⟨_, rfl, ?_, by simp⟩
    rw [validate_iff c hd] at hv
    simp only [Classical.not_forall, not_or] at hv
    obtain ⟨n, fs, hm, x, hx, hc, -⟩ := hv
    refine ⟨n, Or.inl ⟨x, ⟨fs, ?_, hx⟩, hc⟩⟩
    simp only [List.mem_append] at hm ⊢
    rcases hm with h | h
    · exact Or.inl (Or.inl h)
    · exact Or.inr h

end Verif.Topology
