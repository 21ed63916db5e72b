import Verif.Lemmas.Tags
/-!
# Properties C01 and C02: tags
-/
namespace Verif

/-- The maps handed to the tag functions are real hash maps: keys are distinct. -/
def OwnOk (own : Option TagMap) : Prop := ∀ m, own = some m → m.Ok

/-- **C01** Iterating the tags of a point (own tags `own`, absent or present) over
default tags yields every key once; the point's own value wins, defaults fill the
holes; single-key lookup agrees; and the iteration ends (driving it longer yields
nothing more). -/
theorem C01_tag_layering (own : Option TagMap) (defaults : TagMap)
    (hown : OwnOk own) (hd : defaults.Ok) :
    ∃ out : List (Str × Str),
      (∃ N, ∀ n, N ≤ n → (tagIter own defaults).take n = out) ∧
      (out.map Prod.fst).Nodup ∧
      (∀ k v, (k, v) ∈ out ↔
        (∃ m, own = some m ∧ (k, v) ∈ m) ∨
        ((∀ m, own = some m → ∀ v', (k, v') ∉ m) ∧ (k, v) ∈ defaults)) ∧
      (∀ k v, (k, v) ∈ out ↔ getFromTags own k defaults = some v) := by
  refine ⟨(tagIter own defaults).collect, ⟨(tagIter own defaults).fuel,
    fun n hn => TagIter.take_collect own defaults n hn⟩, ?_⟩
  cases own with
  | none =>
    rw [TagIter.collect_none]
    refine ⟨hd, by simp, ?_⟩
    intro k v
    simp only [getFromTags]
    exact (TagMap.get_iff_mem hd).symm
  | some m =>
    have hm : m.Ok := hown m rfl
    rw [TagIter.collect_some _ _ hd]
    refine ⟨?_, ?_, ?_⟩
    · rw [List.map_append, List.nodup_append]
      refine ⟨hm, List.Nodup.sublist (List.filter_sublist.map _) hd, ?_⟩
      intro a ha b hb
      rw [List.mem_map] at hb
      obtain ⟨x, hx, rfl⟩ := hb
      have := (List.mem_filter.1 hx).2
      rintro rfl
      simp_all
    · intro k v
      simp only [List.mem_append, List.mem_filter, List.mem_map, decide_eq_true_eq,
        Option.some.injEq, exists_eq_left', forall_eq']
      constructor
      · rintro (h | ⟨h1, h2⟩)
        · exact .inl h
        · exact .inr ⟨fun v' hv' => h2 ⟨_, hv', rfl⟩, h1⟩
      · rintro (h | ⟨h1, h2⟩)
        · exact .inl h
        · refine .inr ⟨h2, ?_⟩
          rintro ⟨⟨a, b⟩, hx, rfl⟩
          exact h1 b hx
    · intro k v
      simp only [getFromTags, List.mem_append, List.mem_filter, decide_eq_true_eq]
      cases hg : m.get k with
      | none =>
        have hn := TagMap.get_eq_none.1 hg
        simp only
        rw [TagMap.get_iff_mem hd]
        constructor
        · rintro (h | h)
          · exact absurd h (hn v)
          · exact h.1
        · intro h
          refine .inr ⟨h, ?_⟩
          simp only [List.mem_map, Prod.exists, exists_and_right, exists_eq_right, not_exists]
          exact hn
      | some w =>
        have hw := TagMap.mem_of_get hg
        simp only
        constructor
        · rintro (h | h)
          · rw [← TagMap.get_iff_mem hm] at h; rw [← h, hg]
          · exact absurd (List.mem_map.2 ⟨_, hw, rfl⟩) h.2
        · rintro h
          injection h with h
          subst h
          exact .inl hw

/-- Non-vacuity of C01: an overlap of own and default tags. -/
example : OwnOk (some [(['a'], ['1']), (['b'], ['2'])]) ∧
    TagMap.Ok [(['b'], ['9']), (['c'], ['3'])] ∧
    (tagIter (some [(['a'], ['1']), (['b'], ['2'])]) [(['b'], ['9']), (['c'], ['3'])]).collect =
      [(['a'], ['1']), (['b'], ['2']), (['c'], ['3'])] := by
  refine ⟨?_, by decide, by decide⟩
  intro m h; injection h with h; subst h; decide

/-- A tag edit through the API. -/
inductive TagOp where
  | insert (k v : Str)
  | remove (k : Str)
  | overlay (m : TagMap)

/-- The maps passed to overlay are hash maps. -/
def TagOp.Ok : TagOp → Prop
  | .overlay m => m.Ok
  | _ => True

/-- What the implementation does for an edit; the second component is the value
the call returns (overlay returns none). -/
def TagOp.run (own : Option TagMap) : TagOp → Option TagMap × Option Str
  | .insert k v => insertTag own k v
  | .remove k => removeTag own k
  | .overlay m => (overlayTags own m, none)

/-- Abstract tags: a partial function. -/
abbrev SpecTags := Str → Option Str

/-- What an edit means on a partial function. -/
def TagOp.spec (f : SpecTags) : TagOp → SpecTags × Option Str
  | .insert k v => (fun x => if x = k then some v else f x, f k)
  | .remove k => (fun x => if x = k then none else f x, f k)
  | .overlay m => (fun x => match m.find? (fun kv => kv.1 = x) with
      | some kv => some kv.2
      | none => f x, none)

/-- Run a script, collecting the returned values. -/
def runTagOps {S : Type} (step : S → TagOp → S × Option Str) : S → List TagOp → S × List (Option Str)
  | s, [] => (s, [])
  | s, o :: os =>
    let r := step s o
    let rest := runTagOps step r.1 os
    (rest.1, r.2 :: rest.2)

private theorem find_get (m : TagMap) (x : Str) :
    m.get x = (m.find? (fun kv => kv.1 = x)).map Prod.snd := by
  induction m with
  | nil => rfl
  | cons kv m ih =>
    obtain ⟨a, b⟩ := kv
    simp only [TagMap.get, List.find?_cons]
    by_cases h : a = x <;> simp [h, ih]

private theorem step_refines (own : Option TagMap) (o : TagOp) (hown : OwnOk own) (ho : o.Ok) :
    OwnOk (o.run own).1 ∧
    (fun k => getFromTags (o.run own).1 k []) = (o.spec (fun k => getFromTags own k [])).1 ∧
    (o.run own).2 = (o.spec (fun k => getFromTags own k [])).2 := by
  cases own with
  | none =>
    cases o with
    | insert k v =>
      refine ⟨?_, ?_, ?_⟩
      · intro m h; simp only [TagOp.run, insertTag, Option.some.injEq] at h; subst h
        exact TagMap.Ok.nil.set _ _
      · funext x; simp [TagOp.run, insertTag, TagOp.spec, getFromTags, TagMap.get_set]
        by_cases h : k = x
        · simp [h]
        · simp [h, Ne.symm h]
      · simp [TagOp.run, insertTag, TagOp.spec, getFromTags]
    | remove k =>
      refine ⟨?_, ?_, ?_⟩
      · intro m h; simp [TagOp.run, removeTag] at h
      · funext x; simp [TagOp.run, removeTag, TagOp.spec, getFromTags]
      · simp [TagOp.run, removeTag, TagOp.spec, getFromTags]
    | overlay m =>
      refine ⟨?_, ?_, ?_⟩
      · intro m' h
        simp only [TagOp.run, overlayTags] at h
        split at h
        · simp at h
        · injection h with h; subst h; exact ho
      · funext x
        simp only [TagOp.run, overlayTags, TagOp.spec, getFromTags]
        cases m with
        | nil => simp
        | cons d m =>
          simp only [List.isEmpty_cons, Bool.false_eq_true, if_false]
          rw [find_get]
          cases (List.find? (fun kv => decide (kv.1 = x)) (d :: m)) <;> simp
      · simp [TagOp.run, TagOp.spec]
  | some t =>
    have ht : t.Ok := hown t rfl
    cases o with
    | insert k v =>
      refine ⟨?_, ?_, ?_⟩
      · intro m h; simp only [TagOp.run, insertTag, Option.some.injEq] at h; subst h
        exact ht.set _ _
      · funext x
        simp only [TagOp.run, insertTag, TagOp.spec, getFromTags, TagMap.get_set, TagMap.get_nil]
        by_cases h : k = x
        · simp [h]
        · simp [h, Ne.symm h]
      · simp only [TagOp.run, insertTag, TagOp.spec, getFromTags, TagMap.get_nil]
        cases t.get k <;> rfl
    | remove k =>
      refine ⟨?_, ?_, ?_⟩
      · intro m h; simp only [TagOp.run, removeTag, Option.some.injEq] at h; subst h
        exact ht.erase _
      · funext x
        simp only [TagOp.run, removeTag, TagOp.spec, getFromTags, TagMap.get_erase ht, TagMap.get_nil]
        by_cases h : k = x
        · simp [h]
        · simp [h, Ne.symm h]
      · simp only [TagOp.run, removeTag, TagOp.spec, getFromTags, TagMap.get_nil]
        cases t.get k <;> rfl
    | overlay m =>
      refine ⟨?_, ?_, ?_⟩
      · intro m' h; simp only [TagOp.run, overlayTags, Option.some.injEq] at h; subst h
        exact ht.setAll _
      · funext x
        simp only [TagOp.run, overlayTags, TagOp.spec, getFromTags, TagMap.get_nil]
        rw [TagMap.get_setAll _ _ ho, find_get]
        cases (List.find? (fun kv => decide (kv.1 = x)) m) <;> simp
      · simp [TagOp.run, TagOp.spec]

/-- **C02** Every script of tag edits behaves like the same script on a partial
function from keys to values: the values returned along the way agree and so does
every lookup afterwards; the maps stay well formed. -/
theorem C02_tag_edits_are_map_updates (own : Option TagMap) (ops : List TagOp)
    (hown : OwnOk own) (hops : ∀ o ∈ ops, o.Ok) :
    OwnOk (runTagOps TagOp.run own ops).1 ∧
    (∀ k, getFromTags (runTagOps TagOp.run own ops).1 k [] =
      (runTagOps TagOp.spec (fun k => getFromTags own k []) ops).1 k) ∧
    (runTagOps TagOp.run own ops).2 =
      (runTagOps TagOp.spec (fun k => getFromTags own k []) ops).2 := by
  induction ops generalizing own with
  | nil => exact ⟨hown, fun _ => rfl, rfl⟩
  | cons o os ih =>
    have h := step_refines own o hown (hops o (by simp))
    have := ih (o.run own).1 h.1 (fun o' ho' => hops o' (by simp [ho']))
    simp only [runTagOps]
    rw [h.2.1, ← h.2.2] at *
    exact ⟨this.1, this.2.1, by rw [this.2.2]⟩

/-- Non-vacuity of C02. -/
example : OwnOk none ∧ (∀ o ∈ [TagOp.insert ['a'] ['1'], .overlay [(['b'], ['2'])], .remove ['a']], o.Ok) ∧
    runTagOps TagOp.run none [TagOp.insert ['a'] ['1'], .overlay [(['b'], ['2'])], .remove ['a']] =
      (some [(['b'], ['2'])], [none, none, some ['1']]) := by
  refine ⟨by simp [OwnOk], ?_, by decide⟩
  intro o ho
  simp only [List.mem_cons, List.not_mem_nil, or_false] at ho
  rcases ho with rfl | rfl | rfl
  · trivial
  · show TagMap.Ok _; decide
  · trivial

end Verif
