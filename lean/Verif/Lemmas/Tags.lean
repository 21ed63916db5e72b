import Verif.Model.Tags
/-! # Lemmas about tag maps and tag iteration -/
namespace Verif
namespace TagMap

theorem get_eq_some_of_mem {m : TagMap} (h : m.Ok) {k v : Str} (hm : (k, v) ∈ m) :
    m.get k = some v := by
  induction m with
  | nil => simp at hm
  | cons kv m ih =>
    obtain ⟨a, b⟩ := kv
    simp only [Ok, List.map_cons, List.nodup_cons, List.mem_map] at h
    rcases List.mem_cons.1 hm with h1 | h1
    · injection h1 with h1 h2; subst h1 h2; simp [get]
    · have : a ≠ k := by
        rintro rfl; exact h.1 ⟨(a, v), h1, rfl⟩
      simp only [get, if_neg this]
      exact ih h.2 h1

theorem mem_of_get {m : TagMap} {k v : Str} (h : m.get k = some v) : (k, v) ∈ m := by
  induction m with
  | nil => simp [get] at h
  | cons kv m ih =>
    obtain ⟨a, b⟩ := kv
    simp only [get] at h
    split at h
    · next e => subst e; simp_all
    · exact List.mem_cons_of_mem _ (ih h)

theorem get_iff_mem {m : TagMap} (h : m.Ok) {k v : Str} : m.get k = some v ↔ (k, v) ∈ m :=
  ⟨mem_of_get, get_eq_some_of_mem h⟩

theorem get_eq_none {m : TagMap} {k : Str} : m.get k = none ↔ ∀ v, (k, v) ∉ m := by
  constructor
  · intro h v hv
    induction m with
    | nil => simp at hv
    | cons kv m ih =>
      obtain ⟨a, b⟩ := kv
      simp only [get] at h
      split at h
      · simp at h
      · next hne =>
        rcases List.mem_cons.1 hv with h1 | h1
        · injection h1 with h1 h2; exact hne h1.symm
        · exact ih h h1
  · intro h
    cases hg : m.get k with
    | none => rfl
    | some v => exact absurd (mem_of_get hg) (h v)

@[simp] theorem get_nil (k : Str) : get [] k = none := rfl

theorem get_set (m : TagMap) (k v x : Str) :
    (m.set k v).get x = if k = x then some v else m.get x := by
  induction m with
  | nil => simp [set, get]
  | cons kv m ih =>
    obtain ⟨a, b⟩ := kv
    simp only [set]
    by_cases hak : a = k
    · subst hak
      simp only [if_true, get]
      split <;> simp_all
    · simp only [if_neg hak, get, ih]
      by_cases hax : a = x
      · subst hax; simp [Ne.symm hak]
      · simp [hax]

theorem map_fst_set (m : TagMap) (k v : Str) :
    (m.set k v).map Prod.fst = if k ∈ m.map Prod.fst then m.map Prod.fst
      else m.map Prod.fst ++ [k] := by
  induction m with
  | nil => simp [set]
  | cons kv m ih =>
    obtain ⟨a, b⟩ := kv
    simp only [set]
    by_cases hak : a = k
    · subst hak; simp
    · simp only [if_neg hak, List.map_cons, ih, List.mem_cons, Ne.symm hak, false_or]
      split <;> simp

theorem Ok.set {m : TagMap} (h : m.Ok) (k v : Str) : (m.set k v).Ok := by
  unfold Ok at *
  rw [map_fst_set]
  split
  · exact h
  · next hk =>
    rw [List.nodup_append]
    refine ⟨h, by simp, ?_⟩
    intro a ha b hb
    simp only [List.mem_singleton] at hb
    subst hb
    rintro rfl
    exact hk ha

theorem Ok.nil : Ok [] := by simp [Ok]

theorem get_erase {m : TagMap} (h : m.Ok) (k x : Str) :
    (m.erase k).get x = if k = x then none else m.get x := by
  induction m with
  | nil => simp [erase]
  | cons kv m ih =>
    obtain ⟨a, b⟩ := kv
    have h' := h
    simp only [Ok, List.map_cons, List.nodup_cons] at h
    have ih := ih h.2
    simp only [erase]
    by_cases hak : a = k
    · subst hak
      simp only [if_true, get]
      split
      · next e =>
        subst e
        rw [get_eq_none]
        intro v hv
        exact h.1 (List.mem_map.2 ⟨_, hv, rfl⟩)
      · rfl
    · simp only [if_neg hak, get, ih]
      by_cases hax : a = x
      · subst hax; simp [Ne.symm hak]
      · simp [hax]

theorem erase_sublist (m : TagMap) (k : Str) : (m.erase k).Sublist m := by
  induction m with
  | nil => simp [erase]
  | cons kv m ih =>
    obtain ⟨a, b⟩ := kv
    simp only [erase]
    split
    · exact List.sublist_cons_self _ _
    · exact ih.cons_cons _

theorem Ok.erase {m : TagMap} (h : m.Ok) (k : Str) : (m.erase k).Ok :=
  List.Nodup.sublist ((erase_sublist m k).map _) h

theorem get_setAll (o m : TagMap) (ho : o.Ok) (x : Str) :
    (m.setAll o).get x = match o.get x with | some v => some v | none => m.get x := by
  induction o generalizing m with
  | nil => simp [setAll]
  | cons kv o ih =>
    obtain ⟨a, b⟩ := kv
    have ho' : Ok o := by simp only [Ok, List.map_cons, List.nodup_cons] at ho; exact ho.2
    have hna : ∀ v, (a, v) ∉ o := by
      simp only [Ok, List.map_cons, List.nodup_cons, List.mem_map] at ho
      intro v hv; exact ho.1 ⟨_, hv, rfl⟩
    show (setAll (m.set a b) o).get x = _
    rw [ih _ ho', get_set, get]
    by_cases hax : a = x
    · subst hax
      simp [get_eq_none.2 hna]
    · simp [hax]

theorem Ok.setAll {m : TagMap} (h : m.Ok) (o : TagMap) : (m.setAll o).Ok := by
  induction o generalizing m with
  | nil => exact h
  | cons kv o ih => exact ih (h.set _ _)

end TagMap

namespace TagIter

/-- what the default phase of the iterator still yields -/
def restDefaults (seen : List Str) : TagMap → List (Str × Str)
  | [] => []
  | (k, v) :: ds =>
    if k ∈ seen then restDefaults seen ds else (k, v) :: restDefaults (k :: seen) ds

theorem take_nextDefault (ds : TagMap) : ∀ (seen : List Str) (n : Nat), ds.length < n →
    take n (.double seen [] ds true) = restDefaults seen ds := by
  induction ds with
  | nil => intro seen n hn; cases n <;> simp_all [take, next, nextDefault, restDefaults]
  | cons d ds ih =>
    obtain ⟨k, v⟩ := d
    intro seen n hn
    cases n with
    | zero => simp at hn
    | succ n =>
      simp only [List.length_cons, Nat.add_lt_add_iff_right] at hn
      simp only [take, next, nextDefault, restDefaults]
      by_cases hk : k ∈ seen
      · simp only [if_pos hk]
        have := ih seen (n + 1) (by omega)
        simpa only [take, next] using this
      · simp only [if_neg hk]
        rw [ih _ _ hn]

theorem take_double (its ds : TagMap) : ∀ (seen : List Str) (n : Nat),
    its.length + ds.length < n →
    take n (.double seen its ds false) =
      its ++ restDefaults (its.foldl (fun s kv => if kv.1 ∈ s then s else kv.1 :: s) seen) ds := by
  induction its with
  | nil =>
    intro seen n hn
    have := take_nextDefault ds seen n (by simpa using hn)
    cases n with
    | zero => simp at hn
    | succ n => simpa only [take, next, List.foldl_nil, List.nil_append] using this
  | cons d its ih =>
    obtain ⟨k, v⟩ := d
    intro seen n hn
    cases n with
    | zero => simp at hn
    | succ n =>
      simp only [List.length_cons] at hn
      simp only [take, next, List.foldl_cons, List.cons_append]
      rw [ih _ _ (by omega)]

theorem take_single (ds : TagMap) : ∀ n, ds.length < n → take n (.single ds) = ds := by
  induction ds with
  | nil => intro n hn; cases n <;> simp_all [take, next]
  | cons d ds ih =>
    intro n hn
    cases n with
    | zero => simp at hn
    | succ n =>
      simp only [List.length_cons] at hn
      simp only [take, next]
      rw [ih _ (by omega)]

/-- Driving the iterator longer than its fuel yields nothing more. -/
theorem take_collect (own : Option TagMap) (ds : TagMap) (n : Nat)
    (h : (tagIter own ds).fuel ≤ n) : (tagIter own ds).take n = (tagIter own ds).collect := by
  cases own with
  | none =>
    simp only [tagIter, fuel, collect] at *
    rw [take_single _ _ (by omega), take_single _ _ (by omega)]
  | some m =>
    simp only [tagIter, fuel, collect] at *
    rw [take_double _ _ _ _ (by omega), take_double _ _ _ _ (by omega)]

theorem mem_foldl_seen (its : TagMap) : ∀ (seen : List Str) (k : Str),
    k ∈ its.foldl (fun s kv => if kv.1 ∈ s then s else kv.1 :: s) seen ↔
      k ∈ seen ∨ k ∈ its.map Prod.fst := by
  induction its with
  | nil => simp
  | cons d its ih =>
    intro seen k
    simp only [List.foldl_cons, ih, List.map_cons, List.mem_cons]
    split
    · next h =>
      constructor
      · rintro (h1 | h1) <;> simp [h1]
      · rintro (h1 | h1 | h1)
        · exact .inl h1
        · subst h1; exact .inl h
        · exact .inr h1
    · simp only [List.mem_cons]; grind

theorem restDefaults_eq_filter (ds : TagMap) : ∀ seen, ds.Ok →
    restDefaults seen ds = ds.filter (fun kv => kv.1 ∉ seen) := by
  induction ds with
  | nil => simp [restDefaults]
  | cons d ds ih =>
    obtain ⟨k, v⟩ := d
    intro seen h
    simp only [TagMap.Ok, List.map_cons, List.nodup_cons] at h
    simp only [restDefaults]
    by_cases hk : k ∈ seen
    · simp [hk, ih seen h.2]
    · rw [if_neg hk, ih _ h.2, List.filter_cons, if_pos (by simpa using hk)]
      congr 1
      apply List.filter_congr
      intro x hx
      have : x.1 ≠ k := by
        rintro rfl; exact h.1 (List.mem_map.2 ⟨x, hx, rfl⟩)
      simp [this]

theorem collect_some (m ds : TagMap) (hd : ds.Ok) :
    (tagIter (some m) ds).collect = m ++ ds.filter (fun kv => kv.1 ∉ m.map Prod.fst) := by
  simp only [tagIter, collect, fuel]
  rw [take_double _ _ _ _ (by omega), restDefaults_eq_filter _ _ hd]
  congr 1
  apply List.filter_congr
  intro x _
  have := mem_foldl_seen m [] x.1
  simp only [List.not_mem_nil, false_or] at this
  simp only [this]

theorem collect_none (ds : TagMap) : (tagIter none ds).collect = ds := by
  simp only [tagIter, collect, fuel]
  rw [take_single _ _ (by omega)]

end TagIter
end Verif
