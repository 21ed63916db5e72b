import Verif.Model.Order
import Verif.Spec.TagOrder
import Verif.Props.Buckets
import Verif.Props.Store
import Verif.Props.Telemetry
/-!
# C116: the order of a point's tags

A tag map is a hash map.  Which order it is iterated in depends on the order of insertion and on what was removed, not only on what
it holds.  Comparison and hashing of points go through this order.
-/
namespace Verif
section
variable {F : Type} [F64 F]

private theorem get_none {m : TagMap} {k : Str} : m.get k = none ↔ ∀ v, (k, v) ∉ m := by
  induction m with
  | nil => simp [TagMap.get]
  | cons p m ih =>
    obtain ⟨a, b⟩ := p
    by_cases h : a = k
    · subst h
      simp only [TagMap.get, if_true, reduceCtorEq, false_iff]
      exact fun h => h b (by simp)
    · simp [TagMap.get, h, ih, Ne.symm h]

private theorem get_mem {m : TagMap} (ok : m.Ok) {k v : Str} : m.get k = some v ↔ (k, v) ∈ m := by
  induction m with
  | nil => simp [TagMap.get]
  | cons p m ih =>
    obtain ⟨a, b⟩ := p
    simp only [TagMap.Ok, List.map_cons, List.nodup_cons] at ok
    by_cases h : a = k
    · subst h
      have : ∀ v, (a, v) ∉ m := fun v hv => ok.1 (List.mem_map.2 ⟨_, hv, rfl⟩)
      simp [TagMap.get, this, eq_comm]
    · simp [TagMap.get, h, ih ok.2, Ne.symm h]

/-- Tags are the same exactly if the maps hold the same pairs, in whatever order they are iterated. -/
theorem C116_same_tags (a b : Telemetry F) (ha : (a.tags.getD []).Ok) (hb : (b.tags.getD []).Ok) :
    SameTags a b ↔ (a.tags.getD []).Perm (b.tags.getD []) := by
  have hn : ∀ m : TagMap, m.Ok → m.Nodup := fun m h => List.Pairwise.of_map Prod.fst (fun _ _ h1 h2 => h1 (by rw [h2])) h
  rw [List.perm_ext_iff_of_nodup (hn _ ha) (hn _ hb)]
  constructor
  · rintro h ⟨k, v⟩
    rw [← get_mem ha, ← get_mem hb, h k]
  · intro h k
    cases hk : (b.tags.getD []).get k with
    | none =>
      rw [get_none] at hk ⊢
      exact fun v hv => hk v ((h (k, v)).1 hv)
    | some v => rw [get_mem hb] at hk; exact (get_mem ha).2 ((h (k, v)).2 hk)

/-- **C116 as stated**: however the points of a history have come by their tags, the store never holds two points of one name with
the same tags in one bin. -/
def C116Statement (F : Type) [F64 F] : Prop :=
  ∀ (hash : Str × TagMap → Nat) (w : Int) (ops : List (BucketOp F)), w ≠ 0 → Separates hash (addedPoints ops) →
    (∀ t ∈ addedPoints ops, (t.tags.getD []).Ok) →
    ∃ b pts, runBucket hash (Buckets.new w) ops = some b ∧ b.iter = some pts ∧
      pts.Pairwise fun a c => ¬ (a.name = c.name ∧ SameTags a c ∧ SameBin w a c)

/-- **C116, proved part.**  The statement holds of every history in which equal tags are iterated in the same order.  Missing: the
histories in which they are not. -/
theorem C116_same_order_partial (hash : Str × TagMap → Nat) (w : Int) (hw : w ≠ 0) (ops : List (BucketOp F))
    (hsep : Separates hash (addedPoints ops))
    (hord : ∀ a ∈ addedPoints ops, ∀ c ∈ addedPoints ops, a.name = c.name → SameTags a c → a.tags.getD [] = c.tags.getD []) :
    ∃ b pts, runBucket hash (Buckets.new w) ops = some b ∧ b.iter = some pts ∧
      pts.Pairwise fun a c => ¬ (a.name = c.name ∧ SameTags a c ∧ SameBin w a c) := by
  obtain ⟨b, pts, h1, h2, _, h3⟩ := C09_one_point_per_bin hash w hw ops hsep
  obtain ⟨b', pts', h1', h2', h4⟩ := C104_store_is_collection hash w hw ops hsep
  rw [h1] at h1'
  cases h1'
  rw [h2] at h2'
  cases h2'
  -- every stored point is of the series of an arrival
  have hser : ∀ (ops : List (BucketOp F)) (start : List (Telemetry F)) (p : Telemetry F), p ∈ Store.run w start ops →
      ∃ v ∈ start ++ addedPoints ops, SameSeries p v := by
    intro ops
    induction ops with
    | nil => intro start p hp; exact ⟨p, List.mem_append_left _ hp, rfl, rfl⟩
    | cons op ops ih =>
      intro start p hp
      cases op with
      | add now v =>
        obtain ⟨q, hq, hs⟩ := ih _ p hp
        rcases List.mem_append.1 hq with hq | hq
        · have : ∃ u ∈ start ++ [v], SameSeries q u := by
            simp only [Store.add] at hq
            split at hq
            · obtain ⟨r, hr, rfl⟩ := List.mem_map.1 hq
              refine ⟨r, by simp [hr], ?_⟩
              split <;> exact ⟨rfl, rfl⟩
            · split at hq
              · rename_i q' hf
                rcases List.mem_append.1 hq with hq | hq
                · exact ⟨q, by simp [hq], rfl, rfl⟩
                · simp only [List.mem_singleton] at hq
                  subst hq
                  by_cases hv : v.persist = true
                  · simp only [hv, if_true] at hf
                    exact ⟨q', by simp [List.mem_of_find?_eq_some hf], rfl, rfl⟩
                  · simp [hv] at hf
              · exact ⟨q, by simpa using hq, rfl, rfl⟩
          obtain ⟨u, hu, hs2⟩ := this
          refine ⟨u, ?_, hs.1.trans hs2.1, hs.2.trans hs2.2⟩
          simp only [List.mem_append, List.mem_singleton] at hu
          simp only [addedPoints, List.mem_append, List.mem_cons]
          rcases hu with h | h <;> simp [h]
        · exact ⟨q, by simp [addedPoints, hq], hs⟩
      | reset now =>
        obtain ⟨q, hq, hs⟩ := ih _ p hp
        rcases List.mem_append.1 hq with hq | hq
        · simp only [Store.reset, List.mem_map, List.mem_filter] at hq
          obtain ⟨r, ⟨hr, _⟩, rfl⟩ := hq
          exact ⟨r, by simp [hr], hs⟩
        · exact ⟨q, by simp [addedPoints, hq], hs⟩
  refine ⟨b, pts, h1, h2, h3.imp_of_mem ?_⟩
  rintro a c ha hc hn ⟨e1, e2, e3⟩
  obtain ⟨u, hu, su⟩ := hser ops [] a (h4.mem_iff.1 ha)
  obtain ⟨v, hv, sv⟩ := hser ops [] c (h4.mem_iff.1 hc)
  simp only [List.nil_append] at hu hv
  refine hn ⟨⟨e1, ?_⟩, e3⟩
  rw [su.2, sv.2]
  refine hord u hu v hv (by rw [← su.1, ← sv.1]; exact e1) ?_
  intro k
  rw [← su.2, ← sv.2]
  exact e2 k

/-- Two points whose tags are the same but iterated in different orders are never combined, whatever the bin width: the store holds
both.  (Sinks that aggregate then send two points for one series and time.) -/
theorem C116_split_false (hash : Str × TagMap → Nat) (w : Int) (hw : w ≠ 0) (n1 n2 : Int) (x y : Telemetry F)
    (hord : x.tags.getD [] ≠ y.tags.getD []) (hsep : hash x.hashInput ≠ hash y.hashInput) :
    ∃ b pts, runBucket hash (Buckets.new w) [.add n1 x, .add n2 y] = some b ∧ b.iter = some pts ∧ pts.Perm [x, y] := by
  have hsep' : Separates hash (addedPoints [.add n1 x, .add n2 y]) := by
    intro a ha b hb h
    simp only [addedPoints, List.mem_cons, List.not_mem_nil, or_false] at ha hb
    rcases ha with rfl | rfl <;> rcases hb with rfl | rfl
    · exact ⟨rfl, rfl⟩
    · exact absurd h hsep
    · exact absurd h.symm hsep
    · exact ⟨rfl, rfl⟩
  obtain ⟨b, pts, h1, h2, h3⟩ := C104_store_is_collection hash w hw [.add n1 x, .add n2 y] hsep'
  refine ⟨b, pts, h1, h2, ?_⟩
  have hns : ∀ p ∈ [x], ¬ SameSeries p y := by simpa using fun h : SameSeries x y => hord h.2
  have e1 : Store.add w [] x = [x] := by
    unfold Store.add
    by_cases hp : x.persist = true <;> simp [hp]
  have e2 : Store.add w [x] y = [x, y] := by
    have : ¬ SameSeries x y := hns x (by simp)
    unfold Store.add
    by_cases hp : y.persist = true <;> simp [hp, this, Store.Latest]
  simpa [Store.run, e1, e2] using h3

/-- one request counted, tagged with host and region in the given order -/
private def tagged (tags : TagMap) : Telemetry Int := ⟨"requests".toList, .sum 1, false, some tags, 7, none, none⟩

private def oneWay : TagMap := [("host".toList, "a".toList), ("region".toList, "b".toList)]
private def otherWay : TagMap := [("region".toList, "b".toList), ("host".toList, "a".toList)]

/-- **C116 is false of the code**: two requests counted under the same tags. -/
theorem C116_order_false : ¬ C116Statement Int := by
  intro h
  let hash : Str × TagMap → Nat := fun x => if x.2 = oneWay then 1 else 2
  have hne : hash (tagged oneWay).hashInput ≠ hash (tagged otherWay).hashInput := by decide
  obtain ⟨b, pts, h1, h2, h3⟩ := C116_split_false hash 10 (by decide) 0 0 (tagged oneWay) (tagged otherWay) (by decide) hne
  obtain ⟨b', pts', h1', h2', h4⟩ := h hash 10 [.add 0 (tagged oneWay), .add 0 (tagged otherWay)] (by decide)
    (by
      intro a ha c hc e
      simp only [addedPoints, List.mem_cons, List.not_mem_nil, or_false] at ha hc
      rcases ha with rfl | rfl <;> rcases hc with rfl | rfl
      · exact ⟨rfl, rfl⟩
      · exact absurd e hne
      · exact absurd e.symm hne
      · exact ⟨rfl, rfl⟩)
    (by
      intro t ht
      simp only [addedPoints, List.mem_cons, List.not_mem_nil, or_false] at ht
      rcases ht with rfl | rfl <;> decide)
  rw [h1] at h1'
  cases h1'
  rw [h2] at h2'
  cases h2'
  have hs : SameTags (tagged oneWay) (tagged otherWay) := (C116_same_tags _ _ (by decide) (by decide)).2 (by decide)
  have hsym : ∀ a c : Telemetry Int, ¬ (a.name = c.name ∧ SameTags a c ∧ SameBin 10 a c) →
      ¬ (c.name = a.name ∧ SameTags c a ∧ SameBin 10 c a) :=
    fun a c hn ⟨e1, e2, e3⟩ => hn ⟨e1.symm, fun k => (e2 k).symm, e3.symm⟩
  have h5 := (h3.pairwise_iff (fun {a c} => hsym a c)).1 h4
  simp only [List.pairwise_cons] at h5
  exact h5.1 (tagged otherWay) (by simp) ⟨rfl, hs, rfl⟩

/-- Both ways of writing the tags are the same tags; a history that iterates them in one order meets the hypotheses. -/
example : oneWay ≠ otherWay ∧ oneWay.Perm otherWay ∧
    (runBucket (fun x => x.2.length) (Buckets.new 10) [.add 0 (tagged oneWay), .add 0 (tagged oneWay)]).bind Buckets.iter =
      some [⟨"requests".toList, .sum 2, false, some oneWay, 7, none, none⟩] := by
  decide +kernel

/-! ## The order of points themselves (C07) -/

/-- **C07.**  Comparing two points always has an answer; a point is equal to itself; swapping the points swaps the answer; and on
points that carry tag maps the order is transitive and equality means same name, time and tags in iteration order. -/
theorem C07_points_order_partial :
    (∀ a b : Telemetry F, ∃ o, a.partialCmp b = some o ∧ b.partialCmp a = some o.swap) ∧
    (∀ a : Telemetry F, a.partialCmp a = some .eq) ∧
    (∀ a b c : Telemetry F, a.tags.isSome → b.tags.isSome → c.tags.isSome →
      a.partialCmp b = some .lt → b.partialCmp c = some .lt → a.partialCmp c = some .lt) ∧
    (∀ a b : Telemetry F, a.tags.isSome → b.tags.isSome →
      (a.partialCmp b = some .eq ↔ a.name = b.name ∧ a.timestamp = b.timestamp ∧ a.tags = b.tags)) ∧
    -- the order of points refines the one of bins
    (∀ (a b : Telemetry F) (w : Int), 0 < w → a.tags = b.tags → a.partialCmp b = some .lt → a.within w b ≠ .gt) := by
  have key : ∀ a b : Telemetry F, a.partialCmp b =
      some ((cmpStr a.name b.name).then ((compare a.timestamp b.timestamp).then (cmpTagmap a.tags b.tags))) := by
    intro a b
    unfold Telemetry.partialCmp
    cases h1 : cmpStr a.name b.name <;> simp [Ordering.then]
    cases h2 : compare a.timestamp b.timestamp <;> simp
  have hsw : ∀ a b : Int, (compare a b).swap = compare b a := by
    intro a b; exact (Int.compare_swap a b)
  refine ⟨?_, ?_, ?_, ?_, ?_⟩
  · intro a b
    refine ⟨_, key a b, ?_⟩
    rw [key b a, Ordering.swap_then, Ordering.swap_then, cmpStr_swap, cmpTagmap_swap, hsw]
  · intro a
    rw [key, cmpStr_eq.2 rfl, cmpTagmap_refl, compare_int_eq.2 rfl]
    rfl
  · intro a b c ha hb hc
    obtain ⟨x, hx⟩ := Option.isSome_iff_exists.1 ha
    obtain ⟨y, hy⟩ := Option.isSome_iff_exists.1 hb
    obtain ⟨z, hz⟩ := Option.isSome_iff_exists.1 hc
    rw [key, key, key, hx, hy, hz]
    simp only [Option.some.injEq]
    refine then_lt_trans cmpStr_lt_trans ?_ ?_ (then_lt_trans ?_ ?_ ?_ cmpTagmap_some_lt_trans)
    · intro h; rw [cmpStr_eq.1 h]
    · intro h; rw [cmpStr_eq.1 h]
    · simp only [compare_int_lt]; omega
    · intro h; rw [compare_int_eq.1 h]
    · intro h; rw [compare_int_eq.1 h]
  · intro a b ha hb
    obtain ⟨x, hx⟩ := Option.isSome_iff_exists.1 ha
    obtain ⟨y, hy⟩ := Option.isSome_iff_exists.1 hb
    rw [key, Option.some.injEq, Ordering.then_eq_eq, Ordering.then_eq_eq, cmpStr_eq, compare_int_eq, hx, hy, cmpTagmap_eq_some,
      Option.some.injEq]
  · intro a b w hw ht h
    rw [key, ht, cmpTagmap_refl, Option.some.injEq] at h
    rw [within_eq_then, ht, cmpTagmap_refl]
    cases h1 : cmpStr a.name b.name with
    | lt => simp
    | gt => simp [h1] at h
    | eq =>
      simp only [h1, Ordering.then] at h ⊢
      have h2 : a.timestamp < b.timestamp := by
        cases h3 : compare a.timestamp b.timestamp with
        | lt => exact compare_int_lt.1 h3
        | eq => simp [h3] at h
        | gt => simp [h3] at h
      intro hg
      have h4 : b.timestamp.tdiv w < a.timestamp.tdiv w := by
        have : compare (b.timestamp.tdiv w) (a.timestamp.tdiv w) = .lt := by
          rw [← hsw]; simpa [Telemetry.bin] using congrArg Ordering.swap hg
        exact compare_int_lt.1 this
      have h5 : a.timestamp.tdiv w ≤ b.timestamp.tdiv w := Int.tdiv_le_tdiv hw (by omega)
      omega

example : (tagged oneWay).partialCmp (tagged otherWay) = some .lt ∧
    (tagged oneWay).partialCmp { tagged oneWay with timestamp := 6 } = some .gt ∧
    (tagged oneWay).partialCmp { tagged oneWay with tags := none } = some .eq := by decide

end
end Verif
