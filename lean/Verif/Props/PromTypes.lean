import Verif.Props.Prometheus
/-!
# C51: exactly how many TYPE lines a name has
-/
namespace Verif
open Prometheus

variable {F : Type} [F64 F]

/-- **C51 (TYPE lines, exactly; part).**  The TYPE lines that a scrape of a reachable state has for a name are those of the reported points whose names are cleaned up to it, in the order of the points.  So
every name has exactly one if and only if no two reported names are cleaned up to the same one.  Missing from the full statement: the case that two are. -/
theorem C51_types_exact_partial (ext : Ext F) (cap : Nat) (hc : 1 ≤ cap) (ops : List (Op F)) (hg : GoodOps ops) (hlen : ops.length < 2 ^ 64 - 1) (tags : TagMap) :
    ∃ a, run ext (Aggr.new cap) ops = some a ∧
      ∀ now order, order.Perm a.data → ∀ pts ls, report now order = some pts → writeText ext tags [] pts = some ls →
        (∀ n, typeLines n ls = (pts.filter fun t => sanitize t.name = n).map fun t => typeName t.kind) ∧
        ((∀ t ∈ pts, (typeLines (sanitize t.name) ls).length = 1) ↔ (pts.map fun t => sanitize t.name).Nodup) := by
  obtain ⟨a, e, h⟩ := C51_type_lines_partial ext cap hc ops hg hlen tags
  refine ⟨a, e, fun now order ho pts ls hr hw => ?_⟩
  obtain ⟨bs, hl, hls, hs, hone⟩ := h now order ho pts ls hr hw
  have hblock : ∀ n m (b : List (Line F)), (∀ l ∈ b, SampleOf m l) → typeLines n b = [] := by
    intro n m b hb
    simp only [typeLines, List.filterMap_eq_nil_iff]
    intro l hl'
    have := hb l hl'
    cases l with
    | type _ _ => simp [SampleOf] at this
    | sample _ _ _ => rfl
  have key : ∀ (pts : List (Telemetry F)) (bs : List (List (Line F))), bs.length = pts.length →
      (∀ tb ∈ pts.zip bs, ∀ l ∈ tb.2, SampleOf (sanitize tb.1.name) l) → ∀ n,
      typeLines n ((pts.zip bs).map fun tb => Line.type (sanitize tb.1.name) (typeName tb.1.kind) :: tb.2).flatten =
        (pts.filter fun t => sanitize t.name = n).map fun t => typeName t.kind := by
    intro pts
    induction pts with
    | nil => intro bs _ _ n; simp [typeLines]
    | cons p pts ih =>
      intro bs hl hs n
      cases bs with
      | nil => simp at hl
      | cons b bs =>
        simp only [List.length_cons, Nat.add_right_cancel_iff] at hl
        simp only [List.zip_cons_cons, List.mem_cons] at hs
        have hb := hblock n (sanitize p.name) b (hs (p, b) (Or.inl rfl))
        have ih := ih bs hl (fun tb h => hs tb (Or.inr h)) n
        simp only [List.zip_cons_cons, List.map_cons, List.flatten_cons]
        simp only [typeLines] at hb ih ⊢
        rw [List.cons_append, List.filterMap_cons, List.filterMap_append, hb, ih]
        by_cases hn : sanitize p.name = n <;> simp [hn]
  have hexact : ∀ n, typeLines n ls = (pts.filter fun t => sanitize t.name = n).map fun t => typeName t.kind := by
    intro n; rw [hls]; exact key pts bs hl hs n
  refine ⟨hexact, fun h1 => ?_, fun hn t ht => by rw [hone hn t ht]; rfl⟩
  rw [List.nodup_iff_count]
  intro n
  by_cases hm : n ∈ pts.map fun t => sanitize t.name
  · obtain ⟨t, ht, rfl⟩ := List.mem_map.1 hm
    have := h1 t ht
    rw [hexact, List.length_map] at this
    rw [List.count, List.countP_map, List.countP_eq_length_filter]
    refine Nat.le_of_eq (Eq.trans ?_ this)
    congr 1
    apply List.filter_congr
    intro x _
    by_cases hx : sanitize x.name = sanitize t.name <;> simp [hx]
  · rw [List.count_eq_zero.2 hm]; omega

/-- Two names are cleaned up to one, a third to another. -/
example : ((promReport 600 [.insert (promPoint "a.b" none 2), .insert (promPoint "c" none 1), .insert ⟨"a_b".toList, .set 3, false, none, 1, none, none⟩]).bind
      fun pts => (writeText promExt [] [] pts).map fun ls => (typeLines "a_b".toList ls, typeLines "c".toList ls)) =
    some (["counter".toList, "gauge".toList], ["counter".toList]) ∧
    GoodOps [.insert (promPoint "a.b" none 2), .insert (promPoint "c" none 1)] := by
  refine ⟨by decide, ?_⟩
  intro t ht hk
  simp only [List.mem_cons, Op.insert.injEq, List.not_mem_nil, or_false] at ht
  rcases ht with rfl | rfl <;> simp [promPoint, Telemetry.kind, Value.kind] at hk

end Verif
