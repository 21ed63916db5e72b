import Verif.Spec.Matrix
/-! # Lemmas about the adjacency matrix -/
namespace Verif

/-- Distinct keys. -/
def Assoc.Ok {α : Type} (m : List (Str × α)) : Prop := (m.map Prod.fst).Nodup

theorem Assoc.get_put {α : Type} (m : List (Str × α)) (x y : Str) (a : α) :
    Assoc.get (Assoc.put m x a) y = if y = x then some a else Assoc.get m y := by
  induction m with
  | nil => simp only [Assoc.put, Assoc.get, eq_comm]
  | cons kv m ih =>
    obtain ⟨k, v⟩ := kv
    simp only [Assoc.put]
    by_cases hk : k = x
    · subst hk
      simp only [if_true, Assoc.get]
      by_cases hy : k = y
      · subst hy; simp
      · simp [hy, Ne.symm hy]
    · simp only [if_neg hk, Assoc.get, ih]
      by_cases hy : k = y
      · subst hy; simp [hk]
      · simp [hy]

theorem Assoc.put_keys {α : Type} (m : List (Str × α)) (x : Str) (a : α) :
    (Assoc.put m x a).map Prod.fst =
      if x ∈ m.map Prod.fst then m.map Prod.fst else m.map Prod.fst ++ [x] := by
  induction m with
  | nil => simp [Assoc.put]
  | cons kv m ih =>
    obtain ⟨k, v⟩ := kv
    simp only [Assoc.put]
    by_cases hk : k = x
    · subst hk; simp
    · simp only [if_neg hk, List.map_cons, ih, List.mem_cons, Ne.symm hk, false_or]
      split <;> simp

theorem Assoc.Ok.put {α : Type} {m : List (Str × α)} (h : Assoc.Ok m) (x : Str) (a : α) :
    Assoc.Ok (Assoc.put m x a) := by
  simp only [Assoc.Ok, Assoc.put_keys]
  split
  · exact h
  · next hx =>
    rw [List.nodup_append]
    refine ⟨h, by simp, ?_⟩
    intro y hy z hz
    simp only [List.mem_singleton] at hz
    subst hz
    intro e; subst e; exact hx hy

theorem Assoc.get_isSome {α : Type} (m : List (Str × α)) (x : Str) :
    (Assoc.get m x).isSome ↔ x ∈ m.map Prod.fst := by
  induction m with
  | nil => simp [Assoc.get]
  | cons kv m ih =>
    obtain ⟨k, v⟩ := kv
    simp only [Assoc.get, List.map_cons, List.mem_cons]
    by_cases hk : k = x
    · subst hk; simp
    · simp [hk, Ne.symm hk, ih]

theorem Assoc.get_iff {α : Type} {m : List (Str × α)} (h : Assoc.Ok m) (x : Str) (a : α) :
    Assoc.get m x = some a ↔ (x, a) ∈ m := by
  induction m with
  | nil => simp [Assoc.get]
  | cons kv m ih =>
    obtain ⟨k, v⟩ := kv
    simp only [Assoc.Ok, List.map_cons, List.nodup_cons] at h
    simp only [Assoc.get, List.mem_cons, Prod.mk.injEq]
    by_cases hk : k = x
    · subst hk
      simp only [if_true, Option.some.injEq, true_and]
      refine ⟨fun e => Or.inl e.symm, fun e => ?_⟩
      rcases e with e | e
      · exact e.symm
      · exact absurd (List.mem_map.2 ⟨_, e, rfl⟩) h.1
    · rw [if_neg hk, ih h.2]
      simp [Ne.symm hk]

theorem Assoc.get_del {α : Type} (m : List (Str × α)) (x y : Str) :
    Assoc.get (Assoc.del m x) y = if y = x then none else Assoc.get m y := by
  induction m with
  | nil => simp [Assoc.del, Assoc.get]
  | cons kv m ih =>
    obtain ⟨k, v⟩ := kv
    simp only [Assoc.del] at ih
    simp only [Assoc.del, List.filter_cons, Assoc.get]
    by_cases hk : k = x
    · subst hk
      simp only [ne_eq, not_true_eq_false, decide_false, Bool.false_eq_true, if_false, ih]
      by_cases hy : y = k
      · simp [hy]
      · simp [hy, Ne.symm hy]
    · simp only [ne_eq, hk, not_false_eq_true, decide_true, if_true, Assoc.get, ih]
      by_cases hy : k = y
      · subst hy; simp [hk]
      · simp [hy]

theorem Assoc.Ok.del {α : Type} {m : List (Str × α)} (h : Assoc.Ok m) (x : Str) :
    Assoc.Ok (Assoc.del m x) :=
  List.Nodup.sublist (List.Sublist.map _ List.filter_sublist) h

namespace Matrix
variable {M : Type}

/-- All maps have distinct keys. -/
structure Adjacency.Ok (a : Adjacency M) : Prop where
  nodes : Assoc.Ok a.edges
  rows : ∀ x row, Assoc.get a.edges x = some row → Assoc.Ok row

/-- The row of a node, empty if it has none. -/
def Adjacency.row (a : Adjacency M) (x : Str) : Row M := (Assoc.get a.edges x).getD []

theorem Adjacency.Ok.row {a : Adjacency M} (h : a.Ok) (x : Str) : Assoc.Ok (a.row x) := by
  simp only [Adjacency.row]
  cases hg : Assoc.get a.edges x with
  | none => simp [Assoc.Ok]
  | some r => exact h.rows x r hg

theorem Adjacency.ok_new : (Adjacency.mk (M := M) []).Ok :=
  ⟨by simp [Assoc.Ok], by simp [Assoc.get]⟩

theorem Adjacency.Ok.addAsym {a : Adjacency M} (h : a.Ok) (s d : Str) (md : Option M) :
    (a.addAsym s d md).Ok := by
  refine ⟨h.nodes.put _ _, ?_⟩
  intro x row hx
  simp only [Adjacency.addAsym, Assoc.get_put] at hx
  split at hx
  · simp only [Option.some.injEq] at hx
    subst hx
    exact (h.row s).put _ _
  · exact h.rows x row hx

theorem Adjacency.get_addAsym (a : Adjacency M) (s d x : Str) (md : Option M) :
    Assoc.get (a.addAsym s d md).edges x =
      if x = s then some (Assoc.put (a.row s) d md) else Assoc.get a.edges x := by
  simp only [Adjacency.addAsym, Assoc.get_put]; rfl

theorem Adjacency.row_addAsym (a : Adjacency M) (s d x : Str) (md : Option M) :
    (a.addAsym s d md).row x = if x = s then Assoc.put (a.row s) d md else a.row x := by
  simp only [Adjacency.row, Adjacency.get_addAsym]
  split <;> rfl

theorem Adjacency.edge_addAsym (a : Adjacency M) (s d x y : Str) (md : Option M) :
    Assoc.get ((a.addAsym s d md).row x) y =
      if x = s ∧ y = d then some md else Assoc.get (a.row x) y := by
  rw [Adjacency.row_addAsym]
  by_cases hx : x = s
  · subst hx; simp only [if_true, Assoc.get_put, true_and]
  · simp [hx]

theorem Adjacency.Ok.addEdges {a : Adjacency M} (h : a.Ok) (s : Str) (ds : List Str)
    (md : Option M) : (a.addEdges s ds md).Ok := by
  induction ds generalizing a with
  | nil => exact h
  | cons d ds ih => exact ih ((h.addAsym s d md).addAsym d s md)

theorem Adjacency.edge_addEdges (a : Adjacency M) (s : Str) (ds : List Str) (x y : Str)
    (md : Option M) :
    Assoc.get ((a.addEdges s ds md).row x) y =
      if (x = s ∧ y ∈ ds) ∨ (y = s ∧ x ∈ ds) then some md else Assoc.get (a.row x) y := by
  induction ds generalizing a with
  | nil => simp [Adjacency.addEdges]
  | cons d ds ih =>
    simp only [Adjacency.addEdges, ih, Adjacency.edge_addAsym, List.mem_cons]
    by_cases h1 : (x = s ∧ y ∈ ds) ∨ (y = s ∧ x ∈ ds)
    · rw [if_pos h1, if_pos]
      rcases h1 with ⟨h, h'⟩ | ⟨h, h'⟩
      · exact Or.inl ⟨h, Or.inr h'⟩
      · exact Or.inr ⟨h, Or.inr h'⟩
    · rw [if_neg h1]
      by_cases h2 : x = d ∧ y = s
      · rw [if_pos h2, if_pos (Or.inr ⟨h2.2, Or.inl h2.1⟩)]
      · rw [if_neg h2]
        by_cases h3 : x = s ∧ y = d
        · rw [if_pos h3, if_pos (Or.inl ⟨h3.1, Or.inl h3.2⟩)]
        · rw [if_neg h3, if_neg]
          rintro (⟨e1, e2 | e2⟩ | ⟨e1, e2 | e2⟩)
          · exact h3 ⟨e1, e2⟩
          · exact h1 (Or.inl ⟨e1, e2⟩)
          · exact h2 ⟨e2, e1⟩
          · exact h1 (Or.inr ⟨e1, e2⟩)

theorem Adjacency.Ok.pop {a : Adjacency M} (h : a.Ok) (n : Str) : (a.pop n).2.Ok := by
  refine ⟨h.nodes.del _, ?_⟩
  intro x row hx
  simp only [Adjacency.pop, Assoc.get_del] at hx
  split at hx
  · simp at hx
  · exact h.rows x row hx

theorem Adjacency.get_pop (a : Adjacency M) (n x : Str) :
    Assoc.get (a.pop n).2.edges x = if x = n then none else Assoc.get a.edges x := by
  simp only [Adjacency.pop, Assoc.get_del]

theorem Adjacency.edge_pop (a : Adjacency M) (n x y : Str) :
    Assoc.get ((a.pop n).2.row x) y = if x = n then none else Assoc.get (a.row x) y := by
  simp only [Adjacency.row, Adjacency.get_pop]
  split <;> simp [Assoc.get]

/-- No node without an edge. -/
def Adjacency.Full (a : Adjacency M) : Prop := ∀ x, Assoc.get a.edges x ≠ some []

theorem put_ne_nil {α : Type} (m : List (Str × α)) (x : Str) (a : α) : Assoc.put m x a ≠ [] := by
  cases m with
  | nil => simp [Assoc.put]
  | cons kv m => obtain ⟨k, v⟩ := kv; simp only [Assoc.put]; split <;> simp

theorem Adjacency.Full.addAsym {a : Adjacency M} (h : a.Full) (s d : Str) (md : Option M) :
    (a.addAsym s d md).Full := by
  intro x
  rw [Adjacency.get_addAsym]
  split
  · simp [put_ne_nil]
  · exact h x

theorem Adjacency.Full.addEdges {a : Adjacency M} (h : a.Full) (s : Str) (ds : List Str)
    (md : Option M) : (a.addEdges s ds md).Full := by
  induction ds generalizing a with
  | nil => exact h
  | cons d ds ih => exact ih ((h.addAsym s d md).addAsym d s md)

theorem Adjacency.Full.pop {a : Adjacency M} (h : a.Full) (n : Str) : (a.pop n).2.Full := by
  intro x
  rw [Adjacency.get_pop]
  split
  · simp
  · exact h x

/-- Every history leaves a well-formed matrix with exactly the edges of the specification. -/
theorem run_spec (ops : List (Op M)) : ∀ (a : Adjacency M) (older : List (Op M)), a.Ok → a.Full →
    (∀ x y, Assoc.get (a.row x) y = edge older x y) →
    (run a ops).Ok ∧ (run a ops).Full ∧
      ∀ x y, Assoc.get ((run a ops).row x) y = edge (ops.reverse ++ older) x y := by
  induction ops with
  | nil => intro a older h hf he; exact ⟨h, hf, he⟩
  | cons op ops ih =>
    intro a older h hf he
    rw [List.reverse_cons, List.append_assoc]
    cases op with
    | add s d md =>
      refine ih _ _ (h.addAsym s d md) (hf.addAsym s d md) fun x y => ?_
      rw [Adjacency.edge_addAsym, he]; rfl
    | addBoth s ds md =>
      refine ih _ _ (h.addEdges s ds md) (hf.addEdges s ds md) fun x y => ?_
      rw [Adjacency.edge_addEdges, he]; rfl
    | pop n =>
      refine ih _ _ (h.pop n) (hf.pop n) fun x y => ?_
      rw [Adjacency.edge_pop, he]; rfl

theorem mem_row_iff {a : Adjacency M} (h : a.Ok) (x y : Str) :
    y ∈ (a.row x).map Prod.fst ↔ (Assoc.get (a.row x) y).isSome := by
  rw [Assoc.get_isSome]

theorem popNodes_eq (a : Adjacency M) (n : Str) :
    a.popNodes n = ((a.row n).map Prod.fst, (a.pop n).2) := by
  simp only [Adjacency.popNodes, Adjacency.row, Adjacency.pop]
  cases Assoc.get a.edges n <;> rfl

theorem popMetadata_eq (a : Adjacency M) (n : Str) :
    a.popMetadata n = ((a.row n).filterMap Prod.snd, (a.pop n).2) := by
  simp only [Adjacency.popMetadata, Adjacency.row, Adjacency.pop]
  cases Assoc.get a.edges n <;> rfl

end Matrix
end Verif
