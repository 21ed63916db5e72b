import Verif.Spec.Counters
/-!
# Lemmas for C100
-/
namespace Verif.Counters
open Internal

theorem names_once : ∀ c ∈ counters, ((counters.filter fun d => d.name = c.name).map (·.atom)) = [c.atom] := by
  decide +kernel

/-- What is reported under a name is what was added to its static. -/
theorem under_mem (c : Counter) (hc : c ∈ counters) (xs : Adds) :
    under c.name xs = addedTo c.atom xs := by
  have : (counters.filter fun d => d.name = c.name).map (fun d => addedTo d.atom xs) =
      ((counters.filter fun d => d.name = c.name).map (·.atom)).map fun a => addedTo a xs := by
    rw [List.map_map]; rfl
  rw [under, this, names_once c hc]
  simp

theorem under_at (i : Nat) (atom : String) {name : String}
    (h : (counters[i]?).map (fun c => (c.name, c.atom)) = some (name, atom)) (xs : Adds) :
    under name xs = addedTo atom xs := by
  rw [Option.map_eq_some_iff] at h
  obtain ⟨c, hc, h⟩ := h
  simp only [Prod.mk.injEq] at h
  rw [← h.1, ← h.2]
  exact under_mem c (List.mem_of_getElem? hc) xs

theorem addedTo_nil (a : String) : addedTo a [] = 0 := rfl

theorem addedTo_cons (a : String) (x : String × Nat) (xs : Adds) :
    addedTo a (x :: xs) = (if x.1 = a then x.2 else 0) + addedTo a xs := by
  by_cases h : x.1 = a <;> simp [addedTo, h]

theorem addedTo_append (a : String) (xs ys : Adds) :
    addedTo a (xs ++ ys) = addedTo a xs + addedTo a ys := by simp [addedTo]

theorem under_nil (name : String) : under name [] = 0 := by
  simp only [under, addedTo_nil]
  generalize counters.filter (fun c => c.name = name) = l
  induction l with
  | nil => rfl
  | cons a l ih => simpa using ih

theorem addedTo_none (a : String) (xs : Adds) (h : ∀ x ∈ xs, x.1 ≠ a) : addedTo a xs = 0 := by
  induction xs with
  | nil => rfl
  | cons x xs ih =>
    rw [addedTo_cons, if_neg (h x (List.mem_cons_self ..)), ih fun y hy => h y (List.mem_cons_of_mem _ hy)]

end Verif.Counters
