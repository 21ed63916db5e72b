import Verif.Lemmas.NetHang
import Verif.Props.Topology
/-!
The configuration's names in the running process.
-/
namespace Verif
namespace Net
open Topology
variable {F : Type} [F64 F]

theorem find_of_mem {α : Type} {l : List (Str × α)} (hn : (l.map (·.1)).Nodup) {n : Str} {x : α} (h : (n, x) ∈ l) :
    l.find? (·.1 == n) = some (n, x) := by
  induction l with
  | nil => cases h
  | cons a l ih =>
    simp only [List.map_cons, List.nodup_cons] at hn
    rw [List.find?_cons]
    by_cases ha : a.1 = n
    · rcases List.mem_cons.1 h with rfl | h
      · simp
      · exact absurd (List.mem_map.2 ⟨_, h, ha.symm ▸ rfl⟩) hn.1
    · have : (a.1 == n) = false := by simpa using ha
      rw [this]
      rcases List.mem_cons.1 h with rfl | h
      · exact absurd rfl ha
      · exact ih hn.2 h

theorem find_none {α : Type} {l : List (Str × α)} {n : Str} (h : n ∉ l.map (·.1)) :
    l.find? (·.1 == n) = none := by
  rw [List.find?_eq_none]
  intro x hx he
  exact h (List.mem_map.2 ⟨x, hx, by simpa using he⟩)

theorem put_absent {α : Type} (m : List (Str × α)) (x : Str) (a : α) (h : x ∉ m.map (·.1)) :
    Assoc.put m x a = m ++ [(x, a)] := by
  induction m with
  | nil => rfl
  | cons kv m ih =>
    simp only [List.map_cons, List.mem_cons, not_or] at h
    simp only [Assoc.put, if_neg (Ne.symm h.1), List.cons_append, ih h.2]

theorem handles_all {w : Wiring} (hn : (w.sources.map (·.1)).Nodup) :
    (handles w).map (·.2) = List.range w.sources.length := by
  have key : ∀ (l : List (Str × List Str)) (k : Nat) (m : List (Str × Nat)), (m.map (·.1) ++ l.map (·.1)).Nodup →
      (l.zipIdx k).foldl (fun m si => Assoc.put m si.1.1 si.2) m = m ++ (l.zipIdx k).map fun si => (si.1.1, si.2) := by
    intro l
    induction l with
    | nil => intro k m _; simp
    | cons a l ih =>
      intro k m h
      rw [List.zipIdx_cons, List.foldl_cons, put_absent]
      · rw [ih (k + 1)]
        · simp
        · simpa using h
      · intro hx
        have := (List.nodup_append.1 h).2.2 _ hx _ List.mem_cons_self
        exact this rfl
  rw [handles, key _ _ _ (by simpa using hn)]
  simp [Function.comp_def, List.zipIdx_map_snd, List.range_eq_range']

theorem names {c : Config} (hd : Distinct c) {w : Wiring} (hw : wire c = .ok w) :
    (w.filters.map (·.1)).Nodup ∧ (w.sinks.map (·.1)).Nodup ∧ (w.sources.map (·.1)).Nodup ∧
    (∀ n ∈ w.sinks.map (·.1), n ∉ w.filters.map (·.1)) ∧ (∀ n ∈ w.sources.map (·.1), n ∉ w.filters.map (·.1)) ∧
    ∀ n ∈ w.sources.map (·.1), n ∉ w.sinks.map (·.1) := by
  obtain ⟨h1, h2, h3, -⟩ := C57_mutual c hd w hw
  rw [h1, h2, h3]
  simp only [Distinct, List.map_append] at hd
  obtain ⟨d1, d2, d3⟩ := List.nodup_append.1 hd
  rw [List.append_assoc] at d2
  obtain ⟨e1, e2, e3⟩ := List.nodup_append.1 d2
  refine ⟨e1, d1, by rw [List.map_append]; exact e2, ?_, ?_, ?_⟩
  · intro n hn hf
    exact d3 n hn n (List.mem_append_left _ (List.mem_append_left _ hf)) rfl
  · intro n hn hf
    rw [List.map_append] at hn
    exact e3 n hf n hn rfl
  · intro n hn hs
    rw [List.map_append] at hn
    rcases List.mem_append.1 hn with hn | hn
    · exact d3 n hs n (List.mem_append_left _ (List.mem_append_right _ hn)) rfl
    · exact d3 n hs n (List.mem_append_right _ hn) rfl

theorem forwards_node {c : Config} (hd : Distinct c) {w : Wiring} (hw : wire c = .ok w) {n x : Str}
    (h : Forwards c n x) : n ∈ w.filters.map (·.1) ∨ n ∈ w.sources.map (·.1) := by
  obtain ⟨-, h2, h3, -⟩ := C57_mutual c hd w hw
  rw [h2, h3]
  obtain ⟨fs, hm, -⟩ := h
  rw [List.append_assoc] at hm
  rcases List.mem_append.1 hm with hm | hm
  · exact .inl (List.mem_map.2 ⟨_, hm, rfl⟩)
  · exact .inr (List.mem_map.2 ⟨_, hm, rfl⟩)

theorem mem_fst {α : Type} {l : List (Str × α)} {n : Str} (h : n ∈ l.map (·.1)) : ∃ x, (n, x) ∈ l := by
  obtain ⟨⟨a, x⟩, h', rfl⟩ := List.mem_map.1 h
  exact ⟨x, h'⟩

theorem linked {c : Config} (hd : Distinct c) {p : Setup F} (hw : wire c = .ok p.wiring) : Linked p := by
  obtain ⟨n1, n2, n3, n4, n5, n6⟩ := names hd hw
  obtain ⟨-, -, -, -, w5, w6, -⟩ := C57_mutual c hd _ hw
  refine ⟨?_, ?_, ?_, ?_, ?_, ?_⟩
  · intro n ups downs h
    simp only [initial, find_of_mem n1 h]
  · intro n ups h
    simp only [initial, find_none (n4 n (List.mem_map.2 ⟨_, h, rfl⟩)), find_of_mem n2 h]
  · intro n nd h
    simp only [initial] at h
    split at h
    · rename_i a ups downs hf
      obtain rfl : a = n := by simpa using List.find?_some hf
      exact .inl ⟨ups, downs, List.mem_of_find?_eq_some hf⟩
    · split at h
      · rename_i a ups hf
        obtain rfl : a = n := by simpa using List.find?_some hf
        exact .inr ⟨ups, List.mem_of_find?_eq_some hf⟩
      · cases h
  · intro n ups downs h
    obtain ⟨⟨g1, g2⟩, -⟩ := w5 n ups downs h
    refine ⟨g1, fun u hu => ?_⟩
    have hfw := ((g2 u).1 hu).1
    rcases forwards_node hd hw hfw with hm | hm
    · obtain ⟨⟨ups', downs'⟩, hm⟩ := mem_fst hm
      exact .inl ⟨ups', downs', hm, ((w5 u ups' downs' hm).2.2 n).2 hfw⟩
    · obtain ⟨downs', hm⟩ := mem_fst hm
      obtain ⟨i, hi⟩ := List.mem_iff_getElem?.1 hm
      exact .inr ⟨i, downs', hi, ((w6 u downs' hm).2 n).2 hfw⟩
  · intro u ups downs i downs' h h'
    exact n5 u (List.mem_map.2 ⟨_, List.mem_of_getElem? h', rfl⟩) (List.mem_map.2 ⟨_, h, rfl⟩)
  · intro u i j a b hi hj
    obtain ⟨hi', hi⟩ := List.getElem?_eq_some_iff.1 hi
    obtain ⟨hj', hj⟩ := List.getElem?_eq_some_iff.1 hj
    apply Classical.byContradiction
    intro hne
    have hpair := List.pairwise_iff_getElem.1 n3
    rcases Nat.lt_or_gt_of_ne hne with h | h
    · exact hpair i j (by simpa using hi') (by simpa using hj') h (by simp [hi, hj])
    · exact hpair j i (by simpa using hj') (by simpa using hi') h (by simp [hi, hj])

theorem fed_iff {c : Config} (hd : Distinct c) {p : Setup F} (hw : wire c = .ok p.wiring)
    (hs : ∀ i, i ∈ p.stopOrder ↔ i < p.wiring.sources.length) (n : Str) : FedW p n ↔ Fed c n := by
  obtain ⟨n1, n2, n3, n4, n5, n6⟩ := names hd hw
  obtain ⟨w1, w2, w3, -, w5, w6, -⟩ := C57_mutual c hd _ hw
  have hchan := ((C58_starts_partial c hd).1 ⟨_, hw⟩).1
  constructor
  · intro h
    induction h with
    | source i u ch n h1 h2 h3 =>
      have hm := List.mem_of_getElem? h2
      refine .source u n ?_ (((w6 u ch hm).2 n).1 h3)
      rw [← w3]; exact List.mem_map.2 ⟨_, hm, rfl⟩
    | filter f ups ch n h1 h2 h3 ih => exact .filter f n ih (((w5 f ups ch h1).2.2 n).1 h3)
  · intro h
    induction h with
    | source s n h1 h2 =>
      rw [← w3] at h1
      obtain ⟨ch, hm⟩ := mem_fst h1
      obtain ⟨i, hi⟩ := List.mem_iff_getElem?.1 hm
      exact .source i s ch n ((hs i).2 (List.getElem?_eq_some_iff.1 hi).1) hi (((w6 s ch hm).2 n).2 h2)
    | filter f n h1 h2 ih =>
      rcases forwards_node hd hw h2 with hm | hm
      · obtain ⟨⟨ups, ch⟩, hm⟩ := mem_fst hm
        exact .filter f ups ch n hm ih (((w5 f ups ch hm).2.2 n).2 h2)
      · -- a source is not forwarded to
        exfalso
        have : HasChannel c f := by
          cases h1 with
          | source s _ _ hf => exact hchan s f hf
          | filter g _ _ hf => exact hchan g f hf
        rcases this with h | ⟨fs, h⟩
        · exact n6 f hm (by rw [w1]; exact h)
        · exact n5 f hm (by rw [w2]; exact List.mem_map.2 ⟨_, h, rfl⟩)

theorem node_iff {c : Config} (hd : Distinct c) {w : Wiring} (hw : wire c = .ok w) (n : Str) :
    n ∈ w.sinks.map (·.1) ++ w.filters.map (·.1) ↔ HasChannel c n := by
  obtain ⟨w1, w2, -⟩ := C57_mutual c hd _ hw
  rw [w1, w2, List.mem_append, HasChannel]
  refine or_congr Iff.rfl ⟨mem_fst, fun ⟨fs, h⟩ => List.mem_map.2 ⟨_, h, rfl⟩⟩

end Net
end Verif
