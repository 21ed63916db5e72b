import Verif.Lemmas.Store
/-!
# C104 — the bucket store is a plain collection of points
-/
namespace Verif
open Buckets Store
section
variable {F : Type} [F64 F]

/-- **C104** After every history of arrivals and resets whose series the 64-bit hash distinguishes,
for every bin width but 0: no operation has panicked, and iterating over the store yields — in some
order — exactly the points of the plain collection of `Verif/Spec/Store.lean` after the same
history. -/
theorem C104_store_is_collection (hash : Str × TagMap → Nat) (w : Int) (hw : w ≠ 0)
    (ops : List (BucketOp F)) (hsep : Separates hash (addedPoints ops)) :
    ∃ b pts, runBucket hash (Buckets.new w) ops = some b ∧ b.iter = some pts ∧
      pts.Perm (Store.run w [] ops) := by
  obtain ⟨b, e, hi, hp⟩ := run_perm hw (separates_inj hsep) ops (Buckets.new w) [] (Inv.new hash _ w)
    (by simp [Buckets.new]) (fun v hv => ⟨v, hv, rfl⟩)
  exact ⟨b, _, e, iter_eq b hi.wf.len, hp⟩

/-- Non-vacuity of C104: a gauge (persistent) in two bins, its value carried into a third by a
persistent counter point, a second series, a reset, and arrivals after it. -/
example :
    let p (n : Str) (ts : Int) (x : Value Int) (per : Bool) : Telemetry Int := ⟨n, x, per, none, ts, none, none⟩
    let hash : Str × TagMap → Nat := fun x => 100 - x.1.length
    let ops : List (BucketOp Int) := [.add 0 (p ['a'] 25 (.sum 2) true), .add 0 (p ['b', 'b'] 1 (.set 3) false),
      .add 0 (p ['a'] 4 (.set 5) true), .add 0 (p ['a'] 12 (.sum 1) true), .reset 40, .add 0 (p ['b', 'b'] 41 (.set 4) false),
      .add 0 (p ['a'] 51 (.sum 10) true)]
    (∀ a ∈ addedPoints ops, ∀ b ∈ addedPoints ops, hash a.hashInput = hash b.hashInput → SameSeries a b) ∧
    ((runBucket hash (Buckets.new 10) (ops.take 4)).bind Buckets.iter) =
      some [p ['b', 'b'] 1 (.set 3) false, p ['a'] 4 (.set 5) true, p ['a'] 12 (.sum 6) true, p ['a'] 25 (.sum 2) true] ∧
    Store.run 10 [] (ops.take 4) =
      [p ['a'] 25 (.sum 2) true, p ['b', 'b'] 1 (.set 3) false, p ['a'] 4 (.set 5) true, p ['a'] 12 (.sum 6) true] ∧
    Store.run 10 [] ops = [p ['a'] 40 (.sum 2) true, p ['b', 'b'] 41 (.set 4) false, p ['a'] 51 (.sum 12) true] := by
  decide +kernel

/-- Some point of `pts` lies in `x`'s series and time bin. -/
def Occupied (w : Int) (pts : List (Telemetry F)) (x : Telemetry F) : Prop :=
  ∃ p ∈ pts, SameSeries p x ∧ SameBin w p x

theorem Store.add_occupied (w : Int) (pts : List (Telemetry F)) (v x : Telemetry F) :
    Occupied w (Store.add w pts v) x ↔ Occupied w pts x ∨ (SameSeries v x ∧ SameBin w v x) := by
  unfold Store.add
  by_cases hc : ∃ p ∈ pts, SameSeries p v ∧ SameBin w p v
  · rw [if_pos hc]
    constructor
    · rintro ⟨q, hq, h⟩
      obtain ⟨p, hp, rfl⟩ := List.mem_map.1 hq
      refine .inl ⟨p, hp, ?_⟩
      split at h <;> exact h
    · have key : Occupied w pts x → Occupied w (pts.map fun p => if SameSeries p v ∧ SameBin w p v then p.addAssign v else p) x := by
        rintro ⟨p, hp, h⟩
        refine ⟨_, List.mem_map.2 ⟨p, hp, rfl⟩, ?_⟩
        split <;> exact h
      rintro (h | ⟨h1, h2⟩)
      · exact key h
      · obtain ⟨p, hp, h3, h4⟩ := hc
        exact key ⟨p, hp, SameSeries.trans h3 h1, h4.trans h2⟩
  · rw [if_neg hc]
    split
    · next q hq =>
      have hs : SameSeries q v := by
        split at hq
        · have hd := List.find?_some hq
          simp only [decide_eq_true_eq] at hd
          exact hd.1
        · cases hq
      constructor
      · rintro ⟨p, hp, h⟩
        rcases List.mem_append.1 hp with hp | hp
        · exact .inl ⟨p, hp, h⟩
        · rw [List.mem_singleton] at hp
          subst hp
          exact .inr ⟨SameSeries.trans (SameSeries.symm hs) h.1, h.2⟩
      · rintro (⟨p, hp, h⟩ | ⟨h1, h2⟩)
        · exact ⟨p, List.mem_append_left _ hp, h⟩
        · exact ⟨_, List.mem_append_right _ (List.mem_singleton.2 rfl), SameSeries.trans hs h1, h2⟩
    · constructor
      · rintro ⟨p, hp, h⟩
        rcases List.mem_append.1 hp with hp | hp
        · exact .inl ⟨p, hp, h⟩
        · rw [List.mem_singleton] at hp
          subst hp
          exact .inr h
      · rintro (⟨p, hp, h⟩ | h)
        · exact ⟨p, List.mem_append_left _ hp, h⟩
        · exact ⟨v, List.mem_append_right _ (List.mem_singleton.2 rfl), h⟩

theorem Store.run_append (w : Int) (pts : List (Telemetry F)) (ops ops' : List (BucketOp F)) :
    Store.run w pts (ops ++ ops') = Store.run w (Store.run w pts ops) ops' := by
  induction ops generalizing pts with
  | nil => rfl
  | cons o ops ih => cases o <;> simp only [List.cons_append, Store.run, ih]

theorem addedPoints_append (ops ops' : List (BucketOp F)) :
    addedPoints (ops ++ ops') = addedPoints ops ++ addedPoints ops' := by
  induction ops with
  | nil => rfl
  | cons o ops ih => cases o <;> simp [addedPoints, ih]

theorem addedPoints_adds (now : Telemetry F → Int) (vs : List (Telemetry F)) :
    addedPoints (vs.map fun v => .add (now v) v) = vs := by
  induction vs with
  | nil => rfl
  | cons v vs ih => simp [addedPoints, ih]

/-- **C104** Arrivals neither lose nor invent series or bins: after any history followed by arrivals
`vs` (persistent or not), a series has a point in a bin exactly if it had one before `vs` or one of `vs` is of that
series and bin.  There is one point for each such pair. -/
theorem C104_occupied_bins (hash : Str × TagMap → Nat) (w : Int) (hw : w ≠ 0)
    (ops : List (BucketOp F)) (now : Telemetry F → Int) (vs : List (Telemetry F))
    (hsep : Separates hash (addedPoints ops ++ vs)) :
    ∃ b pts b' pts', runBucket hash (Buckets.new w) ops = some b ∧ b.iter = some pts ∧
      runBucket hash (Buckets.new w) (ops ++ vs.map fun v => .add (now v) v) = some b' ∧ b'.iter = some pts' ∧
      (∀ x, Occupied w pts' x ↔ Occupied w pts x ∨ Occupied w vs x) ∧
      pts'.Pairwise (fun a c => ¬ (SameSeries a c ∧ SameBin w a c)) := by
  have hsub : Separates hash (addedPoints ops) := fun a ha c hc => hsep a (by simp [ha]) c (by simp [hc])
  obtain ⟨b, pts, h1, h2, h3⟩ := C104_store_is_collection hash w hw ops hsub
  have hsep' : Separates hash (addedPoints (ops ++ vs.map fun v => BucketOp.add (now v) v)) := by
    rw [addedPoints_append, addedPoints_adds]; exact hsep
  obtain ⟨b', hb', hi⟩ := reachable_inv hw _ _ hsep' (fun _ h => h)
  obtain ⟨b'', pts', h4, h5, h6⟩ := C104_store_is_collection hash w hw _ hsep'
  rw [hb'] at h4
  cases h4
  refine ⟨b, pts, b', pts', h1, h2, hb', h5, ?_, ?_⟩
  · intro x
    rw [Store.run_append] at h6
    have e1 : Occupied w pts' x ↔ Occupied w (Store.run w (Store.run w [] ops) (vs.map fun v => .add (now v) v)) x := by
      simp only [Occupied, h6.mem_iff]
    have e2 : Occupied w pts x ↔ Occupied w (Store.run w [] ops) x := by simp only [Occupied, h3.mem_iff]
    rw [e1, e2]
    generalize Store.run w [] ops = l
    clear hsep hsep' hb' h6 e1 e2 hi h5
    induction vs generalizing l with
    | nil => simp [Store.run, Occupied]
    | cons v vs ih =>
      simp only [List.map_cons, Store.run]
      refine (ih (Store.add w l v)).trans ?_
      rw [Store.add_occupied]
      simp only [Occupied, List.mem_cons, exists_eq_or_imp, or_assoc]
  · rw [iter_eq b' hi.wf.len] at h5
    cases h5
    refine hi.pairwise.imp fun {x y} hxy hs => ?_
    have := hxy (sameSeries_iff.1 hs.1)
    have h2 : x.bin w = y.bin w := hs.2
    omega

/-- Non-vacuity of C104_occupied_bins: after a reset one bin of `a` is left; three arrivals occupy two more. -/
example :
    let p (n : Str) (ts : Int) (x : Value Int) (per : Bool) : Telemetry Int := ⟨n, x, per, none, ts, none, none⟩
    let hash : Str × TagMap → Nat := fun x => x.1.length
    let ops : List (BucketOp Int) := [.add 0 (p ['a'] 25 (.sum 2) true), .add 0 (p ['b', 'b'] 1 (.set 3) false), .reset 40]
    let vs := [p ['a'] 61 (.sum 1) true, p ['b', 'b'] 5 (.set 3) false, p ['a'] 69 (.sum 1) false]
    (∀ a ∈ addedPoints ops ++ vs, ∀ b ∈ addedPoints ops ++ vs, hash a.hashInput = hash b.hashInput → SameSeries a b) ∧
    ((runBucket hash (Buckets.new 10) ops).bind Buckets.iter) = some [p ['a'] 40 (.sum 2) true] ∧
    ((runBucket hash (Buckets.new 10) (ops ++ vs.map fun v => .add 0 v)).bind Buckets.iter) =
      some [p ['a'] 40 (.sum 2) true, p ['a'] 61 (.sum 4) false, p ['b', 'b'] 5 (.set 3) false] := by decide +kernel

theorem resetRow_resetRow (n1 n2 : Int) (row : List (Telemetry F)) :
    Buckets.resetRow n2 (Buckets.resetRow n1 row) = Buckets.resetRow n2 row := by
  simp only [Buckets.resetRow_eq]
  cases row.getLast? with
  | none => rfl
  | some q => by_cases h : q.persist = true <;> simp [h]

theorem resetCount_resetRow (n1 : Int) (c : Nat) (row : List (Telemetry F)) :
    Buckets.resetCount c (Buckets.resetRow n1 row) = Buckets.resetCount c row := by
  rw [Buckets.resetRow_eq]
  simp only [Buckets.resetCount, ← List.getLast?_eq_getElem?]
  cases row.getLast? with
  | none => rfl
  | some q => by_cases h : q.persist = true <;> simp [h]

/-- **C104** A second reset right after a first changes nothing but the time stamp: the store is as
if only the second had happened. -/
theorem C104_reset_reset (b : Buckets F) (n1 n2 : Int) : (b.reset n1).reset n2 = b.reset n2 := by
  have h1 : (b.values.map (Buckets.resetRow n1)).map (Buckets.resetRow n2) = b.values.map (Buckets.resetRow n2) := by
    rw [List.map_map]
    exact List.map_congr_left fun row _ => resetRow_resetRow n1 n2 row
  have h2 : ∀ c, (b.values.map (Buckets.resetRow n1)).foldl Buckets.resetCount c = b.values.foldl Buckets.resetCount c := by
    generalize b.values = vs
    induction vs with
    | nil => intro c; rfl
    | cons row vs ih => intro c; simp only [List.map_cons, List.foldl_cons, resetCount_resetRow, ih]
  simp only [Buckets.reset, h1, h2]

/-- Non-vacuity of C104_reset_reset: a point survives both resets. -/
example :
    let p (ts : Int) : Telemetry Int := ⟨['a'], .sum 2, true, none, ts, none, none⟩
    ((runBucket (fun _ => 0) (Buckets.new 1) [.add 0 (p 1), .add 0 (p 2), .reset 40, .reset 50]).bind Buckets.iter) =
      some [{ p 50 with value := .sum 4 }] := by decide +kernel

/-- **C104** What a reset leaves: nothing if no arrival was persistent; something if all were and there was
one. -/
theorem C104_reset_extremes (hash : Str × TagMap → Nat) (w : Int) (hw : w ≠ 0)
    (now : Telemetry F → Int) (vs : List (Telemetry F)) (hsep : Separates hash vs) (t : Int) :
    ∃ b pts, runBucket hash (Buckets.new w) ((vs.map fun v => .add (now v) v) ++ [.reset t]) = some b ∧ b.iter = some pts ∧
      ((∀ v ∈ vs, v.persist = false) → pts = []) ∧
      ((∀ v ∈ vs, v.persist = true) → ∀ v ∈ vs, ∃ p ∈ pts, SameSeries p v ∧ p.persist = true ∧ p.timestamp = t) := by
  have hadd : addedPoints ((vs.map fun v => BucketOp.add (now v) v) ++ [.reset t]) = vs := by
    rw [addedPoints_append, addedPoints_adds]; simp [addedPoints]
  obtain ⟨b, pts, h1, h2, h3⟩ := C104_store_is_collection hash w hw ((vs.map fun v => BucketOp.add (now v) v) ++ [.reset t])
    (by rw [hadd]; exact hsep)
  rw [Store.run_append] at h3
  simp only [Store.run] at h3
  have hall : ∀ (per : Bool) (us : List (Telemetry F)) (l : List (Telemetry F)), (∀ v ∈ us, v.persist = per) →
      (∀ p ∈ l, p.persist = per) → ∀ p ∈ Store.run w l (us.map fun v => .add (now v) v), p.persist = per := by
    intro per us
    induction us with
    | nil => intro l _ hl; exact hl
    | cons u us ih =>
      intro l hu hl
      simp only [List.map_cons, Store.run]
      refine ih _ (fun v hv => hu v (by simp [hv])) ?_
      intro p hp
      unfold Store.add at hp
      by_cases hc : ∃ p ∈ l, SameSeries p u ∧ SameBin w p u
      · rw [if_pos hc] at hp
        obtain ⟨q, hq, rfl⟩ := List.mem_map.1 hp
        split
        · have h1 := hl q hq
          have h2 := hu u (by simp)
          simp [Telemetry.addAssign, h1, h2]
        · exact hl q hq
      · rw [if_neg hc] at hp
        have hup := hu u (by simp)
        cases per with
        | false =>
          rw [hup] at hp
          simp only [Bool.false_eq_true, if_false, List.mem_append, List.mem_singleton] at hp
          rcases hp with hp | rfl
          · exact hl p hp
          · exact hup
        | true =>
          split at hp <;> rcases List.mem_append.1 hp with hp | hp
          · exact hl p hp
          · rw [List.mem_singleton] at hp; subst hp
            simp [Telemetry.addAssign, hup]
          · exact hl p hp
          · rw [List.mem_singleton] at hp; subst hp; exact hup
  refine ⟨b, pts, h1, h2, ?_, ?_⟩
  · intro hv
    have := hall false vs [] hv (by simp)
    have hnil : Store.reset w t (Store.run w [] (vs.map fun v => .add (now v) v)) = [] := by
      unfold Store.reset
      rw [List.filter_eq_nil_iff.2 (fun q hq => by simp [this q hq])]
      rfl
    rw [hnil] at h3
    exact h3.eq_nil
  · intro hv v hm
    have hper := hall true vs [] hv (by simp)
    obtain ⟨b0, pts0, h0, h0', h0''⟩ := C104_store_is_collection hash w hw (vs.map fun v => BucketOp.add (now v) v)
      (by rw [addedPoints_adds]; exact hsep)
    have hocc : ∀ (us : List (Telemetry F)) (l : List (Telemetry F)), (∃ p ∈ l, SameSeries p v) ∨ v ∈ us →
        ∃ p ∈ Store.run w l (us.map fun v => .add (now v) v), SameSeries p v := by
      intro us
      induction us with
      | nil => intro l h; rcases h with h | h; exact h; simp at h
      | cons u us ih =>
        intro l h
        simp only [List.map_cons, Store.run]
        refine ih _ ?_
        rcases h with ⟨p, hp, hs⟩ | h
        · left
          obtain ⟨q, hq, h'⟩ := (Store.add_occupied w l u p).2 (.inl ⟨p, hp, ⟨rfl, rfl⟩, rfl⟩)
          exact ⟨q, hq, SameSeries.trans h'.1 hs⟩
        · rcases List.mem_cons.1 h with rfl | h
          · left
            obtain ⟨q, hq, h'⟩ := (Store.add_occupied w l v v).2 (.inr ⟨⟨rfl, rfl⟩, rfl⟩)
            exact ⟨q, hq, h'.1⟩
          · exact .inr h
    have hex := hocc vs [] (.inr hm)
    generalize Store.run w [] (vs.map fun v => .add (now v) v) = l at h3 hper hex
    -- the point of the series in the last bin
    have hmax : ∀ (m : List (Telemetry F)), (∃ p ∈ m, SameSeries p v) →
        ∃ q ∈ m, SameSeries q v ∧ ∀ r ∈ m, SameSeries r v → Store.binOf w r ≤ Store.binOf w q := by
      intro m
      induction m with
      | nil => rintro ⟨p, hp, _⟩; simp at hp
      | cons a m ih =>
        intro h
        by_cases hm : ∃ p ∈ m, SameSeries p v
        · obtain ⟨q, hq, hs, hle⟩ := ih hm
          by_cases ha : SameSeries a v ∧ Store.binOf w q ≤ Store.binOf w a
          · refine ⟨a, by simp, ha.1, ?_⟩
            intro r hr hrs
            rcases List.mem_cons.1 hr with rfl | hr
            · exact Int.le_refl _
            · exact Int.le_trans (hle r hr hrs) ha.2
          · refine ⟨q, by simp [hq], hs, ?_⟩
            intro r hr hrs
            rcases List.mem_cons.1 hr with rfl | hr
            · have : ¬ Store.binOf w q ≤ Store.binOf w r := fun h => ha ⟨hrs, h⟩
              omega
            · exact hle r hr hrs
        · obtain ⟨p, hp, hs⟩ := h
          rcases List.mem_cons.1 hp with rfl | hp
          · refine ⟨p, by simp, hs, ?_⟩
            intro r hr hrs
            rcases List.mem_cons.1 hr with rfl | hr
            · exact Int.le_refl _
            · exact absurd ⟨r, hr, hrs⟩ hm
          · exact absurd ⟨p, hp, hs⟩ hm
    obtain ⟨q, hq, hs, hle⟩ := hmax l hex
    refine ⟨{ q with timestamp := t }, h3.mem_iff.2 ?_, hs, hper q hq, rfl⟩
    unfold Store.reset
    refine List.mem_map.2 ⟨q, List.mem_filter.2 ⟨hq, ?_⟩, rfl⟩
    rw [Bool.and_eq_true, decide_eq_true_eq]
    exact ⟨hper q hq, fun r hr hrs => hle r hr (SameSeries.trans hrs hs)⟩

/-- Non-vacuity of C104_reset_extremes: three arrivals of two series, first all fleeting, then all persistent. -/
example :
    let p (per : Bool) (n : Str) (ts : Int) : Telemetry Int := ⟨n, .sum 2, per, none, ts, none, none⟩
    let hash : Str × TagMap → Nat := fun x => x.1.length
    let vs (per : Bool) := [p per ['a'] 3, p per ['b', 'b'] 1, p per ['a'] 2]
    (∀ per, ∀ a ∈ vs per, ∀ b ∈ vs per, hash a.hashInput = hash b.hashInput → SameSeries a b) ∧
    ((runBucket hash (Buckets.new 1) (((vs false).map fun v => .add 0 v) ++ [.reset 9])).bind Buckets.iter) = some [] ∧
    ((runBucket hash (Buckets.new 1) (((vs true).map fun v => .add 0 v) ++ [.reset 9])).bind Buckets.iter) =
      some [p true ['a'] 9, p true ['b', 'b'] 9] := by decide +kernel

end
end Verif
