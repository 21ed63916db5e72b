import Verif.Lemmas.BucketsInv
import Verif.Spec.BucketsZero
import Verif.Model.Console
import Verif.Model.Config
import Verif.Model.Wavefront
import Verif.Spec.Config
/-!
# C110: every accepted bin width can be used

False of the width 0.
-/
namespace Verif
open Buckets
variable {F : Type} [F64 F]

private theorem searchLoop_probes {α : Type} (f : α → Ordering) (bad : α → Bool) (l : List α) : ∀ n base size,
    Wavefront.searchLoop (fun x => if bad x then none else some (f x)) l n base size =
      if (bsearchLoopProbes f l n base size).any bad then none else some (bsearchLoop f l n base size) := by
  intro n
  induction n with
  | zero => intro base size; simp [Wavefront.searchLoop, bsearchLoopProbes, bsearchLoop]
  | succ n ih =>
    intro base size
    simp only [Wavefront.searchLoop, bsearchLoopProbes, bsearchLoop]
    by_cases h : size > 1
    · simp only [h, if_true]
      cases hx : l[base + size / 2]? with
      | none => simp
      | some x => by_cases hb : bad x = true <;> simp [hb, ih]
    · simp [h]

/-- A binary search with a comparison that panics on some elements panics exactly when one of them is among the elements
`bsearchProbes` lists, and otherwise finds what it would find without them. -/
theorem C110_search_panics {α : Type} (f : α → Ordering) (bad : α → Bool) (l : List α) :
    Wavefront.search (fun x => if bad x then none else some (f x)) l =
      if (bsearchProbes f l).any bad then none else some (bsearch f l) := by
  by_cases h : l.length = 0
  · have : l = [] := List.length_eq_zero_iff.1 h
    subst this
    simp [Wavefront.search, bsearch, bsearchProbes, bsearchLoopProbes]
  · simp only [Wavefront.search, bsearch, bsearchProbes, h, if_false, searchLoop_probes, List.any_append]
    by_cases hp : (bsearchLoopProbes f l l.length 0 l.length).any bad = true
    · simp [hp]
    · simp only [hp, Bool.false_eq_true, if_false, Bool.false_or]
      cases hx : l[bsearchLoop f l l.length 0 l.length]? with
      | none => simp
      | some x => by_cases hb : bad x = true <;> simp [hb] <;> cases f x <;> rfl

/-- Of seven elements three are compared: the search for 6 does not see 2, and one that panics on 4 panics. -/
example : bsearchProbes (fun x : Nat => compare x 6) [1, 2, 3, 4, 5, 6, 7] = [4, 6, 7, 6] ∧
    Wavefront.search (fun x : Nat => if x == 2 then none else some (compare x 6)) [1, 2, 3, 4, 5, 6, 7] = some (.ok 5) ∧
    Wavefront.search (fun x : Nat => if x == 4 then none else some (compare x 6)) [1, 2, 3, 4, 5, 6, 7] = none := by
  decide

/-- the next addition to one of the series of `T` comes before what removes them -/
private def Hit (T : Telemetry F → Prop) (ops : List (BucketOp F)) : Prop :=
  ∃ t mid now v post, T t ∧ ops = mid ++ .add now v :: post ∧ SameSeries t v ∧ (t.persist = true ∨ ∀ n, .reset n ∉ mid)

private theorem hit_nil (T : Telemetry F → Prop) : ¬ Hit T ([] : List (BucketOp F)) := by
  rintro ⟨t, mid, now, v, post, -, h, -⟩
  simp at h

private theorem hit_add (T : Telemetry F → Prop) (n : Int) (u : Telemetry F) (ops : List (BucketOp F)) :
    Hit T (.add n u :: ops) ↔ (∃ t, T t ∧ SameSeries t u) ∨ Hit T ops := by
  constructor
  · rintro ⟨t, mid, now, v, post, ht, h, hs, hp⟩
    cases mid with
    | nil =>
      simp only [List.nil_append, List.cons.injEq, BucketOp.add.injEq] at h
      obtain ⟨⟨-, rfl⟩, -⟩ := h
      exact .inl ⟨t, ht, hs⟩
    | cons o mid =>
      simp only [List.cons_append, List.cons.injEq] at h
      exact .inr ⟨t, mid, now, v, post, ht, h.2, hs, hp.imp id fun h n hn => h n (by simp [hn])⟩
  · rintro (⟨t, ht, hs⟩ | ⟨t, mid, now, v, post, ht, h, hs, hp⟩)
    · exact ⟨t, [], n, u, ops, ht, rfl, hs, .inr (by simp)⟩
    · refine ⟨t, .add n u :: mid, now, v, post, ht, by simp [h], hs, hp.imp id ?_⟩
      intro h n hn
      simp only [List.mem_cons, reduceCtorEq, false_or] at hn
      exact h n hn

private theorem hit_reset (T : Telemetry F → Prop) (n : Int) (ops : List (BucketOp F)) :
    Hit T (.reset n :: ops) ↔ Hit (fun t => T t ∧ t.persist = true) ops := by
  constructor
  · rintro ⟨t, mid, now, v, post, ht, h, hs, hp⟩
    cases mid with
    | nil => simp at h
    | cons o mid =>
      simp only [List.cons_append, List.cons.injEq] at h
      obtain ⟨rfl, h⟩ := h
      have hp : t.persist = true := hp.resolve_right fun h => h n (by simp)
      exact ⟨t, mid, now, v, post, ⟨ht, hp⟩, h, hs, .inl hp⟩
  · rintro ⟨t, mid, now, v, post, ht, h, hs, hp⟩
    exact ⟨t, .reset n :: mid, now, v, post, ht.1, by simp [h], hs, .inl ht.2⟩

private theorem again_nil : ¬ AddsAgain ([] : List (BucketOp F)) := by
  rintro ⟨pre, now, u, mid, now', v, post, h, -⟩
  simp at h

private theorem again_reset (n : Int) (ops : List (BucketOp F)) : AddsAgain (.reset n :: ops) ↔ AddsAgain ops := by
  constructor
  · rintro ⟨pre, now, u, mid, now', v, post, h, hs⟩
    cases pre with
    | nil => simp at h
    | cons o pre =>
      simp only [List.cons_append, List.cons.injEq] at h
      exact ⟨pre, now, u, mid, now', v, post, h.2, hs⟩
  · rintro ⟨pre, now, u, mid, now', v, post, h, hs⟩
    exact ⟨.reset n :: pre, now, u, mid, now', v, post, by simp [h], hs⟩

private theorem again_add (n : Int) (u : Telemetry F) (ops : List (BucketOp F)) :
    AddsAgain (.add n u :: ops) ↔ Hit (· = u) ops ∨ AddsAgain ops := by
  constructor
  · rintro ⟨pre, now, w, mid, now', v, post, h, hs, hp⟩
    cases pre with
    | nil =>
      simp only [List.nil_append, List.cons.injEq, BucketOp.add.injEq] at h
      obtain ⟨⟨-, rfl⟩, h⟩ := h
      exact .inl ⟨u, mid, now', v, post, rfl, h, hs, hp⟩
    | cons o pre =>
      simp only [List.cons_append, List.cons.injEq] at h
      exact .inr ⟨pre, now, w, mid, now', v, post, h.2, hs, hp⟩
  · rintro (⟨t, mid, now, v, post, rfl, h, hs, hp⟩ | ⟨pre, now, w, mid, now', v, post, h, hs⟩)
    · exact ⟨[], n, t, mid, now, v, post, by simp [h], hs, hp⟩
    · exact ⟨.add n u :: pre, now, w, mid, now', v, post, by simp [h], hs⟩

private theorem hit_or (T U : Telemetry F → Prop) (ops : List (BucketOp F)) :
    Hit (fun t => T t ∨ U t) ops ↔ Hit T ops ∨ Hit U ops := by
  constructor
  · rintro ⟨t, mid, now, v, post, ht | ht, h⟩
    · exact .inl ⟨t, mid, now, v, post, ht, h⟩
    · exact .inr ⟨t, mid, now, v, post, ht, h⟩
  · rintro (⟨t, mid, now, v, post, ht, h⟩ | ⟨t, mid, now, v, post, ht, h⟩)
    · exact ⟨t, mid, now, v, post, .inl ht, h⟩
    · exact ⟨t, mid, now, v, post, .inr ht, h⟩

/-- a row of the zero-width store has at most one point -/
private theorem row_short {hash : Str × TagMap → Nat} {S : Str × TagMap → Prop} {k : Nat} {row : List (Telemetry F)}
    (h : RowOk hash S 0 k row) : row = [] ∨ ∃ a, row = [a] := by
  rcases row with _ | ⟨a, _ | ⟨b, row⟩⟩
  · exact .inl rfl
  · exact .inr ⟨a, rfl⟩
  · have := h.sorted
    have := (List.pairwise_cons.1 this).1 b (by simp)
    simp [Telemetry.bin] at this

private theorem addRow_nil (now : Int) (v : Telemetry F) : addRow now 0 [] v = some ([v], true) := by
  simp [addRow, bsearch, bsearchProbes, bsearchLoopProbes, bsearchLoop]

private theorem addRow_one (now : Int) (a v : Telemetry F) (h : SameSeries a v) : addRow now 0 [a] v = none := by
  have h2 : cmpTagmap a.tags v.tags = .eq := by
    have := h.2
    cases ha : a.tags <;> cases hb : v.tags <;> try rfl
    rw [ha, hb] at this
    simp only [Option.getD_some] at this
    rw [this, cmpTagmap_refl]
  have h1 : cmpStr a.name v.name = .eq := by rw [h.1, cmpStr_refl]
  simp [addRow, bsearchProbes, bsearchLoopProbes, bsearchLoop, h1, h2]

private theorem reset_mem {hash : Str × TagMap → Nat} {S : Str × TagMap → Prop} {b : Buckets F} (hi : Inv hash S 0 b)
    (now : Int) (t : Telemetry F) :
    t ∈ (b.reset now).values.flatten ↔ ∃ u ∈ b.values.flatten, u.persist = true ∧ t = { u with timestamp := now } := by
  have hrow : ∀ row ∈ b.values, row = [] ∨ ∃ a, row = [a] := by
    intro row hr
    obtain ⟨i, h2, rfl⟩ := List.mem_iff_getElem.1 hr
    have hz : i < (b.keys.zip b.values).length := by simp [hi.wf.len]; omega
    have := List.getElem_mem hz
    rw [List.getElem_zip] at this
    exact row_short (hi.rows _ this)
  simp only [Buckets.reset, List.mem_flatten, List.mem_map]
  constructor
  · rintro ⟨l, ⟨row, hr, rfl⟩, ht⟩
    rcases hrow row hr with rfl | ⟨a, rfl⟩
    · simp [resetRow] at ht
    · by_cases hp : a.persist = true
      · simp only [resetRow, List.length_singleton, Nat.sub_self, List.getElem?_cons_zero, hp, if_true,
          List.mem_singleton] at ht
        exact ⟨a, ⟨[a], hr, by simp⟩, hp, by rw [ht, hp]⟩
      · simp [resetRow, hp] at ht
  · rintro ⟨u, ⟨row, hr, hu⟩, hp, rfl⟩
    refine ⟨resetRow now row, ⟨row, hr, rfl⟩, ?_⟩
    rcases hrow row hr with rfl | ⟨a, rfl⟩
    · simp at hu
    · obtain rfl : u = a := by simpa using hu
      simp [resetRow, hp]

private theorem hit_restamp {T U : Telemetry F → Prop} (now : Int) (ops : List (BucketOp F))
    (h : ∀ t, U t ↔ ∃ u, T u ∧ u.persist = true ∧ t = { u with timestamp := now }) :
    Hit U ops ↔ Hit (fun t => T t ∧ t.persist = true) ops := by
  constructor
  · rintro ⟨t, mid, n, v, post, ht, ho, hs, hp⟩
    obtain ⟨u, hu, hup, rfl⟩ := (h t).1 ht
    exact ⟨u, mid, n, v, post, ⟨hu, hup⟩, ho, hs, hp⟩
  · rintro ⟨u, mid, n, v, post, ⟨hu, hup⟩, ho, hs, hp⟩
    exact ⟨_, mid, n, v, post, (h _).2 ⟨u, hu, hup, rfl⟩, ho, hs, hp⟩

private theorem zero_run (hash : Str × TagMap → Nat) (S : Str × TagMap → Prop)
    (hinj : ∀ x y, S x → S y → hash x = hash y → x = y) : ∀ (ops : List (BucketOp F)) (b : Buckets F),
    Inv hash S 0 b → (∀ v ∈ addedPoints ops, S v.hashInput) →
    (runBucket hash b ops = none ↔ Hit (· ∈ b.values.flatten) ops ∨ AddsAgain ops) := by
  intro ops
  induction ops with
  | nil => intro b _ _; simp [runBucket, hit_nil, again_nil]
  | cons o ops ih =>
    intro b hi hS
    cases o with
    | reset now =>
      rw [runBucket, ih _ (hi.reset now) hS, hit_reset, again_reset]
      rw [hit_restamp (T := (· ∈ b.values.flatten)) now ops (reset_mem hi now)]
    | add now v =>
      have hv : S v.hashInput := hS v (by simp [addedPoints])
      obtain ⟨kp, kq, vp, vq, row, hrow, hsome, hnone, hold, -, -⟩ := hi.addOf now v hv
      rw [hit_add, again_add]
      rcases row_short hrow with rfl | ⟨a, rfl⟩
      · obtain ⟨b', h1, h2, h3⟩ := hsome [v] true (addRow_nil now v)
          (.fresh [] [] (.inr rfl) (by simp) (by simp) rfl rfl)
        rw [runBucket, h1]
        simp only
        rw [ih b' h2 (fun u hu => hS u (by simp [addedPoints, hu]))]
        obtain ⟨hf, hf'⟩ := h3.flatten
        have hmem : (fun t => t ∈ b'.values.flatten) = fun t => t ∈ b.values.flatten ∨ t = v := by
          funext t
          rw [hf, hf']
          simp only [List.mem_append, List.mem_singleton, List.not_mem_nil, false_or, eq_iff_iff]
          constructor
          · rintro (h | h | h) <;> simp [h]
          · rintro ((h | h) | h) <;> simp [h]
        rw [hmem, hit_or]
        have hno : ¬ ∃ t, t ∈ b.values.flatten ∧ SameSeries t v := by
          rintro ⟨t, ht, hs⟩
          obtain ⟨r, hr, htr⟩ := List.mem_flatten.1 ht
          obtain ⟨i, h2i, rfl⟩ := List.mem_iff_getElem.1 hr
          have hz : i < (b.keys.zip b.values).length := by simp [hi.wf.len]; omega
          have hm := List.getElem_mem hz
          rw [List.getElem_zip] at hm
          have hk := (hi.rows _ hm).key t htr
          have hkey : hash v.hashInput = b.keys[i]'(by rw [hi.wf.len]; exact h2i) := by
            rw [← sameSeries_iff.1 hs]; exact hk
          rcases hold with ⟨hk', hv'⟩ | ⟨-, hk', hv', hnot⟩
          · -- the row of this key is empty
            have hlen : kp.length = vp.length := h3.lp
            have hs' := hi.wf.sorted
            have hi' : i = kp.length := by
              have hn : b.keys.Nodup := hs'.imp (fun h => Nat.ne_of_lt h)
              have h5 : b.keys[kp.length]? = some (hash v.hashInput) := by rw [hk']; simp
              have h6 : b.keys[i]? = some (hash v.hashInput) := by
                rw [hkey]; exact List.getElem?_eq_getElem _
              exact (List.getElem?_inj (by rw [hi.wf.len]; exact h2i) hn).1 (h6.trans h5.symm)
            subst hi'
            have h7 : b.values[kp.length]? = some [] := by rw [hv', hlen]; simp
            rw [List.getElem?_eq_getElem h2i] at h7
            rw [Option.some.inj h7] at htr
            simp at htr
          · exact hnot (hkey ▸ List.getElem_mem _)
        simp only [hno, false_or]
        simp only [or_assoc]
      · have hsv : SameSeries a v := sameSeries_iff.2 (hinj _ _ (hrow.known a (by simp)) hv (hrow.key a (by simp)))
        rw [runBucket, hnone (addRow_one now a v hsv)]
        simp only [true_iff]
        refine .inl (.inl ⟨a, ?_, hsv⟩)
        rcases hold with ⟨-, hv'⟩ | ⟨h, -⟩
        · rw [hv']; simp
        · simp at h

/-- **C110, other widths.**  A store whose bins are not of width 0 takes every history of points and resets, whatever the
hash function. -/
theorem C110_other_widths (hash : Str × TagMap → Nat) (w : Int) (hw : w ≠ 0) (ops : List (BucketOp F)) :
    (runBucket hash (Buckets.new w) ops).isSome := by
  have : ∀ (ops : List (BucketOp F)) (b : Buckets F), Wf b → b.binWidth = w → (runBucket hash b ops).isSome := by
    intro ops
    induction ops with
    | nil => intro b _ _; rfl
    | cons o ops ih =>
      intro b hb hbw
      cases o with
      | reset now => rw [runBucket]; exact ih _ (hb.reset now) hbw
      | add now v =>
        obtain ⟨b', kp, kq, vp, vq, row, row', ins, h1, h2, -⟩ := add_total hash now b v hb (by rw [hbw]; exact hw)
        rw [runBucket, h1]
        exact ih b' h2.wf (h2.width'.trans hbw)
  exact this ops _ (Wf.new w) rfl

/-- **C110, width 0.**  A store whose bins have width 0 panics in exactly those histories that add a point of a series of
which the store still has one. -/
theorem C110_zero_width (hash : Str × TagMap → Nat) (ops : List (BucketOp F)) (hsep : Separates hash (addedPoints ops)) :
    runBucket hash (Buckets.new 0) ops = none ↔ AddsAgain ops := by
  rw [zero_run hash (fun x => ∃ v ∈ addedPoints ops, v.hashInput = x) ?_ ops _ (Inv.new ..) ?_]
  · simp only [Buckets.new, List.flatten_nil, List.not_mem_nil, or_iff_right_iff_imp]
    rintro ⟨t, mid, now, v, post, ht, -⟩
    exact ht.elim
  · rintro x y ⟨u, hu, rfl⟩ ⟨v, hv, rfl⟩ h
    exact sameSeries_iff.1 (hsep u hu v hv h)
  · exact fun v hv => ⟨v, hv, rfl⟩

/-- Two histories that meet the hypothesis: one is taken, with a reset between two points of one series; the other panics. -/
example :
    let p (n : Str) (ts x : Int) (k : Bool) : Telemetry Int := ⟨n, .sum x, k, none, ts, none, none⟩
    let hash : Str × TagMap → Nat := fun x => x.1.length
    let ok : List (BucketOp Int) := [.add 0 (p ['a'] 25 2 false), .add 0 (p ['b', 'b'] 1 3 true), .reset 30,
      .add 0 (p ['a'] 3 5 false)]
    Separates hash (addedPoints (ok ++ [.add 0 (p ['b', 'b'] 5 5 false)])) ∧
    (runBucket hash (Buckets.new 0) ok).isSome = true ∧
    (runBucket hash (Buckets.new 0) (ok ++ [.add 0 (p ['b', 'b'] 5 5 false)])).isSome = false := by
  refine ⟨?_, by decide, by decide⟩
  intro a ha b hb
  simp only [List.cons_append, List.nil_append, addedPoints, List.mem_cons, List.not_mem_nil, or_false] at ha hb
  rcases ha with rfl | rfl | rfl | rfl <;> rcases hb with rfl | rfl | rfl | rfl <;> simp [SameSeries, Telemetry.hashInput]

/-- **C110 is false as stated**: a configuration that sets `bin_width = 0` is accepted, and then the console's second point of
any series, at whatever times, panics. -/
theorem C110_every_width_false (x : Config.Ext F) : ∃ (cfg : Config.Toml F) (a : Config.Args F) (s : Config.Console),
    Config.parse x cfg = .ok a ∧ a.console = some s ∧ s.binWidth = 0 ∧
    ∀ (ext : Console.Ext F) (tags : TagMap) (now now' : Int) (u v : Telemetry F), SameSeries u v →
      ∃ st, Console.deliver ext now (Console.init s.binWidth tags) u = some st ∧ Console.deliver ext now' st v = none := by
  refine ⟨.table [("sinks".toList, .table [("console".toList, .table [("bin_width".toList, .int 0)])])], _, _, rfl, rfl, rfl, ?_⟩
  intro ext tags now now' u v hs
  have hh : ext.nameTagHash v.hashInput = ext.nameTagHash u.hashInput := by rw [sameSeries_iff.1 hs]
  refine ⟨⟨⟨[ext.nameTagHash u.hashInput], [[u]], satAdd 0 1, 0⟩, [], tags⟩, ?_, ?_⟩
  · simp [Console.deliver, Console.init, Buckets.add, Buckets.new, bsearch, addRow_nil]
  simp [Console.deliver, Console.init, Buckets.add, Buckets.new, bsearch, bsearchLoop, addRow_nil, addRow_one _ _ _ hs, hh]

end Verif
