import Verif.Spec.Prometheus
import Verif.Lemmas.Search
import Verif.Lemmas.Cmp
import Verif.Lemmas.Buckets
/-!
# Lemmas about the Prometheus sink
-/
namespace Verif
namespace Prometheus
section
variable {F : Type} [F64 F]

theorem find_put (data : List (Str × Acc F)) (n m : Str) (a : Acc F) :
    find (put data n a) m = if n = m then some a else find data m := by
  induction data with
  | nil => simp [put, find]
  | cons kb rest ih =>
    obtain ⟨k, b⟩ := kb
    simp only [put]
    by_cases hk : k = n
    · subst hk
      simp only [if_true, find]
      by_cases hm : k = m <;> simp [hm]
    · simp only [hk, if_false, find]
      by_cases hm : k = m
      · subst hm
        have : ¬ n = k := fun h => hk h.symm
        simp [this]
      · simp [hm, ih]

theorem find_map (f : Acc F → Acc F) (data : List (Str × Acc F)) (n : Str) :
    find (data.map fun ka => (ka.1, f ka.2)) n = (find data n).map f := by
  induction data with
  | nil => rfl
  | cons kb rest ih =>
    simp only [List.map_cons, find]
    split
    · rfl
    · exact ih

/-- The names are distinct. -/
def Names (data : List (Str × Acc F)) : Prop := (data.map Prod.fst).Nodup

theorem put_names (data : List (Str × Acc F)) (n : Str) (a : Acc F) (h : Names data) :
    Names (put data n a) ∧ ∀ m, m ∈ (put data n a).map Prod.fst ↔ (m = n ∨ m ∈ data.map Prod.fst) := by
  induction data with
  | nil => simp [put, Names]
  | cons kb rest ih =>
    obtain ⟨k, b⟩ := kb
    simp only [Names, List.map_cons, List.nodup_cons] at h
    obtain ⟨ih1, ih2⟩ := ih h.2
    simp only [put]
    by_cases hk : k = n
    · subst hk
      simp only [if_true, Names, List.map_cons, List.nodup_cons, List.mem_cons]
      exact ⟨h, fun m => by simp⟩
    · simp only [hk, if_false, Names, List.map_cons, List.nodup_cons, List.mem_cons]
      refine ⟨⟨?_, ih1⟩, fun m => ?_⟩
      · rw [ih2]; simp only [hk, false_or]; exact h.1
      · rw [ih2]; constructor
        · rintro (h | h | h) <;> simp [h]
        · rintro (h | h | h) <;> simp [h]

theorem find_mem {data : List (Str × Acc F)} (hn : Names data) (n : Str) (a : Acc F) :
    (n, a) ∈ data ↔ find data n = some a := by
  induction data with
  | nil => simp [find]
  | cons kb rest ih =>
    obtain ⟨k, b⟩ := kb
    simp only [Names, List.map_cons, List.nodup_cons] at hn
    simp only [List.mem_cons, Prod.mk.injEq, find]
    by_cases hk : k = n
    · subst hk
      simp only [if_true, Option.some.injEq, true_and]
      constructor
      · rintro (h | h)
        · exact h.symm
        · exact absurd (List.mem_map_of_mem (f := Prod.fst) h) hn.1
      · intro h; exact Or.inl h.symm
    · simp only [hk, if_false]
      have : ¬ n = k := fun h => hk h.symm
      simp only [this, false_and, false_or]
      exact ih hn.2

/-- One operation seen from one name. -/
def stepName (ext : Ext F) (cap : Nat) (acc : Option (Acc F)) : Op F → Option (Option (Acc F))
  | .insert t => match acc with
    | some prev => if prev.kind = t.kind then (prev.insert ext t).map some else some (some prev)
    | none => (first cap t).map some
  | .purge now => some (acc.map fun a => (a.purge now).1)

/-- A history seen from one name. -/
def runName (ext : Ext F) (cap : Nat) : Option (Acc F) → List (Op F) → Option (Option (Acc F))
  | acc, [] => some acc
  | acc, op :: ops => (stepName ext cap acc op).bind fun acc => runName ext cap acc ops

theorem insert_cases (ext : Ext F) (a : Aggr F) (t : Telemetry F) :
    (stepName ext a.capacity (find a.data t.name) (.insert t) = none ∧ a.insert ext t = none) ∨
    ∃ a' ok acc, a.insert ext t = some (a', ok) ∧ a'.capacity = a.capacity ∧
      stepName ext a.capacity (find a.data t.name) (.insert t) = some (some acc) ∧
      (∀ m, find a'.data m = if t.name = m then some acc else find a.data m) ∧
      (Names a.data → Names a'.data) ∧ (ok = true ∨ a' = a) := by
  simp only [Aggr.insert, stepName]
  cases hf : find a.data t.name with
  | some prev =>
    simp only
    by_cases hk : prev.kind = t.kind
    · simp only [hk, if_true]
      cases hi : prev.insert ext t with
      | none => left; simp
      | some acc =>
        right
        refine ⟨_, _, acc, rfl, rfl, rfl, fun m => find_put a.data t.name m acc, fun h => (put_names _ _ _ h).1, Or.inl rfl⟩
    · simp only [hk, if_false]
      right
      refine ⟨a, false, prev, rfl, rfl, rfl, fun m => ?_, id, Or.inr rfl⟩
      by_cases hm : t.name = m
      · subst hm; simp [hf]
      · simp [hm]
  | none =>
    simp only
    cases hi : first a.capacity t with
    | none => left; simp
    | some acc =>
      right
      refine ⟨_, _, acc, rfl, rfl, rfl, fun m => find_put a.data t.name m acc, fun h => (put_names _ _ _ h).1, Or.inl rfl⟩

/-- What is stored under a name depends only on that name's part of the history. -/
theorem run_name (ext : Ext F) (n : Str) : ∀ (ops : List (Op F)) (a a' : Aggr F),
    run ext a ops = some a' →
    runName ext a.capacity (find a.data n) (onlyName n ops) = some (find a'.data n) ∧
      a'.capacity = a.capacity ∧ (Names a.data → Names a'.data) := by
  intro ops
  induction ops with
  | nil =>
    intro a a' h
    simp only [run, Option.some.injEq] at h
    subst h
    exact ⟨rfl, rfl, id⟩
  | cons op ops ih =>
    intro a a' h
    cases op with
    | insert t =>
      simp only [run] at h
      rcases insert_cases ext a t with ⟨_, h2⟩ | ⟨a1, ok, acc, h1, h2, h3, h4, h5, _⟩
      · rw [h2] at h; simp at h
      · rw [h1] at h
        obtain ⟨i1, i2, i3⟩ := ih a1 a' h
        refine ⟨?_, i2.trans h2, fun hn => i3 (h5 hn)⟩
        by_cases hn : t.name = n
        · have : onlyName n (.insert t :: ops) = .insert t :: onlyName n ops := by
            simp [onlyName, hn]
          subst hn
          rw [this, runName, h3]
          rw [h2, h4] at i1
          simpa using i1
        · have : onlyName n (.insert t :: ops) = onlyName n ops := by
            simp [onlyName, hn]
          rw [this, ← h2]
          rw [h4, if_neg hn] at i1
          exact i1
    | purge now =>
      simp only [run] at h
      obtain ⟨i1, i2, i3⟩ := ih _ a' h
      have hcap : (a.purge now).1.capacity = a.capacity := rfl
      refine ⟨?_, i2.trans hcap, fun hn => i3 (by simpa [Names, Aggr.purge, Function.comp_def] using hn)⟩
      have : onlyName n (.purge now :: ops) = .purge now :: onlyName n ops := by
        simp [onlyName]
      rw [this, runName]
      have hfd : find (a.purge now).1.data n = (find a.data n).map fun x => (x.purge now).1 :=
        find_map (fun x => (x.purge now).1) a.data n
      rw [hfd, hcap] at i1
      exact i1

theorem pointsOf_onlyName (n : Str) (ops : List (Op F)) :
    pointsOf n (onlyName n ops) = pointsOf n ops := by
  induction ops with
  | nil => rfl
  | cons op ops ih =>
    cases op with
    | insert t =>
      by_cases h : t.name = n
      · have : onlyName n (.insert t :: ops) = .insert t :: onlyName n ops := by
          simp [onlyName, h]
        rw [this]; simp [pointsOf, h, ih]
      · have : onlyName n (.insert t :: ops) = onlyName n ops := by
          simp [onlyName, h]
        rw [this]; simp [pointsOf, h, ih]
    | purge now =>
      have : onlyName n (.purge now :: ops) = .purge now :: onlyName n ops := by
        simp [onlyName]
      rw [this]; simp [pointsOf, ih]

/-- All insertions of a history carry this name. -/
def AllName (n : Str) (ops : List (Op F)) : Prop :=
  ∀ op ∈ ops, match op with | .insert t => t.name = n | .purge _ => True

theorem onlyName_all (n : Str) (ops : List (Op F)) : AllName n (onlyName n ops) := by
  intro op h
  simp only [onlyName, List.mem_filter] at h
  cases op with
  | insert t => simpa using h.2
  | purge now => trivial

theorem add_kind (a b : Value F) : (a.add b).kind = b.kind := by
  cases a <;> cases b <;> rfl

theorem addAssign_kind (a b : Telemetry F) : (a.addAssign b).kind = b.kind := add_kind _ _

/-- The result of inserting into a window that holds its samples in order. -/
theorem window_insert (ext : Ext F) (cap : Nat) (sum : F) (count : Nat)
    (samples : List (Telemetry F)) (t : Telemetry F) (hc : 1 ≤ cap)
    (hsort : samples.Pairwise (fun a b => a.timestamp < b.timestamp))
    (hlen : samples.length ≤ cap) (hk : t.kind = .summarize) (v : F) (hv : top t v) :
    ∃ all, (Acc.windowed cap sum count samples).insert ext t =
        some (.windowed cap (wrapSum ext sum v) (if u64Max - count ≤ 1 then 1 else count + 1)
          (all.drop (all.length - cap))) ∧
      all.Pairwise (fun a b => a.timestamp < b.timestamp) ∧
      ((∃ A cur B, samples = A ++ cur :: B ∧ cur.timestamp = t.timestamp ∧
          all = A ++ cur.addAssign t :: B) ∨
        (∃ A B, samples = A ++ B ∧ (∀ s ∈ samples, s.timestamp ≠ t.timestamp) ∧
          all = A ++ t :: B)) := by
  have hs3 : Sorted3 (fun probe : Telemetry F => compare probe.timestamp t.timestamp) samples := by
    intro i j x y hij hx hy
    have hlt : x.timestamp < y.timestamp := by
      rw [List.pairwise_iff_getElem] at hsort
      obtain ⟨h1, h2⟩ := List.getElem?_eq_some_iff.mp hx
      obtain ⟨h3, h4⟩ := List.getElem?_eq_some_iff.mp hy
      have := hsort i j h1 h3 hij
      rwa [h2, h4] at this
    simp only [compare_int_gt, compare_int_lt]
    omega
  have hsp := bsearch_spec (fun probe : Telemetry F => compare probe.timestamp t.timestamp) samples hs3
  simp only [Acc.insert, hk, ne_eq, not_true, if_false]
  have hv' : t.query (F64.ofNat 1) = some v := hv
  simp only [hv']
  cases hb : bsearch (fun probe : Telemetry F => compare probe.timestamp t.timestamp) samples with
  | ok i =>
    rw [hb] at hsp
    obtain ⟨A, cur, B, h1, h2, h3⟩ := hsp
    simp only [compare_int_eq] at h3
    have hget : samples[i]? = some cur := by rw [h1, ← h2]; simp
    have hset : samples.set i (cur.addAssign t) = A ++ cur.addAssign t :: B := by
      rw [h1, ← h2]; simp
    refine ⟨A ++ cur.addAssign t :: B, ?_, ?_, Or.inl ⟨A, cur, B, h1, h3, rfl⟩⟩
    · have hl : (A ++ cur.addAssign t :: B).length = samples.length := by rw [h1]; simp
      have hd : (A ++ cur.addAssign t :: B).length - cap = 0 := by omega
      simp only [hget, hset]
      rw [hd, List.drop_zero, if_pos (by omega)]
    · rw [h1] at hsort
      rw [List.pairwise_append, List.pairwise_cons] at hsort ⊢
      refine ⟨hsort.1, ⟨hsort.2.1.1, hsort.2.1.2⟩, ?_⟩
      intro a ha b hb
      rcases List.mem_cons.mp hb with rfl | hb
      · exact hsort.2.2 a ha cur (List.mem_cons_self ..)
      · exact hsort.2.2 a ha b (List.mem_cons_of_mem _ hb)
  | err i =>
    rw [hb] at hsp
    obtain ⟨A, B, h1, h2, h3, h4⟩ := hsp
    simp only [compare_int_lt] at h3
    simp only [compare_int_gt] at h4
    have hins : samples.insertIdx i t = A ++ t :: B := by
      rw [h1, ← h2]; exact Buckets.insertIdx_append A B t
    refine ⟨A ++ t :: B, ?_, ?_, Or.inr ⟨A, B, h1, ?_, rfl⟩⟩
    · simp only [hins]
      by_cases hl : (A ++ t :: B).length > cap
      · rw [if_pos hl, if_pos (by rw [List.length_drop]; omega)]
      · have : (A ++ t :: B).length - cap = 0 := by omega
        rw [if_neg hl, this, List.drop_zero, if_pos (by omega)]
    · rw [h1] at hsort
      rw [List.pairwise_append] at hsort
      rw [List.pairwise_append, List.pairwise_cons]
      refine ⟨hsort.1, ⟨h4, hsort.2.1⟩, ?_⟩
      intro a ha b hb
      rcases List.mem_cons.mp hb with rfl | hb
      · exact h3 a ha
      · exact hsort.2.2 a ha b hb
    · intro s hs
      rw [h1, List.mem_append] at hs
      rcases hs with hs | hs
      · have := h3 s hs; omega
      · have := h4 s hs; omega

/-- What a name's accumulator looks like after accepting the points `ts`; `P` is any property of
points kept by addition. -/
inductive AccOk (ext : Ext F) (cap : Nat) (P : Telemetry F → Prop) :
    List (Telemetry F) → Acc F → Prop where
  | perpetual (t0 : Telemetry F) (ts : List (Telemetry F)) (hk0 : t0.kind ≠ .summarize)
      (hk : ∀ t ∈ ts, t.kind = t0.kind) (hP : P (ts.foldl Telemetry.addAssign t0)) :
      AccOk ext cap P (t0 :: ts) (.perpetual (ts.foldl Telemetry.addAssign t0))
  | windowed (t0 : Telemetry F) (ts : List (Telemetry F)) (hk0 : t0.kind = .summarize)
      (hk : ∀ t ∈ ts, t.kind = t0.kind) (samples : List (Telemetry F)) (v0 : F) (vs : List F)
      (hv : (t0 :: ts).map (fun t => t.query (F64.ofNat 1)) = (v0 :: vs).map some)
      (hlen : samples.length ≤ cap)
      (hsort : samples.Pairwise (fun a b => a.timestamp < b.timestamp))
      (hP : ∀ s ∈ samples, P s ∧ s.kind = .summarize) :
      AccOk ext cap P (t0 :: ts) (.windowed cap (vs.foldl (wrapSum ext) v0) (ts.length + 1) samples)

theorem foldl_kind (ts : List (Telemetry F)) : ∀ t0 : Telemetry F, (∀ t ∈ ts, t.kind = t0.kind) →
    (ts.foldl Telemetry.addAssign t0).kind = t0.kind := by
  induction ts with
  | nil => intro t0 _; rfl
  | cons t ts ih =>
    intro t0 h
    rw [List.foldl_cons, ih _ (fun u hu => by
      rw [h u (List.mem_cons_of_mem _ hu), addAssign_kind, h t (List.mem_cons_self ..)])]
    rw [addAssign_kind, h t (List.mem_cons_self ..)]

theorem AccOk.kind {ext : Ext F} {cap : Nat} {P : Telemetry F → Prop} {t0 : Telemetry F}
    {ts : List (Telemetry F)} {acc : Acc F} (h : AccOk ext cap P (t0 :: ts) acc) :
    acc.kind = t0.kind ∧ ∀ t ∈ ts, t.kind = t0.kind := by
  cases h with
  | perpetual _ _ hk0 hk hP => exact ⟨foldl_kind ts t0 hk, hk⟩
  | windowed _ _ hk0 hk samples v0 vs hv hlen hsort hP => exact ⟨hk0.symm, hk⟩

theorem AccOk.purge {ext : Ext F} {cap : Nat} {P : Telemetry F → Prop} {ts : List (Telemetry F)}
    {acc : Acc F} (h : AccOk ext cap P ts acc) (now : Int) :
    AccOk ext cap P ts (acc.purge now).1 := by
  cases h with
  | perpetual t0 ts hk0 hk hP => exact .perpetual t0 ts hk0 hk hP
  | windowed t0 ts hk0 hk samples v0 vs hv hlen hsort hP =>
    refine .windowed t0 ts hk0 hk _ v0 vs hv ?_ (hsort.filter _) ?_
    · exact Nat.le_trans (List.length_filter_le ..) hlen
    · intro s hs
      exact hP s (List.mem_filter.mp hs).1

theorem AccOk.insert {ext : Ext F} {cap : Nat} {P : Telemetry F → Prop} {t0 : Telemetry F}
    {ts : List (Telemetry F)} {acc : Acc F} (h : AccOk ext cap P (t0 :: ts) acc)
    (hadd : ∀ a b, P a → P b → P (a.addAssign b)) (hc : 1 ≤ cap) (t : Telemetry F) (hP : P t)
    (hk : t.kind = t0.kind) (hv : t.kind = .summarize → ∃ v, top t v)
    (hlen : ts.length + 2 < u64Max) :
    ∃ acc', acc.insert ext t = some acc' ∧ AccOk ext cap P (t0 :: (ts ++ [t])) acc' := by
  have hk' : ∀ u, (∀ u ∈ ts, u.kind = t0.kind) → u ∈ ts ++ [t] → u.kind = t0.kind := by
    intro u hu h
    rcases List.mem_append.mp h with h | h
    · exact hu u h
    · rw [List.mem_singleton] at h; rw [h]; exact hk
  cases h with
  | perpetual _ _ hk0 hkk hPP =>
    refine ⟨_, rfl, ?_⟩
    have := AccOk.perpetual (ext := ext) (cap := cap) (P := P) t0 (ts ++ [t]) hk0
      (fun u => hk' u hkk) (by
      rw [List.foldl_append]; exact hadd _ _ hPP hP)
    rw [List.foldl_append] at this
    exact this
  | windowed _ _ hk0 hkk samples v0 vs hvs hlens hsort hPP =>
    have hks : t.kind = .summarize := hk.trans hk0
    obtain ⟨v, hv⟩ := hv hks
    obtain ⟨all, e, h1, h2⟩ := window_insert ext cap (vs.foldl (wrapSum ext) v0) (ts.length + 1)
      samples t hc hsort hlens hks v hv
    refine ⟨_, e, ?_⟩
    have hcount : (if u64Max - (ts.length + 1) ≤ 1 then 1 else ts.length + 1 + 1) =
        (ts ++ [t]).length + 1 := by
      rw [if_neg (by omega), List.length_append]; rfl
    have := AccOk.windowed (ext := ext) (cap := cap) (P := P) t0 (ts ++ [t]) hk0
      (fun u => hk' u hkk) (all.drop (all.length - cap)) v0 (vs ++ [v]) (by
        have hv' : t.query (F64.ofNat 1) = some v := hv
        rw [← List.cons_append, ← List.cons_append, List.map_append, List.map_append, hvs]
        simp [hv']) (by rw [List.length_drop]; omega)
      (h1.sublist (List.drop_sublist ..)) (by
        intro s hs
        have hs := List.mem_of_mem_drop hs
        rcases h2 with ⟨A, cur, B, e1, _, e3⟩ | ⟨A, B, e1, _, e3⟩
        · rw [e3, List.mem_append, List.mem_cons] at hs
          rcases hs with hs | rfl | hs
          · exact hPP s (by rw [e1]; simp [hs])
          · exact ⟨hadd _ _ (hPP cur (by rw [e1]; simp)).1 hP, (addAssign_kind _ _).trans hks⟩
          · exact hPP s (by rw [e1]; simp [hs])
        · rw [e3, List.mem_append, List.mem_cons] at hs
          rcases hs with hs | rfl | hs
          · exact hPP s (by rw [e1]; simp [hs])
          · exact ⟨hP, hks⟩
          · exact hPP s (by rw [e1]; simp [hs]))
    rw [List.foldl_append] at this
    rw [hcount]
    exact this

theorem first_ok {ext : Ext F} {cap : Nat} {P : Telemetry F → Prop} (hc : 1 ≤ cap)
    (t : Telemetry F) (hP : P t) (hv : t.kind = .summarize → ∃ v, top t v) :
    ∃ acc, first cap t = some acc ∧ AccOk ext cap P [t] acc := by
  simp only [first]
  cases hk : t.kind with
  | summarize =>
    obtain ⟨v, hv⟩ := hv hk
    have hv' : t.query (F64.ofNat 1) = some v := hv
    simp only [hv']
    exact ⟨_, rfl, .windowed t [] hk (by simp) [t] v [] (by simp [hv']) (by simpa using hc)
      (by simp) (by simpa using ⟨hP, hk⟩)⟩
  | set => exact ⟨_, rfl, .perpetual t [] (by rw [hk]; simp) (by simp) hP⟩
  | sum => exact ⟨_, rfl, .perpetual t [] (by rw [hk]; simp) (by simp) hP⟩
  | histogram => exact ⟨_, rfl, .perpetual t [] (by rw [hk]; simp) (by simp) hP⟩

/-- What is known of one name's accumulator: nothing before its first point. -/
def NameOk (ext : Ext F) (cap : Nat) (P : Telemetry F → Prop) (ts : List (Telemetry F))
    (acc : Option (Acc F)) : Prop :=
  match ts, acc with
  | [], none => True
  | t0 :: ts, some acc => AccOk ext cap P (t0 :: ts) acc
  | _, _ => False

/-- Filter out the points of another kind than the first. -/
def likeFirst : List (Telemetry F) → List (Telemetry F)
  | [] => []
  | t :: ts => t :: ts.filter fun u => decide (u.kind = t.kind)

theorem likeFirst_append (ts : List (Telemetry F)) (t : Telemetry F) :
    likeFirst (ts ++ [t]) = match ts with
      | [] => [t]
      | t0 :: _ => if t.kind = t0.kind then likeFirst ts ++ [t] else likeFirst ts := by
  cases ts with
  | nil => rfl
  | cons t0 ts =>
    simp only [List.cons_append, likeFirst, List.filter_append]
    by_cases h : t.kind = t0.kind <;> simp [h]

theorem pointsOf_append (n : Str) (a b : List (Op F)) :
    pointsOf n (a ++ b) = pointsOf n a ++ pointsOf n b := by
  induction a with
  | nil => rfl
  | cons op a ih =>
    cases op with
    | insert t =>
      simp only [List.cons_append, pointsOf, ih]
      split <;> rfl
    | purge now => simp only [List.cons_append, pointsOf, ih]

/-- The invariant of the whole aggregation. -/
structure Inv (ext : Ext F) (cap : Nat) (P : Telemetry F → Prop) (done : List (Op F))
    (a : Aggr F) : Prop where
  capacity : a.capacity = cap
  names : Names a.data
  ok : ∀ n, NameOk ext cap (fun t => t.name = n ∧ P t) (likeFirst (pointsOf n done)) (find a.data n)

theorem Inv.step {ext : Ext F} {cap : Nat} {P : Telemetry F → Prop} {done : List (Op F)}
    {a : Aggr F} (h : Inv ext cap P done a)
    (hadd : ∀ a b, P a → P b → P (a.addAssign b)) (hc : 1 ≤ cap) (op : Op F)
    (hop : ∀ t, op = .insert t → P t ∧ (t.kind = .summarize → ∃ v, top t v))
    (hlen : ∀ n, (likeFirst (pointsOf n done)).length + 1 < u64Max) :
    ∃ a', run ext a [op] = some a' ∧ Inv ext cap P (done ++ [op]) a' := by
  cases op with
  | purge now =>
    refine ⟨_, rfl, h.capacity, by simpa [Names, Aggr.purge, Function.comp_def] using h.names, fun n => ?_⟩
    have hfd : find (a.purge now).1.data n = (find a.data n).map fun x => (x.purge now).1 :=
      find_map (fun x => (x.purge now).1) a.data n
    rw [pointsOf_append, hfd]
    simp only [pointsOf, List.append_nil]
    have := h.ok n
    cases hl : likeFirst (pointsOf n done) with
    | nil =>
      rw [hl] at this
      cases hf : find a.data n with
      | none => trivial
      | some acc => rw [hf] at this; exact this.elim
    | cons t0 ts =>
      rw [hl] at this
      cases hf : find a.data n with
      | none => rw [hf] at this; exact this.elim
      | some acc =>
        rw [hf] at this
        exact AccOk.purge this now
  | insert t =>
    obtain ⟨hPt, hvt⟩ := hop t rfl
    have hn := h.ok t.name
    have hadd' : ∀ a b : Telemetry F, (a.name = t.name ∧ P a) → (b.name = t.name ∧ P b) →
        ((a.addAssign b).name = t.name ∧ P (a.addAssign b)) :=
      fun a b ha hb => ⟨ha.1, hadd a b ha.2 hb.2⟩
    have hpt : pointsOf t.name (done ++ [.insert t]) = pointsOf t.name done ++ [t] := by
      rw [pointsOf_append]; simp [pointsOf]
    have hother : ∀ n, ¬ t.name = n → pointsOf n (done ++ [.insert t]) = pointsOf n done := by
      intro n hn; rw [pointsOf_append]; simp [pointsOf, hn]
    have hstep : ∃ acc, stepName ext cap (find a.data t.name) (.insert t) = some (some acc) ∧
        NameOk ext cap (fun u => u.name = t.name ∧ P u)
          (likeFirst (pointsOf t.name done ++ [t])) (some acc) := by
      rw [likeFirst_append]
      have hln := hlen t.name
      cases hpo : pointsOf t.name done with
      | nil =>
        rw [hpo] at hn
        cases hf : find a.data t.name with
        | some acc => rw [hf] at hn; exact hn.elim
        | none =>
          obtain ⟨acc, e1, e2⟩ := first_ok (ext := ext) (cap := cap)
            (P := fun u => u.name = t.name ∧ P u) hc t ⟨rfl, hPt⟩ hvt
          exact ⟨acc, by simp [stepName, e1], e2⟩
      | cons t0 ts =>
        rw [hpo] at hn hln
        simp only [likeFirst] at hn hln
        cases hf : find a.data t.name with
        | none => rw [hf] at hn; exact hn.elim
        | some acc =>
          rw [hf] at hn
          have hn : AccOk ext cap (fun u => u.name = t.name ∧ P u) _ acc := hn
          obtain ⟨hk1, _⟩ := hn.kind
          by_cases hk : t.kind = t0.kind
          · obtain ⟨acc', e1, e2⟩ := hn.insert hadd' hc t ⟨rfl, hPt⟩ hk hvt (by
              simp only [List.length_cons] at hln; omega)
            refine ⟨acc', by simp [stepName, hk1, hk, e1], ?_⟩
            simp only [if_pos hk]
            exact e2
          · refine ⟨acc, ?_, ?_⟩
            · have : ¬ acc.kind = t.kind := by rw [hk1]; exact fun h => hk h.symm
              simp [stepName, this]
            · simp only [if_neg hk]; exact hn
    obtain ⟨acc, e1, e2⟩ := hstep
    rcases insert_cases ext a t with ⟨h1, _⟩ | ⟨a', ok, acc', h1, h2, h3, h4, h5, _⟩
    · rw [h.capacity, e1] at h1; simp at h1
    · rw [h.capacity, e1] at h3
      simp only [Option.some.injEq] at h3
      subst h3
      refine ⟨a', by simp [run, h1], h2.trans h.capacity, h5 h.names, fun n => ?_⟩
      by_cases hnm : t.name = n
      · subst hnm
        rw [hpt, h4, if_pos rfl]
        exact e2
      · rw [hother n hnm, h4, if_neg hnm]
        exact h.ok n

theorem run_append (ext : Ext F) (ops ops' : List (Op F)) :
    ∀ a, run ext a (ops ++ ops') = (run ext a ops).bind (run ext · ops') := by
  induction ops with
  | nil => intro a; rfl
  | cons o ops ih =>
    intro a
    cases o with
    | insert t =>
      simp only [List.cons_append, run]
      cases a.insert ext t with
      | none => rfl
      | some r => exact ih r.1
    | purge now => simp only [List.cons_append, run]; exact ih _

theorem likeFirst_length (n : Str) (ops : List (Op F)) :
    (likeFirst (pointsOf n ops)).length ≤ ops.length := by
  have h1 : ∀ l : List (Telemetry F), (likeFirst l).length ≤ l.length := by
    intro l
    cases l with
    | nil => simp [likeFirst]
    | cons t l =>
      have := List.length_filter_le (fun u : Telemetry F => decide (u.kind = t.kind)) l
      simp only [likeFirst, List.length_cons]; omega
  refine Nat.le_trans (h1 _) ?_
  induction ops with
  | nil => simp [pointsOf]
  | cons o ops ih =>
    cases o with
    | insert t =>
      simp only [pointsOf]
      split
      · simp only [List.length_cons]; omega
      · simp only [List.length_cons]; omega
    | purge now => simp only [pointsOf, List.length_cons]; omega

/-- Every history keeps the invariant and never panics. -/
theorem reachable {ext : Ext F} {cap : Nat} {P : Telemetry F → Prop}
    (hadd : ∀ a b, P a → P b → P (a.addAssign b)) (hc : 1 ≤ cap) (ops : List (Op F))
    (hops : ∀ t, .insert t ∈ ops → P t ∧ (t.kind = .summarize → ∃ v, top t v))
    (hlen : ops.length < u64Max) :
    ∃ a, run ext (Aggr.new cap) ops = some a ∧ Inv ext cap P ops a := by
  have : ∀ n, n ≤ ops.length → ∃ a, run ext (Aggr.new cap) (ops.take n) = some a ∧
      Inv ext cap P (ops.take n) a := by
    intro n
    induction n with
    | zero => exact fun _ => ⟨Aggr.new cap, rfl, rfl, by simp [Names, Aggr.new], fun n => trivial⟩
    | succ n ih =>
      intro hn
      obtain ⟨a, e, hi⟩ := ih (by omega)
      have hsplit : ops.take (n + 1) = ops.take n ++ [ops[n]] := by
        rw [List.take_succ_eq_append_getElem (by omega)]
      obtain ⟨a', e', hi'⟩ := hi.step hadd hc ops[n] (fun t ht => hops t (by
        rw [← ht]; exact List.getElem_mem _)) (fun m => by
        have := likeFirst_length m (ops.take n)
        rw [List.length_take] at this
        omega)
      refine ⟨a', ?_, by rw [hsplit]; exact hi'⟩
      rw [hsplit, run_append, e]
      exact e'
  have h := this ops.length (Nat.le_refl _)
  rwa [List.take_length] at h

theorem accepted_eq (n : Str) (ops : List (Op F)) :
    accepted n ops = likeFirst (pointsOf n ops) := by
  simp only [accepted, likeFirst]
  split <;> rename_i h <;> rw [h]

end
end Prometheus
end Verif
