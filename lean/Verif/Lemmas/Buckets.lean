import Verif.Model.Buckets
import Verif.Lemmas.Search
import Verif.Lemmas.Cmp
/-! # Lemmas about the bucket store -/
namespace Verif
namespace Buckets
section
variable {F : Type} [F64 F]

/-! ### list helpers -/

theorem insertIdx_append {α : Type} (pre post : List α) (x : α) :
    (pre ++ post).insertIdx pre.length x = pre ++ x :: post := by
  induction pre with
  | nil => rfl
  | cons a pre ih => simp [ih]

theorem set_append {α : Type} (pre post : List α) (x y : α) :
    (pre ++ x :: post).set pre.length y = pre ++ y :: post := by
  induction pre with
  | nil => rfl
  | cons a pre ih => simp [ih]

theorem get_append {α : Type} (pre post : List α) (x : α) :
    (pre ++ x :: post)[pre.length]? = some x := by
  simp

theorem split_at {α : Type} (l : List α) {i : Nat} (h : i ≤ l.length) :
    ∃ pre post, l = pre ++ post ∧ pre.length = i :=
  ⟨l.take i, l.drop i, (List.take_append_drop _ _).symm, by rw [List.length_take]; omega⟩

theorem split_at_lt {α : Type} (l : List α) {i : Nat} (h : i < l.length) :
    ∃ pre x post, l = pre ++ x :: post ∧ pre.length = i :=
  ⟨l.take i, l[i], l.drop (i + 1), by rw [List.getElem_cons_drop, List.take_append_drop],
    by rw [List.length_take]; omega⟩

theorem satAdd_one {c m : Nat} (h : c + 1 ≤ m) (hm : m ≤ u64Max) : satAdd c 1 = c + 1 :=
  Nat.min_eq_left (Nat.le_trans h hm)

/-! ### rows -/

/-- what `add` stores for a persistent arrival after the earlier point `q` -/
def carried (q v : Telemetry F) : Telemetry F :=
  Telemetry.addAssign ⟨q.name, q.value, true, q.tags, v.timestamp, none, none⟩ v

/-- The outcome of a row addition, sorted or not. -/
inductive RowStep (row row' : List (Telemetry F)) (v : Telemetry F) : Bool → Prop where
  | merge (pre post : List (Telemetry F)) (cur : Telemetry F)
      (h : row = pre ++ cur :: post) (h' : row' = pre ++ cur.addAssign v :: post) :
      RowStep row row' v false
  | fresh (pre post : List (Telemetry F)) (hp : v.persist = false ∨ pre = [])
      (h : row = pre ++ post) (h' : row' = pre ++ v :: post) : RowStep row row' v true
  | carry (pre post : List (Telemetry F)) (q : Telemetry F) (hp : v.persist = true)
      (h : row = pre ++ q :: post) (h' : row' = pre ++ q :: carried q v :: post) :
      RowStep row row' v true

theorem carried_harden (now : Int) (q v : Telemetry F) :
    SoftTelemetry.harden now { ({ q with timestamp := v.timestamp } : Telemetry F).thaw with
      persist := some true } =
    .ok ⟨q.name, q.value, true, q.tags, v.timestamp, none, none⟩ := by
  obtain ⟨name, value, persist, tags, ts, oc, os⟩ := q
  cases value <;> rfl

/-- Facts about where the search put the arrival, on a sorted row. -/
def Placed (w : Int) (row : List (Telemetry F)) (v : Telemetry F) (i : Found) : Prop :=
  match i with
  | .ok i => ∃ pre x post, row = pre ++ x :: post ∧ pre.length = i ∧ x.within w v = .eq
  | .err i => ∃ pre post, row = pre ++ post ∧ pre.length = i ∧
      (∀ a ∈ pre, a.within w v = .lt) ∧ (∀ a ∈ post, a.within w v = .gt)

theorem addRow_total (now w : Int) (row : List (Telemetry F)) (v : Telemetry F) (hw : w ≠ 0) :
    ∃ row' ins, addRow now w row v = some (row', ins) ∧ RowStep row row' v ins := by
  unfold addRow
  rw [if_neg (by simp [hw])]
  have hb := bsearch_bounds (fun probe => Telemetry.within probe w v) row
  cases hs : bsearch (fun probe => Telemetry.within probe w v) row with
  | ok i =>
    rw [hs] at hb
    obtain ⟨pre, x, post, rfl, rfl⟩ := split_at_lt row hb
    simp only [get_append, set_append]
    exact ⟨_, _, rfl, .merge pre post x rfl rfl⟩
  | err i =>
    rw [hs] at hb
    obtain ⟨pre, post, rfl, rfl⟩ := split_at row hb
    simp only
    by_cases hp : v.persist = true ∧ pre ≠ []
    · obtain ⟨hp, hne⟩ := hp
      obtain ⟨p, q, rfl⟩ : ∃ p q, pre = p ++ [q] :=
        ⟨pre.dropLast, pre.getLast hne, (List.dropLast_concat_getLast hne).symm⟩
      have hlen : (p ++ [q]).length - 1 = p.length := by simp
      have hget : ((p ++ [q]) ++ post)[(p ++ [q]).length - 1]? = some q := by
        rw [hlen, List.append_assoc]; exact get_append p post q
      rw [if_pos (by simp [hp]), hget]
      simp only [carried_harden]
      refine ⟨_, _, rfl, ?_⟩
      rw [insertIdx_append]
      exact .carry p post q hp (by simp) (by simp [carried])
    · rw [if_neg (by
        rintro h
        apply hp
        simp only [Bool.and_eq_true, decide_eq_true_eq] at h
        exact ⟨h.1, List.ne_nil_of_length_pos h.2⟩)]
      refine ⟨_, _, rfl, ?_⟩
      rw [insertIdx_append]
      refine .fresh pre post ?_ rfl rfl
      by_cases h1 : v.persist = true
      · right
        by_cases h2 : pre = []
        · exact h2
        · exact absurd ⟨h1, h2⟩ hp
      · left; simpa using h1

/-- The outcome of a row addition on a row of one series sorted by time bin. -/
inductive RowStepS (w : Int) (row row' : List (Telemetry F)) (v : Telemetry F) : Bool → Prop where
  | merge (pre post : List (Telemetry F)) (cur : Telemetry F) (hbin : cur.bin w = v.bin w)
      (h : row = pre ++ cur :: post) (h' : row' = pre ++ cur.addAssign v :: post) :
      RowStepS w row row' v false
  | fresh (pre post : List (Telemetry F)) (hp : v.persist = false ∨ pre = [])
      (hlt : ∀ a ∈ pre, a.bin w < v.bin w) (hgt : ∀ a ∈ post, v.bin w < a.bin w)
      (h : row = pre ++ post) (h' : row' = pre ++ v :: post) : RowStepS w row row' v true
  | carry (pre post : List (Telemetry F)) (q : Telemetry F) (hp : v.persist = true)
      (hlt : ∀ a ∈ pre, a.bin w < v.bin w) (hq : q.bin w < v.bin w)
      (hgt : ∀ a ∈ post, v.bin w < a.bin w)
      (h : row = pre ++ q :: post) (h' : row' = pre ++ q :: carried q v :: post) :
      RowStepS w row row' v true

theorem addRow_sorted (now w : Int) (row : List (Telemetry F)) (v : Telemetry F) (hw : w ≠ 0)
    (hser : ∀ a ∈ row, a.hashInput = v.hashInput)
    (hsort : row.Pairwise (fun a b => a.bin w < b.bin w)) :
    ∃ row' ins, addRow now w row v = some (row', ins) ∧ RowStepS w row row' v ins := by
  have hwith : ∀ a ∈ row, a.within w v = compare (a.bin w) (v.bin w) :=
    fun a ha => within_same_series (hser a ha) w
  have hs3 : Sorted3 (fun probe => Telemetry.within probe w v) row := by
    intro i j x y hij hx hy
    have hxm := List.mem_of_getElem? hx
    have hym := List.mem_of_getElem? hy
    have hxy : x.bin w < y.bin w := by
      obtain ⟨hi, rfl⟩ := List.getElem?_eq_some_iff.1 hx
      obtain ⟨hj, rfl⟩ := List.getElem?_eq_some_iff.1 hy
      exact List.pairwise_iff_getElem.1 hsort i j hi hj hij
    simp only [hwith x hxm, hwith y hym, compare_int_gt, compare_int_lt]
    omega
  have hb := bsearch_spec _ row hs3
  unfold addRow
  rw [if_neg (by simp [hw])]
  cases hs : bsearch (fun probe => Telemetry.within probe w v) row with
  | ok i =>
    rw [hs] at hb
    obtain ⟨pre, x, post, hrow, rfl, hx⟩ := hb
    have hx' := hwith x (by rw [hrow]; simp)
    rw [hx] at hx'
    subst hrow
    simp only [get_append, set_append]
    exact ⟨_, _, rfl, .merge pre post x (compare_int_eq.1 hx'.symm) rfl rfl⟩
  | err i =>
    rw [hs] at hb
    obtain ⟨pre, post, rfl, rfl, hlt, hgt⟩ := hb
    have hlt' : ∀ a ∈ pre, a.bin w < v.bin w := by
      intro a ha
      have h1 := hlt a ha
      rw [hwith a (by simp [ha])] at h1
      exact compare_int_lt.1 h1
    have hgt' : ∀ a ∈ post, v.bin w < a.bin w := by
      intro a ha
      have h1 := hgt a ha
      rw [hwith a (by simp [ha])] at h1
      exact compare_int_gt.1 h1
    simp only
    by_cases hp : v.persist = true ∧ pre ≠ []
    · obtain ⟨hp, hne⟩ := hp
      obtain ⟨p, q, rfl⟩ : ∃ p q, pre = p ++ [q] :=
        ⟨pre.dropLast, pre.getLast hne, (List.dropLast_concat_getLast hne).symm⟩
      have hlen : (p ++ [q]).length - 1 = p.length := by simp
      have hget : ((p ++ [q]) ++ post)[(p ++ [q]).length - 1]? = some q := by
        rw [hlen, List.append_assoc]; exact get_append p post q
      rw [if_pos (by simp [hp]), hget]
      simp only [carried_harden]
      refine ⟨_, _, rfl, ?_⟩
      rw [insertIdx_append]
      exact .carry p post q hp (fun a ha => hlt' a (by simp [ha])) (hlt' q (by simp)) hgt'
        (by simp) (by simp [carried])
    · rw [if_neg (by
        rintro h
        apply hp
        simp only [Bool.and_eq_true, decide_eq_true_eq] at h
        exact ⟨h.1, List.ne_nil_of_length_pos h.2⟩)]
      refine ⟨_, _, rfl, ?_⟩
      rw [insertIdx_append]
      refine .fresh pre post ?_ hlt' hgt' rfl rfl
      by_cases h1 : v.persist = true
      · right
        by_cases h2 : pre = []
        · exact h2
        · exact absurd ⟨h1, h2⟩ hp
      · left; simpa using h1

/-! ### the key level -/

/-- keys strictly increasing, one row per key -/
structure Wf (b : Buckets F) : Prop where
  sorted : b.keys.Pairwise (· < ·)
  len : b.keys.length = b.values.length

theorem Wf.new (w : Int) : Wf (Buckets.new w : Buckets F) := ⟨by simp [Buckets.new], rfl⟩

/-- How `add` changes the store, given what happens in the row. -/
structure AddStep (h : Nat) (b b' : Buckets F) (kp kq : List Nat)
    (vp vq : List (List (Telemetry F))) (row row' : List (Telemetry F)) (ins : Bool) : Prop where
  lp : kp.length = vp.length
  lq : kq.length = vq.length
  keys' : b'.keys = kp ++ h :: kq
  values' : b'.values = vp ++ row' :: vq
  count' : b'.count = if ins then satAdd b.count 1 else b.count
  width' : b'.binWidth = b.binWidth
  sorted' : b'.keys.Pairwise (· < ·)
  old : (b.keys = kp ++ h :: kq ∧ b.values = vp ++ row :: vq) ∨
    (row = [] ∧ b.keys = kp ++ kq ∧ b.values = vp ++ vq ∧ h ∉ b.keys)

theorem sorted3_keys {l : List Nat} (hs : l.Pairwise (· < ·)) (h : Nat) :
    Sorted3 (fun probe => compare probe h) l := by
  intro i j x y hij hx hy
  have hxy : x < y := by
    obtain ⟨hi, rfl⟩ := List.getElem?_eq_some_iff.1 hx
    obtain ⟨hj, rfl⟩ := List.getElem?_eq_some_iff.1 hy
    exact List.pairwise_iff_getElem.1 hs i j hi hj hij
  simp only [Nat.compare_eq_lt, Nat.compare_eq_gt]
  omega

/-- The key-level part of `add`: the row for the hash is found or created. -/
theorem add_keys (hash : Str × TagMap → Nat) (now : Int) (b : Buckets F) (v : Telemetry F)
    (hwf : Wf b) :
    ∃ kp kq vp vq row, ((∀ row' ins, addRow now b.binWidth row v = some (row', ins) →
      ∃ b', add hash now b v = some b' ∧
        AddStep (hash v.hashInput) b b' kp kq vp vq row row' ins) ∧
      (addRow now b.binWidth row v = none → add hash now b v = none)) ∧
      ((b.keys = kp ++ hash v.hashInput :: kq ∧ b.values = vp ++ row :: vq) ∨
        (row = [] ∧ b.keys = kp ++ kq ∧ b.values = vp ++ vq ∧ hash v.hashInput ∉ b.keys)) ∧
      kp.length = vp.length ∧ kq.length = vq.length := by
  have hsp := bsearch_spec _ b.keys (sorted3_keys hwf.sorted (hash v.hashInput))
  cases hs : bsearch (fun probe => compare probe (hash v.hashInput)) b.keys with
  | ok i =>
    rw [hs] at hsp
    obtain ⟨kp, k, kq, hk, rfl, hke⟩ := hsp
    simp only [Nat.compare_eq_eq] at hke
    subst hke
    have hlt : kp.length < b.values.length := by rw [← hwf.len, hk]; simp
    obtain ⟨vp, row, vq, hv, hvl⟩ := split_at_lt b.values hlt
    have hq : kq.length = vq.length := by
      have := hwf.len; rw [hk, hv] at this; simp at this; omega
    refine ⟨kp, kq, vp, vq, row, ⟨?_, ?_⟩, .inl ⟨hk, hv⟩, hvl.symm, hq⟩
    rotate_left
    · intro hrow
      unfold add
      simp only [hs]
      rw [hv, ← hvl, get_append]
      simp only [hrow]
    intro row' ins hrow
    unfold add
    simp only [hs]
    rw [hv, ← hvl, get_append]
    simp only [hrow, set_append]
    refine ⟨_, rfl, ⟨hvl.symm, hq, hk, rfl, rfl, rfl, hwf.sorted, .inl ⟨hk, hv⟩⟩⟩
  | err i =>
    rw [hs] at hsp
    obtain ⟨kp, kq, hk, rfl, hlt, hgt⟩ := hsp
    simp only [Nat.compare_eq_lt, Nat.compare_eq_gt] at hlt hgt
    have hle : kp.length ≤ b.values.length := by rw [← hwf.len, hk]; simp
    obtain ⟨vp, vq, hv, hvl⟩ := split_at b.values hle
    have hq : kq.length = vq.length := by
      have := hwf.len; rw [hk, hv] at this; simp at this; omega
    have hnot : hash v.hashInput ∉ b.keys := by
      rw [hk, List.mem_append]
      rintro (h | h)
      · have := hlt _ h; omega
      · have := hgt _ h; omega
    refine ⟨kp, kq, vp, vq, [], ⟨?_, ?_⟩, .inr ⟨rfl, hk, hv, hnot⟩, hvl.symm, hq⟩
    rotate_left
    · intro hrow
      unfold add
      simp only [hs]
      rw [hv, ← hvl, insertIdx_append, get_append]
      simp only [hrow]
    intro row' ins hrow
    unfold add
    simp only [hs]
    rw [hv, ← hvl, insertIdx_append, get_append]
    simp only [hrow, set_append]
    refine ⟨_, rfl, ⟨hvl.symm, hq, ?_, rfl, rfl, rfl, ?_, .inr ⟨rfl, hk, hv, hnot⟩⟩⟩
    · simp only [hk, hvl, insertIdx_append]
    · simp only [hk, hvl, insertIdx_append]
      have hso := hwf.sorted
      rw [hk, List.pairwise_append] at hso
      rw [List.pairwise_append]
      refine ⟨hso.1, List.pairwise_cons.2 ⟨hgt, hso.2.1⟩, ?_⟩
      intro a ha c hc
      rcases List.mem_cons.1 hc with rfl | hc
      · exact hlt a ha
      · exact hso.2.2 a ha c hc

theorem add_total (hash : Str × TagMap → Nat) (now : Int) (b : Buckets F) (v : Telemetry F)
    (hwf : Wf b) (hw : b.binWidth ≠ 0) :
    ∃ b' kp kq vp vq row row' ins, add hash now b v = some b' ∧
      AddStep (hash v.hashInput) b b' kp kq vp vq row row' ins ∧ RowStep row row' v ins := by
  obtain ⟨kp, kq, vp, vq, row, ⟨h, _⟩, _⟩ := add_keys hash now b v hwf
  obtain ⟨row', ins, h1, h2⟩ := addRow_total now b.binWidth row v hw
  obtain ⟨b', h3, h4⟩ := h row' ins h1
  exact ⟨b', kp, kq, vp, vq, row, row', ins, h3, h4, h2⟩

theorem AddStep.wf {h : Nat} {b b' : Buckets F} {kp kq vp vq row row' ins}
    (s : AddStep h b b' kp kq vp vq row row' ins) : Wf b' :=
  ⟨s.sorted', by rw [s.keys', s.values']; simp [s.lp, s.lq]⟩

theorem AddStep.flatten {h : Nat} {b b' : Buckets F} {kp kq vp vq row row' ins}
    (s : AddStep h b b' kp kq vp vq row row' ins) :
    b.values.flatten = vp.flatten ++ (row ++ vq.flatten) ∧
    b'.values.flatten = vp.flatten ++ (row' ++ vq.flatten) := by
  refine ⟨?_, by rw [s.values']; simp⟩
  rcases s.old with ⟨_, h⟩ | ⟨rfl, _, h, _⟩ <;> rw [h] <;> simp

theorem RowStep.length {row row' : List (Telemetry F)} {v : Telemetry F} {ins : Bool}
    (s : RowStep row row' v ins) : row'.length = row.length + (if ins then 1 else 0) := by
  cases s with
  | merge pre post cur h h' => subst h h'; simp
  | fresh pre post _ h h' => subst h h'; simp; omega
  | carry pre post q _ h h' => subst h h'; simp; omega

theorem resetRow_eq (now : Int) (v : List (Telemetry F)) :
    resetRow now v = match v.getLast? with
      | none => []
      | some p => if p.persist then [{ p with timestamp := now }] else [] := by
  unfold resetRow
  rw [List.getLast?_eq_getElem?]
  cases h : v[v.length - 1]? with
  | none =>
    rw [List.getElem?_eq_none_iff] at h
    show v = []
    exact List.eq_nil_of_length_eq_zero (by omega)
  | some p => rfl

theorem Wf.reset {b : Buckets F} (h : Wf b) (now : Int) : Wf (b.reset now) :=
  ⟨h.sorted, by simp [Buckets.reset, h.len]⟩

theorem reset_count (now : Int) (b : Buckets F) (hle : b.values.flatten.length ≤ u64Max) :
    (b.reset now).count = (b.reset now).values.flatten.length ∧
    (b.reset now).values.flatten.length ≤ b.values.flatten.length := by
  have key : ∀ (vs : List (List (Telemetry F))) (c : Nat), c + vs.flatten.length ≤ u64Max →
      vs.foldl resetCount c = c + (vs.map (resetRow now)).flatten.length ∧
      (vs.map (resetRow now)).flatten.length ≤ vs.flatten.length := by
    intro vs
    induction vs with
    | nil => intro c _; simp
    | cons v vs ih =>
      intro c hc
      simp only [List.flatten_cons, List.length_append] at hc
      simp only [List.foldl_cons, List.map_cons, List.flatten_cons, List.length_append]
      have hrow : resetRow now v = match v[v.length - 1]? with
          | none => v
          | some last => if last.persist then [{ last with timestamp := now }] else [] := rfl
      have hcnt : resetCount c v = match v[v.length - 1]? with
          | some last => if last.persist then satAdd c 1 else c
          | none => c := rfl
      rw [hcnt]
      cases hl : v[v.length - 1]? with
      | none =>
        rw [hl] at hrow
        have hv0 : v = [] := by
          rw [List.getElem?_eq_none_iff] at hl
          exact List.eq_nil_of_length_eq_zero (by omega)
        have := ih c (by omega)
        rw [hrow, hv0]
        simp only [List.length_nil, Nat.zero_add]
        exact this
      | some last =>
        have hpos : 1 ≤ v.length := by
          have := (List.getElem?_eq_some_iff.1 hl).1; omega
        rw [hl] at hrow
        simp only at hrow
        by_cases hp : last.persist = true
        · rw [if_pos hp] at hrow
          have hsat : satAdd c 1 = c + 1 := by unfold satAdd; omega
          have := ih (c + 1) (by omega)
          rw [hrow]
          simp only [hp, if_true, hsat, List.length_singleton]
          omega
        · rw [if_neg hp] at hrow
          have := ih c (by omega)
          rw [hrow]
          simp only [hp, List.length_nil, Nat.zero_add]
          refine ⟨this.1, by omega⟩
  have := key b.values 0 (by omega)
  simp only [Buckets.reset]
  exact ⟨by rw [this.1]; simp, this.2⟩

/-! ### iteration -/

/-- what the iterator still has to yield at `(k, i)` -/
def remaining (b : Buckets F) (k i : Nat) : List (Telemetry F) :=
  match b.values.drop k with
  | [] => []
  | row :: rest => row.drop i ++ rest.flatten

theorem iterNext_spec (b : Buckets F) (hlen : b.keys.length = b.values.length) :
    ∀ n k i, b.keys.length < n + k →
      match remaining b k i with
      | [] => b.iterNext n k i = some none
      | t :: ts => ∃ k' i', b.iterNext n k i = some (some (t, k', i')) ∧ remaining b k' i' = ts := by
  intro n
  induction n with
  | zero =>
    intro k i h
    have : b.values.drop k = [] := List.drop_eq_nil_of_le (by omega)
    simp [remaining, this, iterNext]
  | succ n ih =>
    intro k i h
    by_cases hk : k < b.keys.length
    · have hkv : k < b.values.length := by omega
      have hd : b.values.drop k = b.values[k] :: b.values.drop (k + 1) :=
        List.drop_eq_getElem_cons hkv
      simp only [iterNext, if_pos hk, List.getElem?_eq_getElem hkv]
      have hrem : remaining b k i = b.values[k].drop i ++ (b.values.drop (k + 1)).flatten := by
        unfold remaining; rw [hd]
      by_cases hi : i < b.values[k].length
      · rw [List.getElem?_eq_getElem hi]
        simp only
        rw [hrem, List.drop_eq_getElem_cons hi]
        simp only [List.cons_append]
        exact ⟨k, i + 1, rfl, by unfold remaining; rw [hd]⟩
      · have hnone : b.values[k][i]? = none := List.getElem?_eq_none_iff.2 (by omega)
        rw [hnone]
        simp only
        have hrem' : remaining b k i = remaining b (k + 1) 0 := by
          rw [hrem, List.drop_eq_nil_of_le (by omega)]
          simp only [remaining, List.nil_append]
          cases b.values.drop (k + 1) <;> simp
        rw [hrem']
        exact ih (k + 1) 0 (by omega)
    · have : b.values.drop k = [] := List.drop_eq_nil_of_le (by omega)
      simp [remaining, this, iterNext, hk]

theorem iterFrom_spec (b : Buckets F) (hlen : b.keys.length = b.values.length) :
    ∀ n k i, (remaining b k i).length < n → b.iterFrom n k i = some (remaining b k i) := by
  intro n
  induction n with
  | zero => intro k i h; omega
  | succ n ih =>
    intro k i h
    have hn := iterNext_spec b hlen (b.keys.length + 1) k i (by omega)
    simp only [iterFrom]
    cases hr : remaining b k i with
    | nil => rw [hr] at hn; simp only at hn; rw [hn]
    | cons t ts =>
      rw [hr] at hn h
      obtain ⟨k', i', h1, h2⟩ := hn
      rw [h1]
      simp only
      rw [ih k' i' (by rw [h2]; simpa using h), h2]

/-- Iteration yields the rows one after the other. -/
theorem iter_eq (b : Buckets F) (hlen : b.keys.length = b.values.length) :
    b.iter = some b.values.flatten := by
  have hr : remaining b 0 0 = b.values.flatten := by
    simp only [remaining, List.drop_zero]
    cases b.values <;> simp
  unfold iter
  rw [iterFrom_spec b hlen _ 0 0 (by rw [hr]; omega), hr]

end
end Buckets
end Verif
