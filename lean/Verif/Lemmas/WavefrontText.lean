import Verif.Lemmas.Wavefront
import Verif.Lemmas.Search
import Verif.Lemmas.Cmp
import Verif.Lemmas.BucketsInv
/-!
# The text of the Wavefront sink: caches are transparent
-/
namespace Verif.Wavefront
section

theorem searchLoop_total {α : Type} (f : α → Option Ordering) (g : α → Ordering) (l : List α)
    (h : ∀ x ∈ l, f x = some (g x)) :
    ∀ n base size, searchLoop f l n base size = some (bsearchLoop g l n base size) := by
  intro n
  induction n with
  | zero => intro base size; rfl
  | succ n ih =>
    intro base size
    simp only [searchLoop, bsearchLoop]
    split
    · cases hm : l[base + size / 2]? with
      | none => rfl
      | some x =>
        simp only [h x (List.mem_of_getElem? hm)]
        exact ih _ _
    · rfl

theorem search_total {α : Type} (f : α → Option Ordering) (g : α → Ordering) (l : List α)
    (h : ∀ x ∈ l, f x = some (g x)) : search f l = some (bsearch g l) := by
  simp only [search, bsearch]
  split
  · rfl
  · rw [searchLoop_total f g l h]
    simp only
    cases hm : l[bsearchLoop g l l.length 0 l.length]? with
    | none => rfl
    | some x =>
      simp only [h x (List.mem_of_getElem? hm)]
      cases g x <;> rfl

/-- A cache: entries print their value and are in increasing order. -/
structure CacheOk {α : Type} (rank : α → Int) (shw : α → Str) (V : α → Prop)
    (c : List (α × Str)) : Prop where
  entry : ∀ e ∈ c, V e.1 ∧ e.2 = shw e.1
  sorted : c.Pairwise (fun a b => rank a.1 < rank b.1)

theorem CacheOk.nil {α : Type} (rank : α → Int) (shw : α → Str) (V : α → Prop) :
    CacheOk rank shw V [] := ⟨by simp, by simp⟩

theorem getFromCache_ok {α : Type} (cmp : α → α → Option Ordering) (shw : α → Str)
    (rank : α → Int) (V : α → Prop)
    (hcmp : ∀ a b, V a → V b → cmp a b = some (compare (rank a) (rank b)) ∧
      (rank a = rank b → shw a = shw b))
    (c : List (α × Str)) (hc : CacheOk rank shw V c) (v : α) (hv : V v) :
    ∃ c', getFromCache cmp shw 2 c v = some (c', shw v) ∧ CacheOk rank shw V c' := by
  have key : ∀ c : List (α × Str), CacheOk rank shw V c →
      search (fun probe : α × Str => cmp probe.1 v) c =
        some (bsearch (fun probe : α × Str => compare (rank probe.1) (rank v)) c) := by
    intro c hc
    exact search_total _ _ c (fun x hx => (hcmp x.1 v (hc.entry x hx).1 hv).1)
  have hsorted : ∀ c : List (α × Str), CacheOk rank shw V c →
      Sorted3 (fun probe : α × Str => compare (rank probe.1) (rank v)) c := by
    intro c hc i j x y hij hx hy
    have hlt : rank x.1 < rank y.1 := by
      have := List.pairwise_iff_getElem.1 hc.sorted
      obtain ⟨hi, rfl⟩ := List.getElem?_eq_some_iff.1 hx
      obtain ⟨hj, rfl⟩ := List.getElem?_eq_some_iff.1 hy
      exact this i j hi hj hij
    simp only [compare_int_gt, compare_int_lt]
    omega
  -- a found entry is the right one
  have hit : ∀ c : List (α × Str), CacheOk rank shw V c → ∀ i,
      bsearch (fun probe : α × Str => compare (rank probe.1) (rank v)) c = .ok i →
      ∃ e, c[i]? = some e ∧ e.2 = shw v := by
    intro c hc i hi
    have hsp := bsearch_spec _ c (hsorted c hc)
    rw [hi] at hsp
    obtain ⟨pre, x, post, hl, hlen, heq⟩ := hsp
    refine ⟨x, by rw [hl, ← hlen]; simp, ?_⟩
    have hx : x ∈ c := by rw [hl]; simp
    have h1 := (hc.entry x hx)
    rw [h1.2]
    exact (hcmp x.1 v h1.1 hv).2 (compare_int_eq.mp heq)
  simp only [getFromCache]
  rw [key c hc]
  cases hb : bsearch (fun probe : α × Str => compare (rank probe.1) (rank v)) c with
  | ok i =>
    obtain ⟨e, he, hs⟩ := hit c hc i hb
    exact ⟨c, by simp only [he, hs], hc⟩
  | err i =>
    simp only
    have hsp := bsearch_spec _ c (hsorted c hc)
    rw [hb] at hsp
    obtain ⟨pre, post, hl, hlen, hpre, hpost⟩ := hsp
    have hins : c.insertIdx i (v, shw v) = pre ++ (v, shw v) :: post := by
      rw [hl, ← hlen, Buckets.insertIdx_append]
    have hok : CacheOk rank shw V (pre ++ (v, shw v) :: post) := by
      constructor
      · intro e he
        rcases List.mem_append.mp he with he | he
        · exact hc.entry e (by rw [hl]; exact List.mem_append.mpr (Or.inl he))
        · rcases List.mem_cons.mp he with rfl | he
          · exact ⟨hv, rfl⟩
          · exact hc.entry e (by rw [hl]; exact List.mem_append.mpr (Or.inr he))
      · have hs := hc.sorted
        rw [hl, List.pairwise_append] at hs
        rw [List.pairwise_append]
        have h1 : ∀ a ∈ pre, rank a.1 < rank v := fun a ha => 
          compare_int_lt.mp (hpre a ha)
        have h2 : ∀ a ∈ post, rank v < rank a.1 := fun a ha => 
          compare_int_gt.mp (hpost a ha)
        refine ⟨hs.1, List.pairwise_cons.mpr ⟨h2, hs.2.1⟩, ?_⟩
        intro a ha b hb
        rcases List.mem_cons.mp hb with rfl | hb
        · exact h1 a ha
        · exact hs.2.2 a ha b hb
    rw [hins, key _ hok]
    cases hb2 : bsearch (fun probe : α × Str => compare (rank probe.1) (rank v))
        (pre ++ (v, shw v) :: post) with
    | ok j =>
      obtain ⟨e, he, hs⟩ := hit _ hok j hb2
      exact ⟨_, by simp only [he, hs], hok⟩
    | err j =>
      exfalso
      have hsp := bsearch_spec _ _ (hsorted _ hok)
      rw [hb2] at hsp
      obtain ⟨p, q, hl2, _, hp, hq⟩ := hsp
      have hin : (v, shw v) ∈ p ++ q := by rw [← hl2]; simp
      rcases List.mem_append.mp hin with h | h
      · have := compare_int_lt.mp (hp _ h); simp only at this; omega
      · have := compare_int_gt.mp (hq _ h); simp only at this; omega

variable {F : Type} [F64 F]

/-- The plain text of a token. -/
def Tok.text (ext : Ext F) : Tok F → Str
  | .lit s => s
  | .value x => ext.showF x
  | .count n => ext.showN n
  | .time t => ext.showI t

structure CachesOk (ext : Ext F) (rank : F → Int) (V : F → Prop) (c : Caches F) : Prop where
  time : CacheOk (fun t : Int => t) ext.showI (fun _ => True) c.time
  count : CacheOk (fun n : Nat => (n : Int)) ext.showN (fun _ => True) c.count
  value : CacheOk rank ext.showF V c.value

theorem pushTok_ok (ext : Ext F) (rank : F → Int) (V : F → Prop)
    (hcmp : ∀ a b, V a → V b → ext.cmp a b = some (compare (rank a) (rank b)) ∧
      (rank a = rank b → ext.showF a = ext.showF b))
    (c : Caches F) (hc : CachesOk ext rank V c) (stats : Str) (t : Tok F)
    (ht : ∀ x, t = .value x → V x) :
    ∃ c', pushTok ext c stats t = some (c', stats ++ t.text ext) ∧ CachesOk ext rank V c' := by
  cases t with
  | lit s => exact ⟨c, rfl, hc⟩
  | value x =>
    obtain ⟨v, e, hv⟩ := getFromCache_ok ext.cmp ext.showF rank V hcmp c.value hc.value x (ht x rfl)
    refine ⟨{ c with value := v }, ?_, ⟨hc.time, hc.count, hv⟩⟩
    simp [pushTok, e, Tok.text]
  | count n =>
    obtain ⟨v, e, hv⟩ := getFromCache_ok (fun a b : Nat => some (compare a b)) ext.showN
      (fun n => (n : Int)) (fun _ => True) (by
        intro a b _ _
        refine ⟨?_, fun h => by rw [Int.ofNat_inj.mp h]⟩
        simp only [Option.some.injEq, compare, compareOfLessAndEq, Int.ofNat_lt, Int.ofNat_inj]) c.count hc.count n trivial
    refine ⟨{ c with count := v }, ?_, ⟨hc.time, hv, hc.value⟩⟩
    simp [pushTok, e, Tok.text]
  | time t =>
    obtain ⟨v, e, hv⟩ := getFromCache_ok (fun a b : Int => some (compare a b)) ext.showI
      (fun n => n) (fun _ => True) (by
        intro a b _ _
        exact ⟨rfl, fun h => by rw [h]⟩) c.time hc.time t trivial
    refine ⟨{ c with time := v }, ?_, ⟨hv, hc.count, hc.value⟩⟩
    simp [pushTok, e, Tok.text]

theorem pushToks_ok (ext : Ext F) (rank : F → Int) (V : F → Prop)
    (hcmp : ∀ a b, V a → V b → ext.cmp a b = some (compare (rank a) (rank b)) ∧
      (rank a = rank b → ext.showF a = ext.showF b)) :
    ∀ (ts : List (Tok F)) (c : Caches F) (stats : Str), CachesOk ext rank V c →
      (∀ x, Tok.value x ∈ ts → V x) →
      ∃ c', pushToks ext c stats ts = some (c', stats ++ ts.flatMap (Tok.text ext)) ∧
        CachesOk ext rank V c' := by
  intro ts
  induction ts with
  | nil => intro c stats hc _; exact ⟨c, by simp [pushToks], hc⟩
  | cons t ts ih =>
    intro c stats hc hv
    obtain ⟨c1, e1, h1⟩ := pushTok_ok ext rank V hcmp c hc stats t
      (fun x hx => hv x (by rw [hx]; exact List.mem_cons_self ..))
    obtain ⟨c2, e2, h2⟩ := ih c1 (stats ++ t.text ext) h1
      (fun x hx => hv x (List.mem_cons_of_mem _ hx))
    refine ⟨c2, ?_, h2⟩
    simp only [pushToks, e1, e2, List.flatMap_cons, List.append_assoc]

theorem fmtTags_eq : ∀ kvs : List (Str × Str), fmtTags kvs = tagText kvs
  | [] => rfl
  | [(k, v)] => by simp [fmtTags, tagText]
  | (k, v) :: kv :: rest => by
    have ih := fmtTags_eq (kv :: rest)
    simp only [tagText, ← ih]
    rcases kv with ⟨k', v'⟩
    simp [fmtTags]

theorem lineToks_text (ext : Ext F) (name : List (Tok F)) (v : Tok F) (ts : Int) (tags : Str) :
    (lineToks name v ts tags).flatMap (Tok.text ext) =
      wfLine (name.flatMap (Tok.text ext)) (v.text ext) (ext.showI ts) tags := by
  simp [lineToks, wfLine, Tok.text]

theorem lineToks_value (name : List (Tok F)) (v : Tok F) (ts : Int) (tags : Str) (x : F)
    (h : Tok.value x ∈ lineToks name v ts tags) : Tok.value x ∈ name ∨ v = .value x := by
  simp only [lineToks, List.mem_append, List.mem_cons, reduceCtorEq, List.not_mem_nil, or_false,
    false_or] at h
  rcases h with h | h
  · exact Or.inl h
  · exact Or.inr h.symm

theorem quantileToks_ok (ext : Ext F) (t : Telemetry F) (c : F64.Ckms F) (s : F)
    (hv : t.value = .quantiles c s) (tags : Str) :
    ∀ ps : List (Str × F), (∀ p ∈ ps, (F64.ckmsQuery c p.2).isSome) →
      ∃ toks, quantileToks t tags ps = some toks ∧
        toks.flatMap (Tok.text ext) = (ps.map fun p => match F64.ckmsQuery c p.2 with
          | some q => wfLine (t.name ++ ['.'] ++ p.1) (ext.showF q) (ext.showI t.timestamp) tags
          | none => []).flatten ∧
        ∀ x, Tok.value x ∈ toks → ∃ p ∈ ps, F64.ckmsQuery c p.2 = some x := by
  intro ps
  induction ps with
  | nil => intro _; exact ⟨[], rfl, rfl, by simp⟩
  | cons p ps ih =>
    intro h
    obtain ⟨toks, e, ht, hx⟩ := ih (fun q hq => h q (List.mem_cons_of_mem _ hq))
    obtain ⟨q, hq⟩ := Option.isSome_iff_exists.mp (h p (List.mem_cons_self ..))
    have hq' : t.query p.2 = some q := by simp [Telemetry.query, hv, hq]
    refine ⟨lineToks [.lit t.name, .lit ['.'], .lit p.1] (.value q) t.timestamp tags ++ toks, ?_, ?_, ?_⟩
    · rcases p with ⟨a, b⟩
      simp only at hq'
      simp only [quantileToks, hq', e]
    · rw [List.flatMap_append, lineToks_text, ht]
      simp [hq, Tok.text]
    · intro x hxm
      rcases List.mem_append.mp hxm with hxm | hxm
      · rcases lineToks_value _ _ _ _ _ hxm with hxm | hxm
        · simp at hxm
        · simp only [Tok.value.injEq] at hxm
          exact ⟨p, List.mem_cons_self .., by rw [hq, hxm]⟩
      · obtain ⟨p', hp', hx'⟩ := hx x hxm
        exact ⟨p', List.mem_cons_of_mem _ hp', hx'⟩

theorem fmtVal_ok (ext : Ext F) (percentiles : List (Str × F)) (tags : TagMap) (t : Telemetry F)
    (ha : Answers percentiles t) :
    ∃ toks, fmtVal percentiles tags t = some toks ∧
      toks.flatMap (Tok.text ext) = pointText ext percentiles tags t ∧
      ∀ x, Tok.value x ∈ toks → printed percentiles t x := by
  have hone : ∀ v : F, ∃ toks, some (lineToks [.lit t.name] (.value v) t.timestamp
      (fmtTags (t.iterTags tags))) = some toks ∧
      toks.flatMap (Tok.text ext) = wfLine t.name (ext.showF v) (ext.showI t.timestamp)
        (tagText (t.iterTags tags)) ∧
      ∀ x, Tok.value x ∈ toks → x = v := by
    intro v
    refine ⟨_, rfl, ?_, ?_⟩
    · rw [lineToks_text, fmtTags_eq]; simp [Tok.text]
    · intro x hx
      rcases lineToks_value _ _ _ _ _ hx with hx | hx
      · simp at hx
      · simpa using hx.symm
  cases hv : t.value with
  | set v =>
    have hk : t.kind = .set := by simp [Telemetry.kind, Value.kind, hv]
    simp only [fmtVal, hk, Telemetry.set, hv, pointText, printed]
    exact hone v
  | sum v =>
    have hk : t.kind = .sum := by simp [Telemetry.kind, Value.kind, hv]
    simp only [fmtVal, hk, Telemetry.sum, hv, pointText, printed]
    exact hone v
  | histogram h =>
    have hk : t.kind = .histogram := by simp [Telemetry.kind, Value.kind, hv]
    simp only [fmtVal, hk, Telemetry.bins, hv, pointText, printed]
    refine ⟨_, rfl, ?_, ?_⟩
    · rw [fmtTags_eq]
      generalize F64.histBins h = bins
      induction bins with
      | nil => rfl
      | cons b bins ih =>
        simp only [List.flatMap_cons, List.flatMap_append, ih, lineToks_text, List.map_cons,
          List.flatten_cons]
        rcases b with ⟨b1, b2⟩
        cases b1 <;> simp [Tok.text]
    · intro x hx
      simp only [List.mem_flatMap] at hx
      obtain ⟨b, hb, hx⟩ := hx
      refine ⟨b, hb, ?_⟩
      rcases lineToks_value _ _ _ _ _ hx with hx | hx
      · rcases b with ⟨b1, b2⟩
        cases b1 with
        | none => simp at hx
        | some y =>
          simp only [List.mem_cons, reduceCtorEq, Tok.value.injEq, List.not_mem_nil, or_false,
            false_or] at hx
          rw [hx]
      · simp at hx
  | quantiles c s =>
    have hk : t.kind = .summarize := by simp [Telemetry.kind, Value.kind, hv]
    have hm : t.mean = some ((F64.ckmsCma c).getD F64.zero) := by simp [Telemetry.mean, hv]
    have ha' : ∀ p ∈ percentiles, (F64.ckmsQuery c p.2).isSome := by
      simpa [Answers, hv] using ha
    obtain ⟨qs, e, hq, hx⟩ := quantileToks_ok ext t c s hv (fmtTags (t.iterTags tags)) percentiles ha'
    simp only [fmtVal, hk, e, hm, pointText, hv, printed]
    refine ⟨_, rfl, ?_, ?_⟩
    · rw [List.flatMap_append, List.flatMap_append, hq, lineToks_text, lineToks_text, fmtTags_eq]
      simp only [Tok.text, List.flatMap_cons, List.flatMap_nil, List.append_nil]
      rfl
    · intro x hxm
      rcases List.mem_append.mp hxm with hxm | hxm
      · rcases List.mem_append.mp hxm with hxm | hxm
        · exact Or.inl (hx x hxm)
        · rcases lineToks_value _ _ _ _ _ hxm with hxm | hxm <;> simp at hxm
      · rcases lineToks_value _ _ _ _ _ hxm with hxm | hxm
        · simp at hxm
        · right; simpa using hxm.symm

/-- The last pad of a series decides what is remembered. -/
def lastOf (ext : Ext F) (out : List (Pad F)) (h : Nat) : Option Int :=
  out.foldl (fun acc p => if p.hash ext = h then some p.timestamp else acc) none

theorem formatPads_ok (ext : Ext F) (rank : F → Int) (V : F → Prop)
    (hcmp : ∀ a b, V a → V b → ext.cmp a b = some (compare (rank a) (rank b)) ∧
      (rank a = rank b → ext.showF a = ext.showF b))
    (now : Int) (percentiles : List (Str × F)) (tags : TagMap) :
    ∀ (out : List (Pad F)) (shown : List (Telemetry F)) (c : Caches F) (stats : Str)
      (tmp : LastSeen), CachesOk ext rank V c →
      out.map (Pad.point now) = shown.map some →
      (∀ t ∈ shown, Answers percentiles t ∧ ∀ x, printed percentiles t x → V x) →
      ∃ tmp', formatPads ext now percentiles tags out c stats tmp =
        some (stats ++ (shown.map (pointText ext percentiles tags)).flatten, tmp') ∧
        ∀ h, tmp' h = out.foldl (fun acc p => if p.hash ext = h then some p.timestamp else acc)
          (tmp h) := by
  intro out
  induction out with
  | nil =>
    intro shown c stats tmp _ hm _
    cases shown with
    | nil => exact ⟨tmp, by simp [formatPads], fun h => rfl⟩
    | cons t ts => simp at hm
  | cons p out ih =>
    intro shown c stats tmp hc hm hs
    cases shown with
    | nil => simp at hm
    | cons t ts =>
      simp only [List.map_cons, List.cons.injEq] at hm
      have ht := hs t (List.mem_cons_self ..)
      obtain ⟨toks, e1, h1, h2⟩ := fmtVal_ok ext percentiles tags t ht.1
      obtain ⟨c', e2, hc'⟩ := pushToks_ok ext rank V hcmp toks c stats hc
        (fun x hx => ht.2 x (h2 x hx))
      obtain ⟨tmp', e3, h3⟩ := ih ts c' (stats ++ toks.flatMap (Tok.text ext))
        (fun h => if h = p.hash ext then some p.timestamp else tmp h) hc' hm.2
        (fun u hu => hs u (List.mem_cons_of_mem _ hu))
      refine ⟨tmp', ?_, ?_⟩
      · simp only [formatPads, hm.1, e1, e2, e3, List.map_cons, List.flatten_cons]
        rw [h1, List.append_assoc]
      · intro h
        rw [h3 h, List.foldl_cons]
        by_cases hh : h = p.hash ext
        · simp [hh]
        · have hh' : ¬ p.hash ext = h := fun e => hh e.symm
          simp [hh, hh']

/-- A value that cannot be compared makes the lookup panic. -/
theorem search_none {α : Type} (f : α → Option Ordering) (hf : ∀ x, f x = none) (l : List α)
    (hl : l ≠ []) : search f l = none := by
  have hlen : l.length ≠ 0 := fun h => hl (List.length_eq_zero_iff.mp h)
  simp only [search, hlen, if_false]
  by_cases h1 : l.length > 1
  · have : searchLoop f l l.length 0 l.length = none := by
      obtain ⟨n, hn⟩ : ∃ n, l.length = n + 1 := ⟨l.length - 1, by omega⟩
      have hmid : 0 + l.length / 2 < l.length := by omega
      have : searchLoop f l (n + 1) 0 l.length = none := by
        simp only [searchLoop, h1, if_true, List.getElem?_eq_getElem hmid, hf]
      rw [← hn] at this; exact this
    rw [this]
  · have h2 : l.length = 1 := by omega
    have : searchLoop f l l.length 0 l.length = some 0 := by
      rw [h2]; simp [searchLoop]
    rw [this]
    have h0 : 0 < l.length := by omega
    simp only [List.getElem?_eq_getElem h0, hf]

theorem getFromCache_none {α : Type} (cmp : α → α → Option Ordering) (shw : α → Str) (v : α)
    (hv : ∀ a, cmp a v = none) (c : List (α × Str)) : getFromCache cmp shw 2 c v = none := by
  cases c with
  | nil =>
    have h0 : search (fun probe : α × Str => cmp probe.1 v) [] = some (.err 0) := rfl
    simp only [getFromCache, h0]
    rw [search_none (fun probe : α × Str => cmp probe.1 v) (fun x => hv x.1) _ (by simp)]
  | cons e c =>
    simp only [getFromCache]
    rw [search_none (fun probe : α × Str => cmp probe.1 v) (fun x => hv x.1) _ (by simp)]

theorem pushToks_none (ext : Ext F) (v : F) (hv : ∀ a, ext.cmp a v = none) :
    ∀ (ts : List (Tok F)) (c : Caches F) (stats : Str), Tok.value v ∈ ts →
      pushToks ext c stats ts = none := by
  intro ts
  induction ts with
  | nil => intro c stats h; simp at h
  | cons t ts ih =>
    intro c stats h
    rcases List.mem_cons.mp h with rfl | h
    · simp [pushToks, pushTok, getFromCache_none ext.cmp ext.showF v hv]
    · simp only [pushToks]
      cases pushTok ext c stats t with
      | none => rfl
      | some r => exact ih r.1 r.2 h

theorem formatPads_none (ext : Ext F) (v : F) (hv : ∀ a, ext.cmp a v = none) (now : Int)
    (percentiles : List (Str × F)) (tags : TagMap) (t : Telemetry F)
    (ht : t.value = .set v ∨ t.value = .sum v) :
    ∀ (out : List (Pad F)) (c : Caches F) (stats : Str) (tmp : LastSeen), Pad.telem t ∈ out →
      formatPads ext now percentiles tags out c stats tmp = none := by
  intro out
  induction out with
  | nil => intro c stats tmp h; simp at h
  | cons p out ih =>
    intro c stats tmp h
    rcases List.mem_cons.mp h with rfl | h
    · simp only [formatPads, Pad.point]
      have hk : ∃ toks, fmtVal percentiles tags t = some toks ∧ Tok.value v ∈ toks := by
        rcases ht with ht | ht
        · refine ⟨_, by simp only [fmtVal, Telemetry.kind, Value.kind, ht, Telemetry.set]; rfl, ?_⟩
          simp [lineToks]
        · refine ⟨_, by simp only [fmtVal, Telemetry.kind, Value.kind, ht, Telemetry.sum]; rfl, ?_⟩
          simp [lineToks]
      obtain ⟨toks, e, hm⟩ := hk
      simp only [e, pushToks_none ext v hv toks c stats hm]
    · simp only [formatPads]
      cases p.point now with
      | none => rfl
      | some u =>
        simp only
        cases fmtVal percentiles tags u with
        | none => rfl
        | some toks =>
          simp only
          cases pushToks ext c stats toks with
          | none => rfl
          | some r => exact ih _ _ _ h

theorem flushLoop_spec (now : Int) (text : Str) :
    ∀ (script : List Io) (s : State F) (wire : List Wire), s.stats = text →
      ∃ W, (∀ e ∈ W, ∃ n, e = .part (text.take n) ∨ e = .delay n) ∧
        (((s.flushLoop now script wire).2.2 = true ∧
            (s.flushLoop now script wire).2.1 = wire ++ W ++ [.complete text] ∧
            (s.flushLoop now script wire).1.stats = [] ∧
            (s.flushLoop now script wire).1.aggrs = s.aggrs.reset now) ∨
          ((s.flushLoop now script wire).2.2 = false ∧
            (s.flushLoop now script wire).2.1 = wire ++ W ∧
            (s.flushLoop now script wire).1.stats = text ∧
            (s.flushLoop now script wire).1.aggrs = s.aggrs)) ∧
        (s.flushLoop now script wire).1.lastSeen = s.lastSeen := by
  intro script
  induction script with
  | nil =>
    intro s wire hs
    exact ⟨[], by simp, Or.inr ⟨rfl, by simp [State.flushLoop], hs, rfl⟩, rfl⟩
  | cons io script ih =>
    intro s wire hs
    by_cases hc : s.connected = true
    · cases io with
      | ok =>
        refine ⟨[], by simp, Or.inl ?_, ?_⟩
        · simp [State.flushLoop, hc, hs]
        · simp [State.flushLoop, hc]
      | fail n =>
        obtain ⟨W, h1, h2, h3⟩ := ih { s with deliveryAttempts := min (s.deliveryAttempts + 1) (2 ^ 32 - 1), connected := false }
          (wire ++ [.part (s.stats.take n)]) hs
        refine ⟨.part (text.take n) :: W, ?_, ?_, ?_⟩
        · intro e he
          rcases List.mem_cons.mp he with rfl | he
          · exact ⟨n, Or.inl rfl⟩
          · exact h1 e he
        · simp only [State.flushLoop, hc, if_true]
          rw [hs] at h2 ⊢
          simpa [List.append_assoc] using h2
        · simp only [State.flushLoop, hc, if_true]
          exact h3
    · have hc' : s.connected = false := by simpa using hc
      obtain ⟨W, h1, h2, h3⟩ := ih { s with connected := io = .ok }
        (wire ++ [.delay (delayMs s.deliveryAttempts)]) hs
      refine ⟨.delay (delayMs s.deliveryAttempts) :: W, ?_, ?_, ?_⟩
      · intro e he
        rcases List.mem_cons.mp he with rfl | he
        · exact ⟨_, Or.inr rfl⟩
        · exact h1 e he
      · simp only [State.flushLoop, hc', Bool.false_eq_true, if_false]
        simpa [List.append_assoc] using h2
      · simp only [State.flushLoop, hc', Bool.false_eq_true, if_false]
        exact h3

/-- A successful connection followed by a successful write ends a flush. -/
theorem flushLoop_ends (now : Int) (rest : List Io) :
    ∀ (script : List Io) (s : State F) (wire : List Wire),
      (s.flushLoop now (script ++ .ok :: .ok :: rest) wire).2.2 = true := by
  intro script
  induction script with
  | nil =>
    intro s wire
    by_cases hc : s.connected = true <;> simp [State.flushLoop, hc]
  | cons io script ih =>
    intro s wire
    by_cases hc : s.connected = true
    · cases io with
      | ok => simp [State.flushLoop, hc]
      | fail n => simp only [List.cons_append, State.flushLoop, hc, if_true]; exact ih _ _
    · have hc' : s.connected = false := by simpa using hc
      simp only [List.cons_append, State.flushLoop, hc', Bool.false_eq_true, if_false]
      exact ih _ _

end
end Verif.Wavefront
