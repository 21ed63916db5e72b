import Verif.Spec.ProtoGrammar
import Verif.Lemmas.Proto
/-! # Reading messages of the native protocol is their grammar -/
namespace Verif.Proto
open Native

/-! ## Pieces -/

theorem readVarintN_iff : ∀ (n : Nat) (bs : Bytes) (v : Nat) (r : Bytes), readVarintN n bs = some (v, r) ↔
    ∃ init last, bs = init ++ [last] ++ r ∧ init.length < n ∧ (∀ b ∈ init, 128 ≤ b.toNat) ∧ last.toNat < 128 ∧ v = digits (init ++ [last])
  | 0, bs, v, r => by simp [readVarintN]
  | n + 1, [], v, r => by simp [readVarintN]
  | n + 1, b :: bs, v, r => by
    by_cases hb : b.toNat < 128
    · simp only [readVarintN, if_pos hb, Option.some.injEq, Prod.mk.injEq]
      constructor
      · rintro ⟨rfl, rfl⟩
        exact ⟨[], b, rfl, by simp, by simp, hb, by simp [digits]; omega⟩
      · rintro ⟨init, last, he, _, hi, hl, hv⟩
        cases init with
        | nil =>
          simp only [List.nil_append, List.cons_append, List.cons.injEq] at he
          obtain ⟨rfl, rfl⟩ := he
          refine ⟨?_, rfl⟩
          rw [hv]; simp [digits]; omega
        | cons a init =>
          simp only [List.cons_append, List.cons.injEq] at he
          have := hi a (by simp)
          rw [← he.1] at this; omega
    · simp only [readVarintN, if_neg hb, Option.map_eq_some_iff, Prod.mk.injEq, Prod.exists]
      constructor
      · rintro ⟨v', r', h, hv, rfl⟩
        obtain ⟨init, last, he, hn, hi, hl, hd⟩ := (readVarintN_iff n bs v' r').1 h
        refine ⟨b :: init, last, by rw [he]; rfl, by simp only [List.length_cons]; omega, ?_, hl, ?_⟩
        · intro x hx
          rcases List.mem_cons.1 hx with rfl | hx
          · omega
          · exact hi x hx
        · rw [← hv, hd]
          simp only [List.cons_append, digits]
          have := b.toNat_lt
          omega
      · rintro ⟨init, last, he, hn, hi, hl, hd⟩
        cases init with
        | nil =>
          simp only [List.nil_append, List.cons_append, List.cons.injEq] at he
          rw [he.1] at hb; omega
        | cons a init =>
          simp only [List.cons_append, List.cons.injEq] at he
          obtain ⟨rfl, he⟩ := he
          refine ⟨digits (init ++ [last]), r, (readVarintN_iff n bs _ r).2 ⟨init, last, by rw [he], ?_, fun x hx => hi x (by simp [hx]), hl, rfl⟩, ?_, rfl⟩
          · simp only [List.length_cons] at hn; omega
          · rw [hd]
            simp only [List.cons_append, digits]
            have := b.toNat_lt
            omega

theorem readVarint_iff (bs : Bytes) (v : Nat) (r : Bytes) : readVarint bs = some (v, r) ↔ ∃ a, bs = a ++ r ∧ IsVarint a v := by
  simp only [readVarint, Option.map_eq_some_iff, Prod.exists, Prod.mk.injEq, IsVarint]
  constructor
  · rintro ⟨v', r', h, hv, rfl⟩
    obtain ⟨init, last, he, hn, hi, hl, hd⟩ := (readVarintN_iff 10 bs v' r').1 h
    exact ⟨init ++ [last], he, by simp only [List.length_append, List.length_singleton]; omega, ⟨init, last, rfl, hi, hl⟩, by rw [← hv, hd]⟩
  · rintro ⟨a, he, hn, ⟨init, last, rfl, hi, hl⟩, hv⟩
    refine ⟨digits (init ++ [last]), r, (readVarintN_iff 10 bs _ r).2 ⟨init, last, he, ?_, hi, hl, rfl⟩, by rw [hv], rfl⟩
    simp only [List.length_append, List.length_singleton] at hn; omega

theorem IsVarint.lt {a : Bytes} {v : Nat} (h : IsVarint a v) : v < 18446744073709551616 := by
  have := h.2.2
  omega

theorem IsVarint.ne_nil {a : Bytes} {v : Nat} (h : IsVarint a v) : a ≠ [] := by
  obtain ⟨init, last, rfl, _⟩ := h.2.1
  simp

theorem readVarint32_iff (bs : Bytes) (v : Nat) (r : Bytes) : readVarint32 bs = some (v, r) ↔ ∃ a n, bs = a ++ r ∧ IsVarint a n ∧ v = n % 2 ^ 32 := by
  simp only [readVarint32, Option.map_eq_some_iff, Prod.exists, Prod.mk.injEq]
  constructor
  · rintro ⟨v', r', h, hv, rfl⟩
    obtain ⟨a, he, ha⟩ := (readVarint_iff _ _ _).1 h
    exact ⟨a, v', he, ha, hv.symm⟩
  · rintro ⟨a, n, he, ha, hv⟩
    exact ⟨n, r, (readVarint_iff _ _ _).2 ⟨a, he, ha⟩, hv.symm, rfl⟩

theorem readBytes_iff (n : Nat) (bs b r : Bytes) : readBytes n bs = some (b, r) ↔ bs = b ++ r ∧ b.length = n := by
  simp only [readBytes]
  split
  · rename_i h
    simp only [Option.some.injEq, Prod.mk.injEq]
    constructor
    · rintro ⟨rfl, rfl⟩
      exact ⟨(List.take_append_drop n bs).symm, by simp; omega⟩
    · rintro ⟨rfl, rfl⟩
      simp
  · rename_i h
    simp only [reduceCtorEq, false_iff]
    rintro ⟨rfl, rfl⟩
    simp at h

theorem readDelimited_iff (bs b r : Bytes) : readDelimited bs = some (b, r) ↔ ∃ len n, bs = len ++ b ++ r ∧ IsVarint len n ∧ b.length = n % 2 ^ 32 := by
  simp only [readDelimited, Option.bind_eq_some_iff, Prod.exists]
  constructor
  · rintro ⟨v, r', h, h2⟩
    obtain ⟨a, n, rfl, ha, rfl⟩ := (readVarint32_iff _ _ _).1 h
    obtain ⟨rfl, hl⟩ := (readBytes_iff _ _ _ _).1 h2
    exact ⟨a, n, by simp, ha, hl⟩
  · rintro ⟨a, n, rfl, ha, hl⟩
    exact ⟨n % 2 ^ 32, b ++ r, (readVarint32_iff _ _ _).2 ⟨a, n, by simp, ha, rfl⟩, (readBytes_iff _ _ _ _).2 ⟨rfl, hl⟩⟩

/-! ## Fields first -/

/-- the content of a field, whatever its number -/
def readContent (wire : Nat) (bs : Bytes) : Option (Content × Bytes) :=
  match wire with
  | 0 => (readVarint bs).map fun (v, r) => (.number v, r)
  | 1 => (readBytes 8 bs).map fun (b, r) => (.eight b, r)
  | 2 => (readDelimited bs).map fun (b, r) => (.text b, r)
  | 5 => (readBytes 4 bs).map fun (b, r) => (.four b, r)
  | _ => none

theorem readContent_iff (w : Nat) (bs : Bytes) (c : Content) (r : Bytes) :
    readContent w bs = some (c, r) ↔ ∃ body, bs = body ++ r ∧ c.wire = w ∧ IsContent body c := by
  unfold readContent
  split
  · simp only [Option.map_eq_some_iff, Prod.exists, Prod.mk.injEq]
    constructor
    · rintro ⟨v, r', h, rfl, rfl⟩
      obtain ⟨a, he, ha⟩ := (readVarint_iff _ _ _).1 h
      exact ⟨a, he, rfl, ha⟩
    · rintro ⟨body, he, hw, hc⟩
      cases c with
      | number v => exact ⟨v, r, (readVarint_iff _ _ _).2 ⟨body, he, hc⟩, rfl, rfl⟩
      | eight b => simp [Content.wire] at hw
      | text b => simp [Content.wire] at hw
      | four b => simp [Content.wire] at hw
  · simp only [Option.map_eq_some_iff, Prod.exists, Prod.mk.injEq]
    constructor
    · rintro ⟨v, r', h, rfl, rfl⟩
      obtain ⟨rfl, hl⟩ := (readBytes_iff _ _ _ _).1 h
      exact ⟨v, rfl, rfl, rfl, hl⟩
    · rintro ⟨body, he, hw, hc⟩
      cases c with
      | eight b => obtain ⟨rfl, hl⟩ := hc; exact ⟨body, r, (readBytes_iff _ _ _ _).2 ⟨he, hl⟩, rfl, rfl⟩
      | number b => simp [Content.wire] at hw
      | text b => simp [Content.wire] at hw
      | four b => simp [Content.wire] at hw
  · simp only [Option.map_eq_some_iff, Prod.exists, Prod.mk.injEq]
    constructor
    · rintro ⟨v, r', h, rfl, rfl⟩
      obtain ⟨len, n, rfl, hv, hl⟩ := (readDelimited_iff _ _ _).1 h
      exact ⟨len ++ v, rfl, rfl, len, n, rfl, hv, hl⟩
    · rintro ⟨body, he, hw, hc⟩
      cases c with
      | text b => obtain ⟨len, n, rfl, hv, hl⟩ := hc; exact ⟨b, r, (readDelimited_iff _ _ _).2 ⟨len, n, he, hv, hl⟩, rfl, rfl⟩
      | number b => simp [Content.wire] at hw
      | eight b => simp [Content.wire] at hw
      | four b => simp [Content.wire] at hw
  · simp only [Option.map_eq_some_iff, Prod.exists, Prod.mk.injEq]
    constructor
    · rintro ⟨v, r', h, rfl, rfl⟩
      obtain ⟨rfl, hl⟩ := (readBytes_iff _ _ _ _).1 h
      exact ⟨v, rfl, rfl, rfl, hl⟩
    · rintro ⟨body, he, hw, hc⟩
      cases c with
      | four b => obtain ⟨rfl, hl⟩ := hc; exact ⟨body, r, (readBytes_iff _ _ _ _).2 ⟨he, hl⟩, rfl, rfl⟩
      | number b => simp [Content.wire] at hw
      | text b => simp [Content.wire] at hw
      | eight b => simp [Content.wire] at hw
  · rename_i h0 h1 h2 h5
    simp only [reduceCtorEq, false_iff]
    rintro ⟨body, he, hw, hc⟩
    cases c <;> simp only [Content.wire] at hw <;> first | exact h0 hw.symm | exact h1 hw.symm | exact h2 hw.symm | exact h5 hw.symm

/-- one field -/
def readField (bs : Bytes) : Option ((Nat × Content) × Bytes) :=
  (readTag bs).bind fun (f, w, r) => (readContent w r).map fun (c, r') => ((f, c), r')

theorem readTag_iff (bs : Bytes) (f w : Nat) (r : Bytes) : readTag bs = some (f, w, r) ↔
    ∃ tag t, bs = tag ++ r ∧ IsVarint tag t ∧ t % 2 ^ 32 = f * 8 + w ∧ w ≤ 5 ∧ f ≠ 0 := by
  simp only [readTag, Option.bind_eq_some_iff, Prod.exists]
  constructor
  · rintro ⟨v, r', h, h2⟩
    obtain ⟨a, n, rfl, ha, hn⟩ := (readVarint32_iff _ _ _).1 h
    split at h2
    · simp at h2
    · rename_i hw
      simp only [Option.some.injEq, Prod.mk.injEq] at h2
      obtain ⟨rfl, rfl, rfl⟩ := h2
      exact ⟨a, n, rfl, ha, by omega, by omega, by omega⟩
  · rintro ⟨a, t, rfl, ha, ht, hw, hf⟩
    refine ⟨f * 8 + w, r, (readVarint32_iff _ _ _).2 ⟨a, t, rfl, ha, ht.symm⟩, ?_⟩
    have h1 : (f * 8 + w) / 8 = f := by omega
    have h2 : (f * 8 + w) % 8 = w := by omega
    rw [h1, h2, if_neg (by omega)]

theorem wire_le (c : Content) : c.wire ≤ 5 := by cases c <;> simp [Content.wire]

theorem readField_iff (bs : Bytes) (x : Nat × Content) (r : Bytes) : readField bs = some (x, r) ↔ ∃ a, bs = a ++ r ∧ IsField a x := by
  simp only [readField, Option.bind_eq_some_iff, Option.map_eq_some_iff, Prod.exists, Prod.mk.injEq]
  constructor
  · rintro ⟨f, w, r', h, c, r'', hc, rfl, rfl⟩
    obtain ⟨tag, t, rfl, hv, ht, hw, hf⟩ := (readTag_iff _ _ _ _).1 h
    obtain ⟨body, rfl, rfl, hb⟩ := (readContent_iff _ _ _ _).1 hc
    exact ⟨tag ++ body, by simp, tag, t, body, rfl, hv, ht, hf, hb⟩
  · obtain ⟨f, c⟩ := x
    rintro ⟨a, rfl, tag, t, body, rfl, hv, ht, hf, hb⟩
    exact ⟨f, c.wire, body ++ r, (readTag_iff _ _ _ _).2 ⟨tag, t, by simp, hv, ht, wire_le c, hf⟩, c, r,
      (readContent_iff _ _ _ _).2 ⟨body, rfl, rfl, hb⟩, rfl, rfl⟩

/-- all fields -/
def readFields : Nat → Bytes → Option (List (Nat × Content))
  | 0, _ => none
  | _ + 1, [] => some []
  | fuel + 1, b :: bs => (readField (b :: bs)).bind fun (x, r) => (readFields fuel r).map (x :: ·)

theorem IsField.length {a : Bytes} {x : Nat × Content} (h : IsField a x) : 0 < a.length := by
  obtain ⟨tag, t, body, rfl, hv, _⟩ := h
  have := List.length_pos_iff.2 hv.ne_nil
  simp only [List.length_append]; omega

theorem readFields_iff : ∀ (fuel : Nat) (bs : Bytes) (xs : List (Nat × Content)), bs.length < fuel →
    (readFields fuel bs = some xs ↔ IsMessage bs xs)
  | 0, bs, xs, h => absurd h (Nat.not_lt_zero _)
  | fuel + 1, [], xs, _ => by
    simp only [readFields, Option.some.injEq]
    constructor
    · rintro rfl; exact .nil
    · intro h
      generalize hb : ([] : Bytes) = bs at h
      cases h with
      | nil => rfl
      | cons h1 h2 =>
        have := h1.length
        have h3 := congrArg List.length hb
        simp only [List.length_nil, List.length_append] at h3
        omega
  | fuel + 1, b :: bs, xs, hl => by
    simp only [readFields, Option.bind_eq_some_iff, Option.map_eq_some_iff, Prod.exists]
    constructor
    · rintro ⟨f, c, r, h, xs', h2, rfl⟩
      obtain ⟨a, he, ha⟩ := (readField_iff _ _ _).1 h
      have hlen : r.length < fuel := by
        have := ha.length
        have h3 := congrArg List.length he
        simp only [List.length_append] at h3
        omega
      rw [he]
      exact .cons ha ((readFields_iff fuel r xs' hlen).1 h2)
    · intro h
      generalize hb : b :: bs = whole at h hl
      cases h with
      | nil => simp at hb
      | @cons a r x xs' h1 h2 =>
        refine ⟨x.1, x.2, r, (readField_iff _ _ _).2 ⟨a, rfl, h1⟩, xs', ?_, rfl⟩
        refine (readFields_iff fuel r xs' ?_).2 h2
        have := h1.length
        simp only [List.length_append] at hl
        omega

/-- what one field does to a message that is built up -/
def applyAll {α : Type} (sem : Nat → Content → α → Option α) : α → List (Nat × Content) → Option α
  | a, [] => some a
  | a, x :: xs => (sem x.1 x.2 a).bind fun a' => applyAll sem a' xs

theorem mergeLoop_fields {α : Type} {step : Nat → Nat → α → Bytes → Option (α × Bytes)} {sem : Nat → Content → α → Option α}
    (h : ∀ f w a bs, step f w a bs = (readContent w bs).bind fun (c, r) => (sem f c a).map fun a' => (a', r)) :
    ∀ (fuel : Nat) (a : α) (bs : Bytes), bs.length < fuel → mergeLoop step fuel a bs = (readFields fuel bs).bind fun xs => applyAll sem a xs
  | 0, a, bs, hl => absurd hl (Nat.not_lt_zero _)
  | fuel + 1, a, [], _ => by simp [mergeLoop, readFields, applyAll]
  | fuel + 1, a, b :: bs, hl => by
    simp only [mergeLoop, readFields, readField, h]
    cases ht : readTag (b :: bs) with
    | none => simp
    | some fwr =>
      obtain ⟨f, w, r⟩ := fwr
      simp only [Option.bind_some]
      cases hc : readContent w r with
      | none => simp
      | some cr =>
        obtain ⟨c, r'⟩ := cr
        have hlen : r'.length < fuel := by
          have hf : readField (b :: bs) = some ((f, c), r') := by simp [readField, ht, hc]
          obtain ⟨x, he, hx⟩ := (readField_iff _ _ _).1 hf
          have := hx.length
          have h3 := congrArg List.length he
          simp only [List.length_append] at h3
          omega
        simp only [Option.bind_some, Option.map_some]
        cases hs : sem f c a with
        | none => cases readFields fuel r' <;> simp [applyAll, hs]
        | some a' =>
          simp only [Option.map_some, Option.bind_some]
          rw [mergeLoop_fields h fuel a' r' hlen]
          cases readFields fuel r' <;> simp [applyAll, hs]

/-- reading a message is reading its fields and applying them -/
theorem merge_iff {α : Type} {step : Nat → Nat → α → Bytes → Option (α × Bytes)} {sem : Nat → Content → α → Option α}
    (h : ∀ f w a bs, step f w a bs = (readContent w bs).bind fun (c, r) => (sem f c a).map fun a' => (a', r))
    (a a' : α) (bs : Bytes) : mergeLoop step (bs.length + 1) a bs = some a' ↔ ∃ xs, IsMessage bs xs ∧ applyAll sem a xs = some a' := by
  rw [mergeLoop_fields h _ _ _ (Nat.lt_succ_self _)]
  simp only [Option.bind_eq_some_iff]
  constructor
  · rintro ⟨xs, h1, h2⟩; exact ⟨xs, (readFields_iff _ _ _ (Nat.lt_succ_self _)).1 h1, h2⟩
  · rintro ⟨xs, h1, h2⟩; exact ⟨xs, (readFields_iff _ _ _ (Nat.lt_succ_self _)).2 h1, h2⟩

/-! ## Values -/

theorem leBytes_leNat : ∀ (bs : Bytes), leBytes bs.length (leNat bs) = bs
  | [] => rfl
  | b :: bs => by
    have hb := b.toNat_lt
    simp only [List.length_cons, leBytes, leNat]
    have h1 : (b.toNat + 256 * leNat bs) % 256 = b.toNat := by omega
    have h2 : (b.toNat + 256 * leNat bs) / 256 = leNat bs := by omega
    rw [h1, h2, leBytes_leNat bs]
    simp

theorem leNat_lt : ∀ (bs : Bytes), leNat bs < 256 ^ bs.length
  | [] => by simp [leNat]
  | b :: bs => by
    have hb := b.toNat_lt
    have := leNat_lt bs
    simp only [List.length_cons, leNat, Nat.pow_succ]
    omega

theorem leBytes_ofNat (x : Bytes) (h : x.length = 8) : leBytes 8 (UInt64.ofNat (leNat x)).toNat = x := by
  have h1 := leNat_lt x
  rw [h] at h1
  rw [UInt64.toNat_ofNat_of_lt' (by simpa using h1)]
  have := leBytes_leNat x
  rwa [h] at this

theorem readDoubles_iff : ∀ (fuel : Nat) (bs : Bytes) (ds : List UInt64), bs.length ≤ fuel →
    (readDoubles fuel bs = some ds ↔ bs = ds.flatMap fun d => leBytes 8 d.toNat) := by
  intro fuel
  induction fuel with
  | zero =>
    intro bs ds h
    have : bs = [] := List.length_eq_zero_iff.1 (by omega)
    subst this
    simp only [readDoubles, Option.some.injEq]
    constructor
    · rintro rfl; rfl
    · intro h
      cases ds with
      | nil => rfl
      | cons d ds => simp [leBytes] at h
  | succ fuel ih =>
    intro bs ds h
    cases bs with
    | nil =>
      simp only [readDoubles, Option.some.injEq]
      constructor
      · rintro rfl; rfl
      · intro h
        cases ds with
        | nil => rfl
        | cons d ds => simp [leBytes] at h
    | cons b bs =>
      simp only [readDoubles, readDouble, Option.bind_eq_some_iff, Option.map_eq_some_iff, Prod.exists, Prod.mk.injEq]
      constructor
      · rintro ⟨d, r, ⟨x, r', hx, rfl, rfl⟩, ds', hd, rfl⟩
        obtain ⟨he, hl⟩ := (readBytes_iff _ _ _ _).1 hx
        rw [he, List.flatMap_cons, ← (ih r' ds' (by have := congrArg List.length he; simp only [List.length_append, List.length_cons] at this h; omega)).1 hd]
        rw [leBytes_ofNat x hl]
      · intro he
        cases ds with
        | nil => simp at he
        | cons d ds =>
          rw [List.flatMap_cons] at he
          refine ⟨d, ds.flatMap fun d => leBytes 8 d.toNat, ⟨leBytes 8 d.toNat, _, (readBytes_iff _ _ _ _).2 ⟨he, leBytes_length 8 _⟩, ?_, rfl⟩, ds, ?_, rfl⟩
          · rw [leNat_leBytes 8 _ d.toNat_lt]; simp
          · refine (ih _ ds ?_).2 rfl
            have := congrArg List.length he
            simp only [List.length_append, List.length_cons, leBytes_length] at this h
            omega

theorem unUtf8_iff (b : Bytes) (s : Str) : unUtf8 b = some s ↔ b = utf8 s := by
  constructor
  · intro h
    simp only [unUtf8, Option.map_eq_some_iff] at h
    obtain ⟨a, ha, rfl⟩ := h
    have h1 : b.toByteArray.utf8Decode?.isSome := by simp [ha]
    have h2 := ByteArray.utf8Encode_get_utf8Decode? (b := b.toByteArray) (h := h1)
    have h3 : b.toByteArray.utf8Decode?.get h1 = a := by simp [ha]
    rw [h3] at h2
    simp only [List.utf8Encode] at h2
    have h4 := congrArg (fun x => x.data.toList) h2
    simpa [utf8] using h4.symm
  · rintro rfl; exact unUtf8_utf8 s

/-! ## What each field means, as functions -/

def textOf : Content → Option Str
  | .text b => unUtf8 b
  | _ => none

theorem textOf_iff (c : Content) (s : Str) : textOf c = some s ↔ IsText c s := by
  cases c <;> simp [textOf, IsText, unUtf8_iff]

def doublesOf : Content → Option (List UInt64)
  | .text b => readDoubles b.length b
  | .eight b => if b.length = 8 then some [UInt64.ofNat (leNat b)] else none
  | _ => none

theorem doublesOf_iff (c : Content) (ds : List UInt64) : doublesOf c = some ds ↔ IsDoubles c ds := by
  cases c with
  | text b => simp [doublesOf, IsDoubles, readDoubles_iff _ b ds (Nat.le_refl _)]
  | eight b =>
    simp only [doublesOf, IsDoubles, Content.eight.injEq, reduceCtorEq, or_false]
    constructor
    · intro h
      split at h
      · rename_i hb
        simp only [Option.some.injEq] at h
        exact ⟨_, h.symm, (leBytes_ofNat b hb).symm⟩
      · simp at h
    · rintro ⟨d, rfl, rfl⟩
      rw [if_pos (leBytes_length 8 _), leNat_leBytes 8 _ d.toNat_lt]
      simp
  | _ => simp [doublesOf, IsDoubles]

def flagOf : Content → Option Bool
  | .number v => some (v % 4294967296 != 0)
  | _ => none

theorem flagOf_iff (c : Content) (b : Bool) : flagOf c = some b ↔ IsFlag c b := by
  cases c with
  | number v =>
    simp only [flagOf, IsFlag, Option.some.injEq, Content.number.injEq, exists_eq_left']
    cases b <;> simp
  | _ => simp [flagOf, IsFlag]

def methodOf : Content → Option Method
  | .number v => Method.ofI32 (v % 4294967296)
  | _ => none

theorem methodOf_iff (c : Content) (m : Method) : methodOf c = some m ↔ IsMethod c m := by
  cases c with
  | number v =>
    simp only [methodOf, IsMethod, Content.number.injEq, exists_eq_left']
    have h32 : (2 : Nat) ^ 32 = 4294967296 := rfl
    rw [h32]
    generalize v % 4294967296 = n
    constructor
    · intro h
      unfold Method.ofI32 at h
      split at h <;> simp_all <;> subst h <;> rfl
    · intro h
      cases m <;> simp only at h <;> subst h <;> rfl
  | _ => simp [methodOf, IsMethod]

def timeOf : Content → Option Int
  | .number v => if v < 18446744073709551616 then some (toI64 v) else none
  | _ => none

theorem timeOf_iff (c : Content) (t : Int) : timeOf c = some t ↔ IsTime c t := by
  cases c with
  | number v =>
    simp only [timeOf, IsTime, Content.number.injEq, exists_eq_left', InI64]
    have h64 : (2 : Int) ^ 64 = 18446744073709551616 := rfl
    rw [h64]
    constructor
    · intro h
      split at h
      · simp only [Option.some.injEq, toI64] at h
        split at h <;> omega
      · simp at h
    · rintro ⟨h1, h2⟩
      have : v < 18446744073709551616 := by omega
      rw [if_pos this]
      simp only [Option.some.injEq, toI64]
      split <;> omega
  | _ => simp [timeOf, IsTime]

/-! ## The steps, field first -/

theorem content_cases (w : Nat) : w = 0 ∨ w = 1 ∨ w = 2 ∨ w = 5 ∨ ∀ bs, readContent w bs = none ∧ skipField w bs = none := by
  match w with
  | 0 => exact .inl rfl
  | 1 => exact .inr (.inl rfl)
  | 2 => exact .inr (.inr (.inl rfl))
  | 5 => exact .inr (.inr (.inr (.inl rfl)))
  | 3 => exact .inr (.inr (.inr (.inr fun _ => ⟨rfl, rfl⟩)))
  | 4 => exact .inr (.inr (.inr (.inr fun _ => ⟨rfl, rfl⟩)))
  | n + 6 => exact .inr (.inr (.inr (.inr fun _ => ⟨rfl, rfl⟩)))

theorem unknown_eq {α : Type} (w : Nat) (a : α) (bs : Bytes) :
    unknown w a bs = (readContent w bs).bind fun (c, r) => (some a).map fun a' => (a', r) := by
  rcases content_cases w with rfl | rfl | rfl | rfl | h
  · simp only [unknown, skipField, readContent]; cases readVarint bs <;> rfl
  · simp only [unknown, skipField, readContent]; cases readBytes 8 bs <;> rfl
  · simp only [unknown, skipField, readContent]; cases readDelimited bs <;> rfl
  · simp only [unknown, skipField, readContent]; cases readBytes 4 bs <;> rfl
  · simp [unknown, (h bs).1, (h bs).2]

/-- a field that is a number -/
theorem number_eq {α : Type} (w : Nat) (bs : Bytes) (g : Nat → Option α) (sem : Content → Option α)
    (hn : ∀ v, v < 18446744073709551616 → sem (.number v) = g v) (hs : ∀ c, c.wire ≠ 0 → sem c = none) :
    expect w 0 ((readVarint bs).bind fun (v, r) => (g v).map fun a => (a, r)) = (readContent w bs).bind fun (c, r) => (sem c).map fun a' => (a', r) := by
  by_cases hw : w = 0
  · subst hw
    simp only [expect, if_pos, readContent]
    cases h : readVarint bs with
    | none => rfl
    | some vr =>
      obtain ⟨v, r⟩ := vr
      obtain ⟨a, _, ha⟩ := (readVarint_iff _ _ _).1 h
      simp [hn v ha.lt]
  · simp only [expect, if_neg hw]
    cases h : readContent w bs with
    | none => rfl
    | some cr =>
      obtain ⟨c, r⟩ := cr
      obtain ⟨_, _, hc, _⟩ := (readContent_iff _ _ _ _).1 h
      simp [hs c (by rw [hc]; exact hw)]

/-- a field that is a text or a message -/
theorem text_eq {α : Type} (w : Nat) (bs : Bytes) (g : Bytes → Option α) (sem : Content → Option α)
    (hn : ∀ b, sem (.text b) = g b) (hs : ∀ c, c.wire ≠ 2 → sem c = none) :
    expect w 2 ((readDelimited bs).bind fun (b, r) => (g b).map fun a => (a, r)) = (readContent w bs).bind fun (c, r) => (sem c).map fun a' => (a', r) := by
  by_cases hw : w = 2
  · subst hw
    simp only [expect, if_pos, readContent]
    cases h : readDelimited bs with
    | none => rfl
    | some vr =>
      obtain ⟨v, r⟩ := vr
      simp [hn v]
  · simp only [expect, if_neg hw]
    cases h : readContent w bs with
    | none => rfl
    | some cr =>
      obtain ⟨c, r⟩ := cr
      obtain ⟨_, _, hc, _⟩ := (readContent_iff _ _ _ _).1 h
      simp [hs c (by rw [hc]; exact hw)]

/-- a field that is a string -/
theorem string_eq {α : Type} (w : Nat) (bs : Bytes) (put : Str → α) :
    expect w 2 ((readString bs).map fun (s, r) => (put s, r)) =
      (readContent w bs).bind fun (c, r) => ((textOf c).map put).map fun a' => (a', r) := by
  rw [← text_eq w bs (fun b => (unUtf8 b).map put) (fun c => (textOf c).map put) (fun b => rfl)
    (fun c hc => by cases c <;> simp_all [textOf, Content.wire])]
  simp only [readString]
  congr 1
  cases readDelimited bs with
  | none => rfl
  | some br =>
    simp only [Option.bind_some, Option.map_map, Option.map_bind]
    cases unUtf8 br.1 <;> rfl

/-- doubles -/
theorem doubles_eq {α : Type} (w : Nat) (bs : Bytes) (put : List UInt64 → α) :
    (if w = 2 then (readDelimited bs).bind fun (d, r) => (readDoubles d.length d).map fun ds => (put ds, r)
      else expect w 1 ((readDouble bs).map fun (d, r) => (put [d], r))) =
      (readContent w bs).bind fun (c, r) => ((doublesOf c).map put).map fun a' => (a', r) := by
  by_cases hw : w = 2
  · subst hw
    simp only [if_pos, readContent]
    cases readDelimited bs with
    | none => rfl
    | some br =>
      simp only [Option.bind_some, Option.map_some, doublesOf, Option.map_map]
      rfl
  · rw [if_neg hw]
    by_cases hw1 : w = 1
    · subst hw1
      simp only [expect, if_pos, readContent, readDouble]
      cases h : readBytes 8 bs with
      | none => rfl
      | some br =>
        obtain ⟨b, r⟩ := br
        obtain ⟨_, hl⟩ := (readBytes_iff _ _ _ _).1 h
        simp [doublesOf, hl]
    · simp only [expect, if_neg hw1]
      cases h : readContent w bs with
      | none => rfl
      | some cr =>
        obtain ⟨c, r⟩ := cr
        obtain ⟨_, _, hc, _⟩ := (readContent_iff _ _ _ _).1 h
        cases c <;> simp_all [doublesOf, Content.wire]

/-! ### Tags -/

def entrySem (f : Nat) (c : Content) (kv : Str × Str) : Option (Str × Str) :=
  match f with
  | 1 => (textOf c).map fun s => (s, kv.2)
  | 2 => (textOf c).map fun s => (kv.1, s)
  | _ => some kv

theorem entryStep_eq (f w : Nat) (kv : Str × Str) (bs : Bytes) :
    entryStep f w kv bs = (readContent w bs).bind fun (c, r) => (entrySem f c kv).map fun a' => (a', r) := by
  unfold entryStep
  split
  · exact string_eq w bs fun s => (s, kv.2)
  · exact string_eq w bs fun s => (kv.1, s)
  · rename_i h1 h2
    rw [unknown_eq]
    congr 1
    funext cr
    obtain ⟨c, r⟩ := cr
    simp only [entrySem]

/-! ### Occurrences -/

theorem contents_same (f : Nat) (c : Content) (xs : List (Nat × Content)) : contents f ((f, c) :: xs) = c :: contents f xs := by
  simp [contents]

theorem contents_other {f g : Nat} (h : g ≠ f) (c : Content) (xs : List (Nat × Content)) : contents f ((g, c) :: xs) = contents f xs := by
  simp [contents, h]

theorem each_cons {α β : Type} (R : α → β → Prop) (a : α) (as : List α) (l : List β) :
    Each R (a :: as) l ↔ ∃ b bs, l = b :: bs ∧ R a b ∧ Each R as bs := by
  constructor
  · intro h
    cases h with
    | cons h1 h2 => exact ⟨_, _, rfl, h1, h2⟩
  · rintro ⟨b, bs, rfl, h1, h2⟩; exact .cons h1 h2

theorem each_nil {α β : Type} (R : α → β → Prop) (l : List β) : Each R [] l ↔ l = [] := by
  constructor
  · intro h; cases h; rfl
  · rintro rfl; exact .nil

theorem getLast_cons_getD {α : Type} (a : α) (l : List α) (d : α) : (a :: l).getLast?.getD d = l.getLast?.getD a := by
  cases l with
  | nil => rfl
  | cons b l => rw [List.getLast?_cons_cons]; cases h : (b :: l).getLast? with | none => simp at h | some x => rfl

theorem getLast_cons_or {α : Type} (a : α) (l : List α) (d : Option α) : (a :: l).getLast?.or d = l.getLast?.or (some a) := by
  cases l with
  | nil => rfl
  | cons b l => rw [List.getLast?_cons_cons]; cases h : (b :: l).getLast? with | none => simp at h | some x => rfl

/-- the key and the value, from these on -/
theorem entries_iff : ∀ (xs : List (Nat × Content)) (kv kv' : Str × Str), applyAll entrySem kv xs = some kv' ↔
    ∃ l1 l2, Each IsText (contents 1 xs) l1 ∧ Each IsText (contents 2 xs) l2 ∧ kv' = (l1.getLast?.getD kv.1, l2.getLast?.getD kv.2)
  | [], kv, kv' => by
    simp only [applyAll, contents, List.filter_nil, List.map_nil, each_nil, Option.some.injEq]
    constructor
    · rintro rfl; exact ⟨[], [], rfl, rfl, rfl⟩
    · rintro ⟨_, _, rfl, rfl, rfl⟩; rfl
  | (f, c) :: xs, kv, kv' => by
    simp only [applyAll, Option.bind_eq_some_iff]
    by_cases h1 : f = 1
    · subst h1
      rw [contents_same, contents_other (by decide)]
      simp only [entrySem, Option.map_eq_some_iff, textOf_iff, entries_iff xs, each_cons]
      constructor
      · rintro ⟨_, ⟨s, hs, rfl⟩, l1, l2, e1, e2, rfl⟩
        exact ⟨s :: l1, l2, ⟨s, l1, rfl, hs, e1⟩, e2, by rw [getLast_cons_getD]⟩
      · rintro ⟨_, l2, ⟨s, l1, rfl, hs, e1⟩, e2, rfl⟩
        exact ⟨_, ⟨s, hs, rfl⟩, l1, l2, e1, e2, by rw [getLast_cons_getD]⟩
    · by_cases h2 : f = 2
      · subst h2
        rw [contents_same, contents_other (by decide)]
        simp only [entrySem, Option.map_eq_some_iff, textOf_iff, entries_iff xs, each_cons]
        constructor
        · rintro ⟨_, ⟨s, hs, rfl⟩, l1, l2, e1, e2, rfl⟩
          exact ⟨l1, s :: l2, e1, ⟨s, l2, rfl, hs, e2⟩, by rw [getLast_cons_getD]⟩
        · rintro ⟨l1, _, e1, ⟨s, l2, rfl, hs, e2⟩, rfl⟩
          exact ⟨_, ⟨s, hs, rfl⟩, l1, l2, e1, e2, by rw [getLast_cons_getD]⟩
      · rw [contents_other h1, contents_other h2]
        have : entrySem f c kv = some kv := by
          unfold entrySem
          split
          · exact absurd rfl h1
          · exact absurd rfl h2
          · rfl
        simp only [this, Option.some.injEq, exists_eq_left', entries_iff xs]

def entryOf : Content → Option (Str × Str)
  | .text b => mergeLoop entryStep (b.length + 1) ([], []) b
  | _ => none

theorem entryOf_iff (c : Content) (kv : Str × Str) : entryOf c = some kv ↔ IsEntry c kv := by
  cases c with
  | text b =>
    simp only [entryOf, merge_iff entryStep_eq, entries_iff, IsEntry, StringIn, Content.text.injEq]
    constructor
    · rintro ⟨xs, hm, l1, l2, e1, e2, rfl⟩
      exact ⟨b, xs, rfl, hm, ⟨l1, e1, rfl⟩, ⟨l2, e2, rfl⟩⟩
    · rintro ⟨_, xs, rfl, hm, ⟨l1, e1, h1⟩, ⟨l2, e2, h2⟩⟩
      exact ⟨xs, hm, l1, l2, e1, e2, Prod.ext h1 h2⟩
  | _ => simp [entryOf, IsEntry]

/-- a field that is a tag -/
theorem entry_eq {α : Type} (w : Nat) (bs : Bytes) (m : TagMap) (put : TagMap → α) :
    expect w 2 ((readEntry m bs).map fun (m, r) => (put m, r)) =
      (readContent w bs).bind fun (c, r) => ((entryOf c).map fun kv => put (m.set kv.1 kv.2)).map fun a' => (a', r) := by
  rw [← text_eq w bs (fun b => (mergeLoop entryStep (b.length + 1) ([], []) b).map fun kv => put (m.set kv.1 kv.2))
    (fun c => (entryOf c).map fun kv => put (m.set kv.1 kv.2)) (fun b => rfl)
    (fun c hc => by cases c <;> simp_all [entryOf, Content.wire])]
  simp only [readEntry]
  congr 1
  cases readDelimited bs with
  | none => rfl
  | some br =>
    simp only [Option.bind_some, Option.map_map]
    rfl

/-! ### Points -/

def Point.sem (f : Nat) (c : Content) (p : Point) : Option Point :=
  match f with
  | 1 => (textOf c).map fun s => { p with name := some s }
  | 2 => (doublesOf c).map fun ds => { p with samples := p.samples ++ ds }
  | 3 => (flagOf c).map fun b => { p with persisted := some b }
  | 4 => (methodOf c).map fun m => { p with method := some m }
  | 5 => (entryOf c).map fun kv => { p with metadata := p.metadata.set kv.1 kv.2 }
  | 6 => (timeOf c).map fun t => { p with timestampMs := some t }
  | 7 => (doublesOf c).map fun ds => { p with binBounds := p.binBounds ++ ds }
  | _ => some p

theorem number_map {α : Type} (o : Option (Nat × Bytes)) (put : Nat → α) :
    (o.map fun (v, r) => (put v, r)) = o.bind fun (v, r) => (some (put v)).map fun a => (a, r) := by cases o <;> rfl

theorem Point.step_eq (f w : Nat) (p : Point) (bs : Bytes) :
    Point.step f w p bs = (readContent w bs).bind fun (c, r) => (Point.sem f c p).map fun a' => (a', r) := by
  unfold Point.step
  split
  · exact string_eq w bs fun s => { p with name := some s }
  · exact doubles_eq w bs fun ds => { p with samples := p.samples ++ ds }
  · rw [← number_eq w bs (fun v => some { p with persisted := some (v % 4294967296 != 0) }) (Point.sem 3 · p)
      (fun v _ => rfl) (fun c hc => by cases c <;> simp_all [Point.sem, flagOf, Content.wire])]
    simp only [readVarint32]; congr 1; cases readVarint bs <;> rfl
  · rw [← number_eq w bs (fun v => (Method.ofI32 (v % 4294967296)).map fun m => { p with method := some m }) (Point.sem 4 · p)
      (fun v _ => rfl) (fun c hc => by cases c <;> simp_all [Point.sem, methodOf, Content.wire])]
    simp only [readVarint32]; congr 1
    cases readVarint bs with
    | none => rfl
    | some vr => simp only [Option.map_some, Option.bind_some]; cases Method.ofI32 (vr.1 % 4294967296) <;> rfl
  · exact entry_eq w bs p.metadata fun m => { p with metadata := m }
  · rw [← number_eq w bs (fun v => some { p with timestampMs := some (toI64 v) }) (Point.sem 6 · p)
      (fun v hv => by simp [Point.sem, timeOf, hv]) (fun c hc => by cases c <;> simp_all [Point.sem, timeOf, Content.wire])]
    congr 1; cases readVarint bs <;> rfl
  · exact doubles_eq w bs fun ds => { p with binBounds := p.binBounds ++ ds }
  · rw [unknown_eq]
    congr 1
    funext cr
    obtain ⟨c, r⟩ := cr
    simp only [Point.sem]

/-- the point, from `p` on -/
def PointFrom (p : Point) (xs : List (Nat × Content)) (p' : Point) : Prop :=
  ∃ l1 l2 l3 l4 l5 l6 l7, Each IsText (contents 1 xs) l1 ∧ Each IsDoubles (contents 2 xs) l2 ∧ Each IsFlag (contents 3 xs) l3 ∧ Each IsMethod (contents 4 xs) l4 ∧ Each IsEntry (contents 5 xs) l5 ∧ Each IsTime (contents 6 xs) l6 ∧ Each IsDoubles (contents 7 xs) l7 ∧
    p' = Point.mk (l1.getLast?.or p.name) (p.samples ++ l2.flatten) (l3.getLast?.or p.persisted) (l4.getLast?.or p.method) (l5.foldl (fun (m : TagMap) kv => TagMap.set m kv.1 kv.2) p.metadata) (l6.getLast?.or p.timestampMs) (p.binBounds ++ l7.flatten)

theorem points_iff : ∀ (xs : List (Nat × Content)) (p p' : Point), applyAll Point.sem p xs = some p' ↔ PointFrom p xs p'
  | [], p, p' => by
    simp only [applyAll, PointFrom, contents, List.filter_nil, List.map_nil, each_nil, Option.some.injEq]
    constructor
    · rintro rfl
      exact ⟨[], [], [], [], [], [], [], rfl, rfl, rfl, rfl, rfl, rfl, rfl, by simp⟩
    · rintro ⟨_, _, _, _, _, _, _, rfl, rfl, rfl, rfl, rfl, rfl, rfl, rfl⟩; simp
  | (f, c) :: xs, p, p' => by
    simp only [applyAll, Option.bind_eq_some_iff]
    by_cases hf : 1 ≤ f ∧ f ≤ 7
    · have : f = 1 ∨ f = 2 ∨ f = 3 ∨ f = 4 ∨ f = 5 ∨ f = 6 ∨ f = 7 := by omega
      rcases this with rfl | rfl | rfl | rfl | rfl | rfl | rfl
      · simp only [PointFrom, contents_same, contents_other (show 1 ≠ 2 by decide), contents_other (show 1 ≠ 3 by decide), contents_other (show 1 ≠ 4 by decide), contents_other (show 1 ≠ 5 by decide), contents_other (show 1 ≠ 6 by decide), contents_other (show 1 ≠ 7 by decide)]
        simp only [Point.sem, Option.map_eq_some_iff, textOf_iff, points_iff xs, each_cons, PointFrom]
        constructor
        · rintro ⟨_, ⟨s, hs, rfl⟩, l1, l2, l3, l4, l5, l6, l7, e1, e2, e3, e4, e5, e6, e7, rfl⟩
          exact ⟨s :: l1, l2, l3, l4, l5, l6, l7, ⟨s, l1, rfl, hs, e1⟩, e2, e3, e4, e5, e6, e7, by simp only [getLast_cons_or]⟩
        · rintro ⟨_, l2, l3, l4, l5, l6, l7, ⟨s, l1, rfl, hs, e1⟩, e2, e3, e4, e5, e6, e7, rfl⟩
          exact ⟨_, ⟨s, hs, rfl⟩, l1, l2, l3, l4, l5, l6, l7, e1, e2, e3, e4, e5, e6, e7, by simp only [getLast_cons_or]⟩
      · simp only [PointFrom, contents_same, contents_other (show 2 ≠ 1 by decide), contents_other (show 2 ≠ 3 by decide), contents_other (show 2 ≠ 4 by decide), contents_other (show 2 ≠ 5 by decide), contents_other (show 2 ≠ 6 by decide), contents_other (show 2 ≠ 7 by decide)]
        simp only [Point.sem, Option.map_eq_some_iff, doublesOf_iff, points_iff xs, each_cons, PointFrom]
        constructor
        · rintro ⟨_, ⟨s, hs, rfl⟩, l1, l2, l3, l4, l5, l6, l7, e1, e2, e3, e4, e5, e6, e7, rfl⟩
          exact ⟨l1, s :: l2, l3, l4, l5, l6, l7, e1, ⟨s, l2, rfl, hs, e2⟩, e3, e4, e5, e6, e7, by simp only [List.flatten_cons, List.append_assoc]⟩
        · rintro ⟨l1, _, l3, l4, l5, l6, l7, e1, ⟨s, l2, rfl, hs, e2⟩, e3, e4, e5, e6, e7, rfl⟩
          exact ⟨_, ⟨s, hs, rfl⟩, l1, l2, l3, l4, l5, l6, l7, e1, e2, e3, e4, e5, e6, e7, by simp only [List.flatten_cons, List.append_assoc]⟩
      · simp only [PointFrom, contents_same, contents_other (show 3 ≠ 1 by decide), contents_other (show 3 ≠ 2 by decide), contents_other (show 3 ≠ 4 by decide), contents_other (show 3 ≠ 5 by decide), contents_other (show 3 ≠ 6 by decide), contents_other (show 3 ≠ 7 by decide)]
        simp only [Point.sem, Option.map_eq_some_iff, flagOf_iff, points_iff xs, each_cons, PointFrom]
        constructor
        · rintro ⟨_, ⟨s, hs, rfl⟩, l1, l2, l3, l4, l5, l6, l7, e1, e2, e3, e4, e5, e6, e7, rfl⟩
          exact ⟨l1, l2, s :: l3, l4, l5, l6, l7, e1, e2, ⟨s, l3, rfl, hs, e3⟩, e4, e5, e6, e7, by simp only [getLast_cons_or]⟩
        · rintro ⟨l1, l2, _, l4, l5, l6, l7, e1, e2, ⟨s, l3, rfl, hs, e3⟩, e4, e5, e6, e7, rfl⟩
          exact ⟨_, ⟨s, hs, rfl⟩, l1, l2, l3, l4, l5, l6, l7, e1, e2, e3, e4, e5, e6, e7, by simp only [getLast_cons_or]⟩
      · simp only [PointFrom, contents_same, contents_other (show 4 ≠ 1 by decide), contents_other (show 4 ≠ 2 by decide), contents_other (show 4 ≠ 3 by decide), contents_other (show 4 ≠ 5 by decide), contents_other (show 4 ≠ 6 by decide), contents_other (show 4 ≠ 7 by decide)]
        simp only [Point.sem, Option.map_eq_some_iff, methodOf_iff, points_iff xs, each_cons, PointFrom]
        constructor
        · rintro ⟨_, ⟨s, hs, rfl⟩, l1, l2, l3, l4, l5, l6, l7, e1, e2, e3, e4, e5, e6, e7, rfl⟩
          exact ⟨l1, l2, l3, s :: l4, l5, l6, l7, e1, e2, e3, ⟨s, l4, rfl, hs, e4⟩, e5, e6, e7, by simp only [getLast_cons_or]⟩
        · rintro ⟨l1, l2, l3, _, l5, l6, l7, e1, e2, e3, ⟨s, l4, rfl, hs, e4⟩, e5, e6, e7, rfl⟩
          exact ⟨_, ⟨s, hs, rfl⟩, l1, l2, l3, l4, l5, l6, l7, e1, e2, e3, e4, e5, e6, e7, by simp only [getLast_cons_or]⟩
      · simp only [PointFrom, contents_same, contents_other (show 5 ≠ 1 by decide), contents_other (show 5 ≠ 2 by decide), contents_other (show 5 ≠ 3 by decide), contents_other (show 5 ≠ 4 by decide), contents_other (show 5 ≠ 6 by decide), contents_other (show 5 ≠ 7 by decide)]
        simp only [Point.sem, Option.map_eq_some_iff, entryOf_iff, points_iff xs, each_cons, PointFrom]
        constructor
        · rintro ⟨_, ⟨s, hs, rfl⟩, l1, l2, l3, l4, l5, l6, l7, e1, e2, e3, e4, e5, e6, e7, rfl⟩
          exact ⟨l1, l2, l3, l4, s :: l5, l6, l7, e1, e2, e3, e4, ⟨s, l5, rfl, hs, e5⟩, e6, e7, by simp only [List.foldl_cons]⟩
        · rintro ⟨l1, l2, l3, l4, _, l6, l7, e1, e2, e3, e4, ⟨s, l5, rfl, hs, e5⟩, e6, e7, rfl⟩
          exact ⟨_, ⟨s, hs, rfl⟩, l1, l2, l3, l4, l5, l6, l7, e1, e2, e3, e4, e5, e6, e7, by simp only [List.foldl_cons]⟩
      · simp only [PointFrom, contents_same, contents_other (show 6 ≠ 1 by decide), contents_other (show 6 ≠ 2 by decide), contents_other (show 6 ≠ 3 by decide), contents_other (show 6 ≠ 4 by decide), contents_other (show 6 ≠ 5 by decide), contents_other (show 6 ≠ 7 by decide)]
        simp only [Point.sem, Option.map_eq_some_iff, timeOf_iff, points_iff xs, each_cons, PointFrom]
        constructor
        · rintro ⟨_, ⟨s, hs, rfl⟩, l1, l2, l3, l4, l5, l6, l7, e1, e2, e3, e4, e5, e6, e7, rfl⟩
          exact ⟨l1, l2, l3, l4, l5, s :: l6, l7, e1, e2, e3, e4, e5, ⟨s, l6, rfl, hs, e6⟩, e7, by simp only [getLast_cons_or]⟩
        · rintro ⟨l1, l2, l3, l4, l5, _, l7, e1, e2, e3, e4, e5, ⟨s, l6, rfl, hs, e6⟩, e7, rfl⟩
          exact ⟨_, ⟨s, hs, rfl⟩, l1, l2, l3, l4, l5, l6, l7, e1, e2, e3, e4, e5, e6, e7, by simp only [getLast_cons_or]⟩
      · simp only [PointFrom, contents_same, contents_other (show 7 ≠ 1 by decide), contents_other (show 7 ≠ 2 by decide), contents_other (show 7 ≠ 3 by decide), contents_other (show 7 ≠ 4 by decide), contents_other (show 7 ≠ 5 by decide), contents_other (show 7 ≠ 6 by decide)]
        simp only [Point.sem, Option.map_eq_some_iff, doublesOf_iff, points_iff xs, each_cons, PointFrom]
        constructor
        · rintro ⟨_, ⟨s, hs, rfl⟩, l1, l2, l3, l4, l5, l6, l7, e1, e2, e3, e4, e5, e6, e7, rfl⟩
          exact ⟨l1, l2, l3, l4, l5, l6, s :: l7, e1, e2, e3, e4, e5, e6, ⟨s, l7, rfl, hs, e7⟩, by simp only [List.flatten_cons, List.append_assoc]⟩
        · rintro ⟨l1, l2, l3, l4, l5, l6, _, e1, e2, e3, e4, e5, e6, ⟨s, l7, rfl, hs, e7⟩, rfl⟩
          exact ⟨_, ⟨s, hs, rfl⟩, l1, l2, l3, l4, l5, l6, l7, e1, e2, e3, e4, e5, e6, e7, by simp only [List.flatten_cons, List.append_assoc]⟩
    · have : Point.sem f c p = some p := by
        unfold Point.sem
        split <;> first | rfl | exact absurd (by decide) hf
      simp only [this, Option.some.injEq, exists_eq_left', points_iff xs, PointFrom, contents_other (show f ≠ 1 by omega), contents_other (show f ≠ 2 by omega), contents_other (show f ≠ 3 by omega), contents_other (show f ≠ 4 by omega), contents_other (show f ≠ 5 by omega), contents_other (show f ≠ 6 by omega), contents_other (show f ≠ 7 by omega)]

theorem point_iff (xs : List (Nat × Content)) (p : Point) : applyAll Point.sem {} xs = some p ↔ PointOf xs p := by
  rw [points_iff]
  simp only [PointFrom, PointOf, TagsIn, Option.or_none, List.nil_append]
  constructor
  · rintro ⟨l1, l2, l3, l4, l5, l6, l7, e1, e2, e3, e4, e5, e6, e7, rfl⟩
    exact ⟨⟨l1, e1, rfl⟩, ⟨l2, e2, rfl⟩, ⟨l3, e3, rfl⟩, ⟨l4, e4, rfl⟩, ⟨l5, e5, rfl⟩, ⟨l6, e6, rfl⟩, ⟨l7, e7, rfl⟩⟩
  · rintro ⟨⟨l1, e1, h1⟩, ⟨l2, e2, h2⟩, ⟨l3, e3, h3⟩, ⟨l4, e4, h4⟩, ⟨l5, e5, h5⟩, ⟨l6, e6, h6⟩, ⟨l7, e7, h7⟩⟩
    refine ⟨l1, l2, l3, l4, l5, l6, l7, e1, e2, e3, e4, e5, e6, e7, ?_⟩
    rw [← h1, ← h2, ← h3, ← h4, ← h5, ← h6, ← h7]

/-! ### Lines -/

def Line.sem (f : Nat) (c : Content) (p : Line) : Option Line :=
  match f with
  | 1 => (textOf c).map fun s => { p with path := some s }
  | 2 => (textOf c).map fun s => { p with value := some s }
  | 3 => (entryOf c).map fun kv => { p with metadata := p.metadata.set kv.1 kv.2 }
  | 4 => (timeOf c).map fun t => { p with timestampMs := some t }
  | _ => some p

theorem Line.step_eq (f w : Nat) (p : Line) (bs : Bytes) :
    Line.step f w p bs = (readContent w bs).bind fun (c, r) => (Line.sem f c p).map fun a' => (a', r) := by
  unfold Line.step
  split
  · exact string_eq w bs fun s => { p with path := some s }
  · exact string_eq w bs fun s => { p with value := some s }
  · exact entry_eq w bs p.metadata fun m => { p with metadata := m }
  · rw [← number_eq w bs (fun v => some { p with timestampMs := some (toI64 v) }) (Line.sem 4 · p)
      (fun v hv => by simp [Line.sem, timeOf, hv]) (fun c hc => by cases c <;> simp_all [Line.sem, timeOf, Content.wire])]
    congr 1; cases readVarint bs <;> rfl
  · rw [unknown_eq]
    congr 1
    funext cr
    obtain ⟨c, r⟩ := cr
    simp only [Line.sem]

/-- the line, from `p` on -/
def LineFrom (p : Line) (xs : List (Nat × Content)) (p' : Line) : Prop :=
  ∃ l1 l2 l3 l4, Each IsText (contents 1 xs) l1 ∧ Each IsText (contents 2 xs) l2 ∧ Each IsEntry (contents 3 xs) l3 ∧ Each IsTime (contents 4 xs) l4 ∧
    p' = Line.mk (l1.getLast?.or p.path) (l2.getLast?.or p.value) (l3.foldl (fun (m : TagMap) kv => TagMap.set m kv.1 kv.2) p.metadata) (l4.getLast?.or p.timestampMs)

theorem lines_iff : ∀ (xs : List (Nat × Content)) (p p' : Line), applyAll Line.sem p xs = some p' ↔ LineFrom p xs p'
  | [], p, p' => by
    simp only [applyAll, LineFrom, contents, List.filter_nil, List.map_nil, each_nil, Option.some.injEq]
    constructor
    · rintro rfl
      exact ⟨[], [], [], [], rfl, rfl, rfl, rfl, by simp⟩
    · rintro ⟨_, _, _, _, rfl, rfl, rfl, rfl, rfl⟩; simp
  | (f, c) :: xs, p, p' => by
    simp only [applyAll, Option.bind_eq_some_iff]
    by_cases hf : 1 ≤ f ∧ f ≤ 4
    · have : f = 1 ∨ f = 2 ∨ f = 3 ∨ f = 4 := by omega
      rcases this with rfl | rfl | rfl | rfl
      · simp only [LineFrom, contents_same, contents_other (show 1 ≠ 2 by decide), contents_other (show 1 ≠ 3 by decide), contents_other (show 1 ≠ 4 by decide)]
        simp only [Line.sem, Option.map_eq_some_iff, textOf_iff, lines_iff xs, each_cons, LineFrom]
        constructor
        · rintro ⟨_, ⟨s, hs, rfl⟩, l1, l2, l3, l4, e1, e2, e3, e4, rfl⟩
          exact ⟨s :: l1, l2, l3, l4, ⟨s, l1, rfl, hs, e1⟩, e2, e3, e4, by simp only [getLast_cons_or]⟩
        · rintro ⟨_, l2, l3, l4, ⟨s, l1, rfl, hs, e1⟩, e2, e3, e4, rfl⟩
          exact ⟨_, ⟨s, hs, rfl⟩, l1, l2, l3, l4, e1, e2, e3, e4, by simp only [getLast_cons_or]⟩
      · simp only [LineFrom, contents_same, contents_other (show 2 ≠ 1 by decide), contents_other (show 2 ≠ 3 by decide), contents_other (show 2 ≠ 4 by decide)]
        simp only [Line.sem, Option.map_eq_some_iff, textOf_iff, lines_iff xs, each_cons, LineFrom]
        constructor
        · rintro ⟨_, ⟨s, hs, rfl⟩, l1, l2, l3, l4, e1, e2, e3, e4, rfl⟩
          exact ⟨l1, s :: l2, l3, l4, e1, ⟨s, l2, rfl, hs, e2⟩, e3, e4, by simp only [getLast_cons_or]⟩
        · rintro ⟨l1, _, l3, l4, e1, ⟨s, l2, rfl, hs, e2⟩, e3, e4, rfl⟩
          exact ⟨_, ⟨s, hs, rfl⟩, l1, l2, l3, l4, e1, e2, e3, e4, by simp only [getLast_cons_or]⟩
      · simp only [LineFrom, contents_same, contents_other (show 3 ≠ 1 by decide), contents_other (show 3 ≠ 2 by decide), contents_other (show 3 ≠ 4 by decide)]
        simp only [Line.sem, Option.map_eq_some_iff, entryOf_iff, lines_iff xs, each_cons, LineFrom]
        constructor
        · rintro ⟨_, ⟨s, hs, rfl⟩, l1, l2, l3, l4, e1, e2, e3, e4, rfl⟩
          exact ⟨l1, l2, s :: l3, l4, e1, e2, ⟨s, l3, rfl, hs, e3⟩, e4, by simp only [List.foldl_cons]⟩
        · rintro ⟨l1, l2, _, l4, e1, e2, ⟨s, l3, rfl, hs, e3⟩, e4, rfl⟩
          exact ⟨_, ⟨s, hs, rfl⟩, l1, l2, l3, l4, e1, e2, e3, e4, by simp only [List.foldl_cons]⟩
      · simp only [LineFrom, contents_same, contents_other (show 4 ≠ 1 by decide), contents_other (show 4 ≠ 2 by decide), contents_other (show 4 ≠ 3 by decide)]
        simp only [Line.sem, Option.map_eq_some_iff, timeOf_iff, lines_iff xs, each_cons, LineFrom]
        constructor
        · rintro ⟨_, ⟨s, hs, rfl⟩, l1, l2, l3, l4, e1, e2, e3, e4, rfl⟩
          exact ⟨l1, l2, l3, s :: l4, e1, e2, e3, ⟨s, l4, rfl, hs, e4⟩, by simp only [getLast_cons_or]⟩
        · rintro ⟨l1, l2, l3, _, e1, e2, e3, ⟨s, l4, rfl, hs, e4⟩, rfl⟩
          exact ⟨_, ⟨s, hs, rfl⟩, l1, l2, l3, l4, e1, e2, e3, e4, by simp only [getLast_cons_or]⟩
    · have : Line.sem f c p = some p := by
        unfold Line.sem
        split <;> first | rfl | exact absurd (by decide) hf
      simp only [this, Option.some.injEq, exists_eq_left', lines_iff xs, LineFrom, contents_other (show f ≠ 1 by omega), contents_other (show f ≠ 2 by omega), contents_other (show f ≠ 3 by omega), contents_other (show f ≠ 4 by omega)]

theorem line_iff (xs : List (Nat × Content)) (p : Line) : applyAll Line.sem {} xs = some p ↔ LineOf xs p := by
  rw [lines_iff]
  simp only [LineFrom, LineOf, TagsIn, Option.or_none]
  constructor
  · rintro ⟨l1, l2, l3, l4, e1, e2, e3, e4, rfl⟩
    exact ⟨⟨l1, e1, rfl⟩, ⟨l2, e2, rfl⟩, ⟨l3, e3, rfl⟩, ⟨l4, e4, rfl⟩⟩
  · rintro ⟨⟨l1, e1, h1⟩, ⟨l2, e2, h2⟩, ⟨l3, e3, h3⟩, ⟨l4, e4, h4⟩⟩
    refine ⟨l1, l2, l3, l4, e1, e2, e3, e4, ?_⟩
    rw [← h1, ← h2, ← h3, ← h4]

/-! ### Payloads -/

def pointIn : Content → Option Point
  | .text b => mergeLoop Point.step (b.length + 1) {} b
  | _ => none

theorem pointIn_iff (c : Content) (x : Point) : pointIn c = some x ↔ ∃ b ys, c = .text b ∧ IsMessage b ys ∧ PointOf ys x := by
  cases c with
  | text b =>
    simp only [pointIn, merge_iff Point.step_eq, point_iff, Content.text.injEq]
    constructor
    · rintro ⟨xs, h⟩; exact ⟨b, xs, rfl, h⟩
    · rintro ⟨_, xs, rfl, h⟩; exact ⟨xs, h⟩
  | _ => simp [pointIn]

def lineIn : Content → Option Line
  | .text b => mergeLoop Line.step (b.length + 1) {} b
  | _ => none

theorem lineIn_iff (c : Content) (x : Line) : lineIn c = some x ↔ ∃ b ys, c = .text b ∧ IsMessage b ys ∧ LineOf ys x := by
  cases c with
  | text b =>
    simp only [lineIn, merge_iff Line.step_eq, line_iff, Content.text.injEq]
    constructor
    · rintro ⟨xs, h⟩; exact ⟨b, xs, rfl, h⟩
    · rintro ⟨_, xs, rfl, h⟩; exact ⟨xs, h⟩
  | _ => simp [lineIn]

def Payload.sem (f : Nat) (c : Content) (p : Payload) : Option Payload :=
  match f with
  | 2 => (pointIn c).map fun x => { p with points := p.points ++ [x] }
  | 3 => (lineIn c).map fun x => { p with lines := p.lines ++ [x] }
  | _ => some p

theorem Payload.step_eq (f w : Nat) (p : Payload) (bs : Bytes) :
    Payload.step f w p bs = (readContent w bs).bind fun (c, r) => (Payload.sem f c p).map fun a' => (a', r) := by
  unfold Payload.step
  split
  · rw [← text_eq w bs (fun b => (pointIn (.text b)).map fun x => { p with points := p.points ++ [x] }) (Payload.sem 2 · p) (fun b => rfl)
      (fun c hc => by cases c <;> simp_all [Payload.sem, pointIn, Content.wire])]
    congr 1
    cases readDelimited bs with
    | none => rfl
    | some br => simp only [Option.bind_some, Option.map_map, pointIn]; rfl
  · rw [← text_eq w bs (fun b => (lineIn (.text b)).map fun x => { p with lines := p.lines ++ [x] }) (Payload.sem 3 · p) (fun b => rfl)
      (fun c hc => by cases c <;> simp_all [Payload.sem, lineIn, Content.wire])]
    congr 1
    cases readDelimited bs with
    | none => rfl
    | some br => simp only [Option.bind_some, Option.map_map, lineIn]; rfl
  · rw [unknown_eq]
    congr 1
    funext cr
    obtain ⟨c, r⟩ := cr
    simp only [Payload.sem]

theorem payloads_iff : ∀ (xs : List (Nat × Content)) (p p' : Payload), applyAll Payload.sem p xs = some p' ↔
    ∃ l2 l3, Each (fun c x => pointIn c = some x) (contents 2 xs) l2 ∧ Each (fun c x => lineIn c = some x) (contents 3 xs) l3 ∧
      p' = Payload.mk (p.points ++ l2) (p.lines ++ l3)
  | [], p, p' => by
    simp only [applyAll, contents, List.filter_nil, List.map_nil, each_nil, Option.some.injEq]
    constructor
    · rintro rfl; exact ⟨[], [], rfl, rfl, by simp⟩
    · rintro ⟨_, _, rfl, rfl, rfl⟩; simp
  | (f, c) :: xs, p, p' => by
    simp only [applyAll, Option.bind_eq_some_iff]
    by_cases h2 : f = 2
    · subst h2
      simp only [contents_same, contents_other (show 2 ≠ 3 by decide), Payload.sem, Option.map_eq_some_iff, payloads_iff xs, each_cons]
      constructor
      · rintro ⟨_, ⟨s, hs, rfl⟩, l2, l3, e2, e3, rfl⟩
        exact ⟨s :: l2, l3, ⟨s, l2, rfl, hs, e2⟩, e3, by simp⟩
      · rintro ⟨_, l3, ⟨s, l2, rfl, hs, e2⟩, e3, rfl⟩
        exact ⟨_, ⟨s, hs, rfl⟩, l2, l3, e2, e3, by simp⟩
    · by_cases h3 : f = 3
      · subst h3
        simp only [contents_same, contents_other (show 3 ≠ 2 by decide), Payload.sem, Option.map_eq_some_iff, payloads_iff xs, each_cons]
        constructor
        · rintro ⟨_, ⟨s, hs, rfl⟩, l2, l3, e2, e3, rfl⟩
          exact ⟨l2, s :: l3, e2, ⟨s, l3, rfl, hs, e3⟩, by simp⟩
        · rintro ⟨l2, _, e2, ⟨s, l3, rfl, hs, e3⟩, rfl⟩
          exact ⟨_, ⟨s, hs, rfl⟩, l2, l3, e2, e3, by simp⟩
      · have : Payload.sem f c p = some p := by
          unfold Payload.sem
          split
          · exact absurd rfl h2
          · exact absurd rfl h3
          · rfl
        simp only [this, Option.some.injEq, exists_eq_left', payloads_iff xs, contents_other h2, contents_other h3]

theorem parse_iff (bs : Bytes) (p : Payload) : Payload.parse bs = some p ↔ IsPayload bs p := by
  rw [Payload.parse, merge_iff Payload.step_eq]
  simp only [payloads_iff, List.nil_append, IsPayload, pointIn_iff, lineIn_iff]
  constructor
  · rintro ⟨xs, hm, l2, l3, e2, e3, rfl⟩; exact ⟨xs, hm, e2, e3⟩
  · rintro ⟨xs, hm, e2, e3⟩; exact ⟨xs, hm, p.points, p.lines, e2, e3, rfl⟩

end Verif.Proto
