import Verif.Lemmas.Graphite
/-! # UTF-8: what is accepted is what is the encoding of some text -/

namespace Verif.Graphite

theorem lead_table : ∀ n, n < 256 → utf8Lead (UInt8.ofNat n) =
    (if n < 128 then some []
     else if 194 ≤ n ∧ n ≤ 223 then some [(128, 191)]
     else if n = 224 then some [(160, 191), (128, 191)]
     else if n = 237 then some [(128, 159), (128, 191)]
     else if 225 ≤ n ∧ n ≤ 239 then some [(128, 191), (128, 191)]
     else if n = 240 then some [(144, 191), (128, 191), (128, 191)]
     else if n = 244 then some [(128, 143), (128, 191), (128, 191)]
     else if 241 ≤ n ∧ n ≤ 243 then some [(128, 191), (128, 191), (128, 191)]
     else none) := by decide +kernel

theorem from_range (lo hi m : Nat) (hlo : lo < 256) (hhi : hi < 256) (hm : m < 256) (rs : List (UInt8 × UInt8)) (r : Bytes) :
    utf8From ((UInt8.ofNat lo, UInt8.ofNat hi) :: rs) (UInt8.ofNat m :: r) = (decide (lo ≤ m ∧ m ≤ hi) && utf8From rs r) := by
  simp only [utf8From, UInt8.le_iff_toNat_le, UInt8.toNat_ofNat', Nat.reducePow, Nat.mod_eq_of_lt hlo, Nat.mod_eq_of_lt hhi, Nat.mod_eq_of_lt hm, Bool.decide_and]

theorem encode_valid (c : Char) (rest : Bytes) : utf8From [] (String.utf8EncodeChar c ++ rest) = utf8From [] rest := by
  have hv := c.valid
  simp only [UInt32.isValidChar, Nat.isValidChar] at hv
  simp only [String.utf8EncodeChar]
  generalize c.val.toNat = v at hv
  have step : ∀ n r rs, n < 256 → utf8Lead (UInt8.ofNat n) = some rs → utf8From [] (UInt8.ofNat n :: r) = utf8From rs r := by
    intro n r rs _ h; simp only [utf8From, h]
  split
  · rw [List.singleton_append, step v rest [] (by omega) (by rw [lead_table v (by omega), if_pos (by omega)])]
  · split
    · have h : utf8Lead (UInt8.ofNat (v / 64 % 32 + 192)) = some [(UInt8.ofNat 128, UInt8.ofNat 191)] := by
        rw [lead_table _ (by omega), if_neg (by omega), if_pos (by omega)]; rfl
      rw [List.cons_append, step _ _ _ (by omega) h, List.singleton_append, from_range _ _ _ (by omega) (by omega) (by omega)]
      simp; omega
    · split
      · have ht := lead_table (v / 4096 % 16 + 224) (by omega)
        rw [if_neg (by omega), if_neg (by omega)] at ht
        simp only [List.cons_append, List.nil_append]
        by_cases h1 : v / 4096 % 16 + 224 = 224
        · rw [if_pos h1] at ht
          rw [step _ _ [(UInt8.ofNat 160, UInt8.ofNat 191), (UInt8.ofNat 128, UInt8.ofNat 191)] (by omega) ht,
            from_range _ _ _ (by omega) (by omega) (by omega), from_range _ _ _ (by omega) (by omega) (by omega),
            decide_eq_true (by omega), decide_eq_true (by omega)]; rfl
        · rw [if_neg h1] at ht
          by_cases h2 : v / 4096 % 16 + 224 = 237
          · rw [if_pos h2] at ht
            rw [step _ _ [(UInt8.ofNat 128, UInt8.ofNat 159), (UInt8.ofNat 128, UInt8.ofNat 191)] (by omega) ht,
              from_range _ _ _ (by omega) (by omega) (by omega), from_range _ _ _ (by omega) (by omega) (by omega),
              decide_eq_true (by omega), decide_eq_true (by omega)]; rfl
          · rw [if_neg h2, if_pos (by omega)] at ht
            rw [step _ _ [(UInt8.ofNat 128, UInt8.ofNat 191), (UInt8.ofNat 128, UInt8.ofNat 191)] (by omega) ht,
              from_range _ _ _ (by omega) (by omega) (by omega), from_range _ _ _ (by omega) (by omega) (by omega),
              decide_eq_true (by omega), decide_eq_true (by omega)]; rfl
      · have ht := lead_table (v / 262144 % 8 + 240) (by omega)
        rw [if_neg (by omega), if_neg (by omega), if_neg (by omega), if_neg (by omega), if_neg (by omega)] at ht
        simp only [List.cons_append, List.nil_append]
        by_cases h1 : v / 262144 % 8 + 240 = 240
        · rw [if_pos h1] at ht
          rw [step _ _ [(UInt8.ofNat 144, UInt8.ofNat 191), (UInt8.ofNat 128, UInt8.ofNat 191), (UInt8.ofNat 128, UInt8.ofNat 191)] (by omega) ht,
            from_range _ _ _ (by omega) (by omega) (by omega), from_range _ _ _ (by omega) (by omega) (by omega), from_range _ _ _ (by omega) (by omega) (by omega),
            decide_eq_true (by omega), decide_eq_true (by omega), decide_eq_true (by omega)]; rfl
        · rw [if_neg h1] at ht
          by_cases h2 : v / 262144 % 8 + 240 = 244
          · rw [if_pos h2] at ht
            rw [step _ _ [(UInt8.ofNat 128, UInt8.ofNat 143), (UInt8.ofNat 128, UInt8.ofNat 191), (UInt8.ofNat 128, UInt8.ofNat 191)] (by omega) ht,
              from_range _ _ _ (by omega) (by omega) (by omega), from_range _ _ _ (by omega) (by omega) (by omega), from_range _ _ _ (by omega) (by omega) (by omega),
              decide_eq_true (by omega), decide_eq_true (by omega), decide_eq_true (by omega)]; rfl
          · rw [if_neg h2, if_pos (by omega)] at ht
            rw [step _ _ [(UInt8.ofNat 128, UInt8.ofNat 191), (UInt8.ofNat 128, UInt8.ofNat 191), (UInt8.ofNat 128, UInt8.ofNat 191)] (by omega) ht,
              from_range _ _ _ (by omega) (by omega) (by omega), from_range _ _ _ (by omega) (by omega) (by omega), from_range _ _ _ (by omega) (by omega) (by omega),
              decide_eq_true (by omega), decide_eq_true (by omega), decide_eq_true (by omega)]; rfl

/-- A character with a given number. -/
theorem char_of (v : Nat) (h : v < 0xd800 ∨ (0xdfff < v ∧ v < 0x110000)) : ∃ c : Char, c.val.toNat = v := by
  have hv : v % 2 ^ 32 = v := Nat.mod_eq_of_lt (by omega)
  exact ⟨⟨UInt32.ofNat v, by simp only [UInt32.isValidChar, Nat.isValidChar, UInt32.toNat_ofNat', hv]; exact h⟩, by simp only [UInt32.toNat_ofNat', hv]⟩

theorem range_of {lo hi : Nat} {rs : List (UInt8 × UInt8)} {r : Bytes} (hlo : lo < 256) (hhi : hi < 256)
    (h : utf8From ((UInt8.ofNat lo, UInt8.ofNat hi) :: rs) r = true) :
    ∃ m r', r = UInt8.ofNat m :: r' ∧ m < 256 ∧ lo ≤ m ∧ m ≤ hi ∧ utf8From rs r' = true := by
  cases r with
  | nil => simp [utf8From] at h
  | cons b r =>
    have hb : b = UInt8.ofNat b.toNat := (UInt8.ofNat_toNat).symm
    have hlt : b.toNat < 256 := b.toNat_lt
    rw [hb, from_range lo hi _ hlo hhi hlt] at h
    simp only [Bool.and_eq_true, decide_eq_true_eq] at h
    exact ⟨b.toNat, r, by rw [← hb], hlt, h.1.1, h.1.2, h.2⟩

theorem valid_iff (bs : Bytes) : utf8Valid bs = true ↔ ∃ s : Str, bs = s.flatMap String.utf8EncodeChar := by
  constructor
  · suffices H : ∀ n (bs : Bytes), bs.length ≤ n → utf8From [] bs = true → ∃ s : Str, bs = s.flatMap String.utf8EncodeChar from
      H bs.length bs (Nat.le_refl _)
    intro n
    induction n with
    | zero => intro bs hl _; exact ⟨[], by simpa using hl⟩
    | succ n ih =>
      intro bs hl h
      cases bs with
      | nil => exact ⟨[], rfl⟩
      | cons a r =>
        have ha : a = UInt8.ofNat a.toNat := (UInt8.ofNat_toNat).symm
        have hlt : a.toNat < 256 := a.toNat_lt
        have ht := lead_table a.toNat hlt
        rw [← ha] at ht
        simp only [utf8From, ht] at h
        have fin : ∀ (pre rest : Bytes) (v : Nat), (v < 0xd800 ∨ (0xdfff < v ∧ v < 0x110000)) →
            (∀ c : Char, c.val.toNat = v → String.utf8EncodeChar c = pre) → rest.length ≤ n → utf8From [] rest = true →
            ∃ s : Str, pre ++ rest = s.flatMap String.utf8EncodeChar := by
          intro pre rest v hv he hlen hr
          obtain ⟨c, hc⟩ := char_of v hv
          obtain ⟨s, rfl⟩ := ih rest hlen hr
          exact ⟨c :: s, by rw [List.flatMap_cons, he c hc]⟩
        simp only [List.length_cons] at hl
        generalize hn : a.toNat = x at *
        subst ha
        by_cases h1 : x < 128
        · rw [if_pos h1] at h
          exact fin [UInt8.ofNat x] r x (by omega) (fun c hc => by simp only [String.utf8EncodeChar, hc]; rw [if_pos (by omega)]) (by omega) h
        rw [if_neg h1] at h
        by_cases h2 : 194 ≤ x ∧ x ≤ 223
        · rw [if_pos h2] at h
          obtain ⟨m, r', rfl, hm, l1, l2, h⟩ := range_of (lo := 128) (hi := 191) (by omega) (by omega) h
          simp only [List.length_cons] at hl
          refine fin [UInt8.ofNat x, UInt8.ofNat m] r' ((x - 192) * 64 + (m - 128)) (by omega) (fun c hc => ?_) (by omega) h
          simp only [String.utf8EncodeChar, hc]
          rw [if_neg (by omega), if_pos (by omega)]
          congr 3 <;> omega
        rw [if_neg h2] at h
        have three : ∀ (lo hi : Nat), lo < 256 → hi < 256 → 224 ≤ x → x ≤ 239 → 128 ≤ lo → hi ≤ 191 → (x = 224 → 160 ≤ lo) → (x = 237 → hi ≤ 159) →
            utf8From [(UInt8.ofNat lo, UInt8.ofNat hi), (UInt8.ofNat 128, UInt8.ofNat 191)] r = true →
            ∃ s : Str, UInt8.ofNat x :: r = s.flatMap String.utf8EncodeChar := by
          intro lo hi g1 g2 g3 g4 g5 g6 g7 g8 h
          obtain ⟨m, r', rfl, hm, l1, l2, h⟩ := range_of g1 g2 h
          obtain ⟨k, r'', rfl, hk, k1, k2, h⟩ := range_of (lo := 128) (hi := 191) (by omega) (by omega) h
          simp only [List.length_cons] at hl
          refine fin [UInt8.ofNat x, UInt8.ofNat m, UInt8.ofNat k] r'' ((x - 224) * 4096 + (m - 128) * 64 + (k - 128)) (by omega) (fun c hc => ?_) (by omega) h
          simp only [String.utf8EncodeChar, hc]
          rw [if_neg (by omega), if_neg (by omega), if_pos (by omega)]
          have e1 : ((x - 224) * 4096 + (m - 128) * 64 + (k - 128)) / 4096 % 16 + 224 = x := by omega
          have e2 : ((x - 224) * 4096 + (m - 128) * 64 + (k - 128)) / 64 % 64 + 128 = m := by omega
          have e3 : ((x - 224) * 4096 + (m - 128) * 64 + (k - 128)) % 64 + 128 = k := by omega
          rw [e1, e2, e3]
        by_cases h3 : x = 224
        · rw [if_pos h3] at h; exact three 160 191 (by omega) (by omega) (by omega) (by omega) (by omega) (by omega) (by omega) (by omega) h
        rw [if_neg h3] at h
        by_cases h4 : x = 237
        · rw [if_pos h4] at h; exact three 128 159 (by omega) (by omega) (by omega) (by omega) (by omega) (by omega) (by omega) (by omega) h
        rw [if_neg h4] at h
        by_cases h5 : 225 ≤ x ∧ x ≤ 239
        · rw [if_pos h5] at h; exact three 128 191 (by omega) (by omega) (by omega) (by omega) (by omega) (by omega) (by omega) (by omega) h
        rw [if_neg h5] at h
        have four : ∀ (lo hi : Nat), lo < 256 → hi < 256 → 240 ≤ x → x ≤ 244 → 128 ≤ lo → hi ≤ 191 → (x = 240 → 144 ≤ lo) → (x = 244 → hi ≤ 143) →
            utf8From [(UInt8.ofNat lo, UInt8.ofNat hi), (UInt8.ofNat 128, UInt8.ofNat 191), (UInt8.ofNat 128, UInt8.ofNat 191)] r = true →
            ∃ s : Str, UInt8.ofNat x :: r = s.flatMap String.utf8EncodeChar := by
          intro lo hi g1 g2 g3 g4 g5 g6 g7 g8 h
          obtain ⟨m, r', rfl, hm, l1, l2, h⟩ := range_of g1 g2 h
          obtain ⟨k, r'', rfl, hk, k1, k2, h⟩ := range_of (lo := 128) (hi := 191) (by omega) (by omega) h
          obtain ⟨j, r3, rfl, hj, j1, j2, h⟩ := range_of (lo := 128) (hi := 191) (by omega) (by omega) h
          simp only [List.length_cons] at hl
          refine fin [UInt8.ofNat x, UInt8.ofNat m, UInt8.ofNat k, UInt8.ofNat j] r3 ((x - 240) * 262144 + (m - 128) * 4096 + (k - 128) * 64 + (j - 128)) (by omega) (fun c hc => ?_) (by omega) h
          simp only [String.utf8EncodeChar, hc]
          rw [if_neg (by omega), if_neg (by omega), if_neg (by omega)]
          have e1 : ((x - 240) * 262144 + (m - 128) * 4096 + (k - 128) * 64 + (j - 128)) / 262144 % 8 + 240 = x := by omega
          have e2 : ((x - 240) * 262144 + (m - 128) * 4096 + (k - 128) * 64 + (j - 128)) / 4096 % 64 + 128 = m := by omega
          have e3 : ((x - 240) * 262144 + (m - 128) * 4096 + (k - 128) * 64 + (j - 128)) / 64 % 64 + 128 = k := by omega
          have e4 : ((x - 240) * 262144 + (m - 128) * 4096 + (k - 128) * 64 + (j - 128)) % 64 + 128 = j := by omega
          rw [e1, e2, e3, e4]
        by_cases h6 : x = 240
        · rw [if_pos h6] at h; exact four 144 191 (by omega) (by omega) (by omega) (by omega) (by omega) (by omega) (by omega) (by omega) h
        rw [if_neg h6] at h
        by_cases h7 : x = 244
        · rw [if_pos h7] at h; exact four 128 143 (by omega) (by omega) (by omega) (by omega) (by omega) (by omega) (by omega) (by omega) h
        rw [if_neg h7] at h
        by_cases h8 : 241 ≤ x ∧ x ≤ 243
        · rw [if_pos h8] at h; exact four 128 191 (by omega) (by omega) (by omega) (by omega) (by omega) (by omega) (by omega) (by omega) h
        rw [if_neg h8] at h
        cases h
  · rintro ⟨s, rfl⟩
    show utf8From [] _ = true
    induction s with
    | nil => rfl
    | cons c s ih => rw [List.flatMap_cons, encode_valid]; exact ih
end Verif.Graphite
