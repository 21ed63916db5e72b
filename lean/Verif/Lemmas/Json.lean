import Verif.Spec.Json
/-!
# Lemmas on JSON texts: the reader and the writer against the grammar
-/
namespace Verif.Json

/-! ## Whitespace -/

theorem isWs_iff (c : Char) : isWs c = true ↔ c = ' ' ∨ c = '\t' ∨ c = '\n' ∨ c = '\r' := by
  simp only [isWs, Bool.or_eq_true, decide_eq_true_eq]
  constructor
  · rintro (((h | h) | h) | h) <;> simp [h]
  · rintro (h | h | h | h) <;> simp [h]

theorem blank_iff (w : Str) : Blank w ↔ ∀ c ∈ w, isWs c = true := by simp only [Blank, isWs_iff]

/-- The text does not begin with whitespace. -/
def Solid (s : Str) : Prop := ∀ c r, s = c :: r → isWs c = false

theorem skip_solid {s : Str} (h : Solid s) : skip s = s := by
  cases s with
  | nil => rfl
  | cons c r => simp [skip, h c r rfl]

theorem solid_skip (s : Str) : Solid (skip s) := by
  induction s with
  | nil => intro c r h; cases h
  | cons c s ih =>
    by_cases hc : isWs c = true
    · simpa only [skip, List.dropWhile_cons, hc, if_true] using ih
    · intro d r h
      simp only [skip, List.dropWhile_cons, hc, if_false, Bool.false_eq_true] at h
      simp only [List.cons.injEq] at h
      rw [← h.1]; simpa using hc

theorem skip_blank {w : Str} (hw : Blank w) (s : Str) : skip (w ++ s) = skip s := by
  rw [blank_iff] at hw
  induction w with
  | nil => rfl
  | cons c w ih =>
    simp only [skip, List.cons_append, List.dropWhile_cons, hw c (by simp), if_true]
    exact ih fun c hc => hw c (by simp [hc])

theorem skip_split (s : Str) : ∃ w, s = w ++ skip s ∧ Blank w := by
  refine ⟨s.takeWhile isWs, (List.takeWhile_append_dropWhile).symm, (blank_iff _).2 fun c hc => ?_⟩
  have := List.all_takeWhile (p := isWs) (l := s)
  rw [List.all_eq_true] at this
  exact this c hc

theorem skip_length (s : Str) : (skip s).length ≤ s.length := by
  obtain ⟨w, h, -⟩ := skip_split s
  have := congrArg List.length h
  simp only [List.length_append] at this
  omega

/-! ## Hexadecimal digits -/

theorem hexVal_iff (c : Char) (n : Nat) : hexVal c = some n ↔ HexDigit c n := by
  constructor
  · intro h
    have hc := Char.ofNat_toNat c
    simp only [hexVal] at h
    by_cases h1 : 48 ≤ c.toNat ∧ c.toNat ≤ 57
    · simp only [h1, and_self, if_true, Option.some.injEq] at h
      have := HexDigit.digit n (by omega)
      rw [show '0'.toNat + n = c.toNat from by have : '0'.toNat = 48 := rfl; omega, hc] at this
      exact this
    · rw [if_neg h1] at h
      by_cases h2 : 97 ≤ c.toNat ∧ c.toNat ≤ 102
      · simp only [h2, and_self, if_true, Option.some.injEq] at h
        have := HexDigit.lower (n - 10) (by omega)
        rw [show 'a'.toNat + (n - 10) = c.toNat from by have : 'a'.toNat = 97 := rfl; omega, hc,
          show 10 + (n - 10) = n from by omega] at this
        exact this
      · rw [if_neg h2] at h
        by_cases h3 : 65 ≤ c.toNat ∧ c.toNat ≤ 70
        · simp only [h3, and_self, if_true, Option.some.injEq] at h
          have := HexDigit.upper (n - 10) (by omega)
          rw [show 'A'.toNat + (n - 10) = c.toNat from by have : 'A'.toNat = 65 := rfl; omega, hc,
            show 10 + (n - 10) = n from by omega] at this
          exact this
        · rw [if_neg h3] at h; cases h
  · intro h
    cases h with
    | digit n h => revert n; decide
    | lower n h => revert n; decide
    | upper n h => revert n; decide

theorem hex4_iff (a b c d : Char) (n : Nat) : hex4 a b c d = some n ↔ Hex4 [a, b, c, d] n := by
  constructor
  · intro h
    simp only [hex4] at h
    cases ha : hexVal a with
    | none => simp [ha] at h
    | some x =>
      cases hb : hexVal b with
      | none => simp [ha, hb] at h
      | some y =>
        cases hc : hexVal c with
        | none => simp [ha, hb, hc] at h
        | some z =>
          cases hd : hexVal d with
          | none => simp [ha, hb, hc, hd] at h
          | some w =>
            simp only [ha, hb, hc, hd, Option.some.injEq] at h
            exact ⟨a, b, c, d, x, y, z, w, rfl, (hexVal_iff _ _).1 ha, (hexVal_iff _ _).1 hb, (hexVal_iff _ _).1 hc,
              (hexVal_iff _ _).1 hd, by omega⟩
  · rintro ⟨a', b', c', d', x, y, z, w, h, ha, hb, hc, hd, rfl⟩
    simp only [List.cons.injEq, and_true] at h
    obtain ⟨rfl, rfl, rfl, rfl⟩ := h
    rw [← hexVal_iff] at ha hb hc hd
    simp only [hex4, ha, hb, hc, hd, Option.some.injEq]
    omega

theorem hex4_lt {t : Str} {n : Nat} (h : Hex4 t n) : n < 65536 := by
  obtain ⟨a, b, c, d, x, y, z, w, -, ha, hb, hc, hd, rfl⟩ := h
  have lt : ∀ {c n}, HexDigit c n → n < 16 := by
    intro c n h; cases h <;> omega
  have := lt ha; have := lt hb; have := lt hc; have := lt hd
  omega

theorem short_iff (e c : Char) : short e = some c ↔ (e, c) ∈ shortEscapes := by
  constructor
  · intro h
    simp only [short] at h
    have hs : ∀ x, x ∈ shortEscapes → (e, c) = x → (e, c) ∈ shortEscapes := fun x hx h => h ▸ hx
    by_cases h1 : e = '"'
    · subst h1; simp only [if_true, Option.some.injEq] at h; subst h; decide
    rw [if_neg h1] at h
    by_cases h1 : e = '\\'
    · subst h1; simp only [if_true, Option.some.injEq] at h; subst h; decide
    rw [if_neg h1] at h
    by_cases h1 : e = '/'
    · subst h1; simp only [if_true, Option.some.injEq] at h; subst h; decide
    rw [if_neg h1] at h
    by_cases h1 : e = 'b'
    · subst h1; simp only [if_true, Option.some.injEq] at h; subst h; decide
    rw [if_neg h1] at h
    by_cases h1 : e = 'f'
    · subst h1; simp only [if_true, Option.some.injEq] at h; subst h; decide
    rw [if_neg h1] at h
    by_cases h1 : e = 'n'
    · subst h1; simp only [if_true, Option.some.injEq] at h; subst h; decide
    rw [if_neg h1] at h
    by_cases h1 : e = 'r'
    · subst h1; simp only [if_true, Option.some.injEq] at h; subst h; decide
    rw [if_neg h1] at h
    by_cases h1 : e = 't'
    · subst h1; simp only [if_true, Option.some.injEq] at h; subst h; decide
    rw [if_neg h1] at h
    cases h
  · intro h
    simp only [shortEscapes, List.mem_cons, Prod.mk.injEq, List.not_mem_nil, or_false] at h
    rcases h with ⟨rfl, rfl⟩ | ⟨rfl, rfl⟩ | ⟨rfl, rfl⟩ | ⟨rfl, rfl⟩ | ⟨rfl, rfl⟩ | ⟨rfl, rfl⟩ | ⟨rfl, rfl⟩ | ⟨rfl, rfl⟩ <;> decide

/-! ## Strings -/

theorem toNat_ofNat {n : Nat} (h : n < 0xD800 ∨ 0xE000 ≤ n ∧ n < 0x110000) : (Char.ofNat n).toNat = n := by
  have hv : n.isValidChar := by rcases h with h | h; exact .inl h; exact .inr ⟨by omega, h.2⟩
  simp only [Char.ofNat, hv, dif_pos, Char.toNat, Char.ofNatAux]
  show (UInt32.ofNatLT n _).toNat = n
  simp

theorem surrogate (c : Char) : c.toNat < 0xD800 ∨ 0xE000 ≤ c.toNat ∧ c.toNat < 0x110000 := by
  have h : c.toNat.isValidChar := c.valid
  rcases h with h | h
  · exact .inl h
  · exact .inr ⟨by omega, h.2⟩

theorem before_iff (c : Char) (o : Option (Str × Str)) (s r : Str) :
    before c o = some (s, r) ↔ ∃ s', s = c :: s' ∧ o = some (s', r) := by
  cases o with
  | none => simp [before]
  | some p =>
    obtain ⟨s', r'⟩ := p
    simp only [before, Option.some.injEq, Prod.mk.injEq]
    constructor
    · rintro ⟨rfl, rfl⟩; exact ⟨_, rfl, rfl, rfl⟩
    · rintro ⟨_, rfl, rfl, rfl⟩; exact ⟨rfl, rfl⟩

theorem chars_sound : ∀ (n : Nat) (s x r : Str), s.length ≤ n → chars s = some (x, r) → ∃ t, s = t ++ '"' :: r ∧ StringText t x := by
  intro n
  induction n with
  | zero => intro s x r hn h; cases s with
    | nil => simp [chars] at h
    | cons _ _ => simp at hn
  | succ n ih =>
    intro s x r hn h
    cases s with
    | nil => simp [chars] at h
    | cons c s =>
      simp only [List.length_cons] at hn
      rw [chars.eq_def] at h
      simp only at h
      by_cases hq : c = '"'
      · rw [if_pos hq] at h
        simp only [Option.some.injEq, Prod.mk.injEq] at h
        obtain ⟨rfl, rfl⟩ := h
        exact ⟨[], by simp [hq], .nil⟩
      rw [if_neg hq] at h
      by_cases hb : c = '\\'
      · rw [if_pos hb] at h
        subst hb
        match s, hn, h with
        | [], _, h => simp at h
        | e :: s, hn, h =>
          simp only [List.length_cons] at hn
          simp only at h
          by_cases hu : e = 'u'
          · rw [if_pos hu] at h
            subst hu
            match s, hn, h with
            | [], _, h => simp at h
            | [_], _, h => simp at h
            | [_, _], _, h => simp at h
            | [_, _, _], _, h => simp at h
            | a :: b :: c :: d :: s, hn, h =>
              simp only [List.length_cons] at hn
              simp only at h
              cases h4 : hex4 a b c d with
              | none => simp [h4] at h
              | some m =>
                simp only [h4] at h
                have hx := (hex4_iff a b c d m).1 h4
                have hlt := hex4_lt hx
                by_cases hp : m < 0xD800 ∨ 0xE000 ≤ m
                · rw [if_pos hp, before_iff] at h
                  obtain ⟨x', rfl, hr⟩ := h
                  obtain ⟨t, rfl, ht⟩ := ih s x' r (by omega) hr
                  have hc : (Char.ofNat m).toNat = m := toNat_ofNat (by omega)
                  refine ⟨['\\', 'u', a, b, c, d] ++ t, by simp, .cons _ _ _ _ (.hex [a, b, c, d] _ ?_) ht⟩
                  rw [hc]; exact hx
                · rw [if_neg hp] at h
                  by_cases hl : 0xDC00 ≤ m
                  · rw [if_pos hl] at h; cases h
                  rw [if_neg hl] at h
                  match s, hn, h with
                  | [], _, h => simp at h
                  | [_], _, h => simp at h
                  | [_, _], _, h => simp at h
                  | [_, _, _], _, h => simp at h
                  | [_, _, _, _], _, h => simp at h
                  | [_, _, _, _, _], _, h => simp at h
                  | y :: z :: a' :: b' :: c' :: d' :: s, hn, h =>
                    simp only [List.length_cons] at hn
                    simp only at h
                    by_cases hyz : y = '\\' ∧ z = 'u'
                    · rw [if_pos hyz] at h
                      obtain ⟨rfl, rfl⟩ := hyz
                      cases h4' : hex4 a' b' c' d' with
                      | none => simp [h4'] at h
                      | some m' =>
                        simp only [h4'] at h
                        have hx' := (hex4_iff a' b' c' d' m').1 h4'
                        by_cases hp' : 0xDC00 ≤ m' ∧ m' < 0xE000
                        · rw [if_pos hp', before_iff] at h
                          obtain ⟨x', rfl, hr⟩ := h
                          obtain ⟨t, rfl, ht⟩ := ih s x' r (by omega) hr
                          refine ⟨['\\', 'u', a, b, c, d, '\\', 'u', a', b', c', d'] ++ t, by simp,
                            .cons _ _ _ _ (.pair [a, b, c, d] [a', b', c', d'] m m' _ hx hx' (by omega) hp' (toNat_ofNat (by omega))) ht⟩
                        · rw [if_neg hp'] at h; cases h
                    · rw [if_neg hyz] at h; cases h
          · rw [if_neg hu] at h
            cases hs : short e with
            | none => simp [hs] at h
            | some c =>
              simp only [hs, before_iff] at h
              obtain ⟨x', rfl, hr⟩ := h
              obtain ⟨t, rfl, ht⟩ := ih s x' r (by omega) hr
              exact ⟨['\\', e] ++ t, by simp, .cons _ _ _ _ (.short e c ((short_iff e c).1 hs)) ht⟩
      · rw [if_neg hb] at h
        by_cases h32 : c.toNat < 32
        · rw [if_pos h32] at h; cases h
        · rw [if_neg h32, before_iff] at h
          obtain ⟨x', rfl, hr⟩ := h
          obtain ⟨t, rfl, ht⟩ := ih s x' r (by omega) hr
          exact ⟨[c] ++ t, by simp, .cons _ _ _ _ (.plain c (by omega) hq hb) ht⟩

theorem chars_complete {t x : Str} (h : StringText t x) (r : Str) : chars (t ++ '"' :: r) = some (x, r) := by
  induction h with
  | nil => rw [List.nil_append, chars.eq_def]; simp
  | cons t c ts s hc _ ih =>
    rw [List.append_assoc]
    cases hc with
    | plain c h32 hq hb =>
      rw [List.singleton_append, chars.eq_def]
      simp only [hq, hb, if_false, show ¬ c.toNat < 32 from by omega, ih, before]
    | short e c he =>
      have hs := (short_iff e c).2 he
      have hu : e ≠ 'u' := by rintro rfl; simp [short] at hs
      rw [List.cons_append, List.singleton_append, chars.eq_def]
      simp only [if_neg (show ¬ ('\\' : Char) = '"' from by decide), if_true, if_neg hu, hs, ih, before]
    | hex t c h4 =>
      obtain ⟨a, b, c', d, x, y, z, w, rfl, hh⟩ := id h4
      have h4' := (hex4_iff a b c' d c.toNat).2 h4
      have hp : c.toNat < 0xD800 ∨ 0xE000 ≤ c.toNat := by have := surrogate c; omega
      simp only [List.cons_append, List.nil_append]
      rw [chars.eq_def]
      simp only [if_neg (show ¬ ('\\' : Char) = '"' from by decide), if_true, h4', if_pos hp, ih, before, Char.ofNat_toNat]
    | pair t u hi lo c ht hu hhi hlo hc =>
      obtain ⟨a, b, c', d, x, y, z, w, rfl, hh⟩ := id ht
      obtain ⟨a', b', c'', d', x', y', z', w', rfl, hh'⟩ := id hu
      have h4 := (hex4_iff a b c' d hi).2 ht
      have h4' := (hex4_iff a' b' c'' d' lo).2 hu
      simp only [List.cons_append, List.nil_append, List.append_assoc]
      rw [chars.eq_def]
      simp only [if_neg (show ¬ ('\\' : Char) = '"' from by decide), if_true, h4, if_neg (show ¬ (hi < 0xD800 ∨ 0xE000 ≤ hi) from by omega),
        if_neg (show ¬ 0xDC00 ≤ hi from by omega), and_self, h4', if_pos hlo, ih, before, ← hc, Char.ofNat_toNat]

/-! ## Numbers -/

theorem isDigit_iff (c : Char) : isDigit c = true ↔ '0' ≤ c ∧ c ≤ '9' := by
  simp only [isDigit, Bool.and_eq_true, decide_eq_true_eq]
  exact Iff.rfl

theorem digits_iff (t : Str) : Digits t ↔ ∀ c ∈ t, isDigit c = true := by simp only [Digits, isDigit_iff]

theorem nonzero_iff (c : Char) : ('1' ≤ c ∧ c ≤ '9') ↔ isDigit c = true ∧ c ≠ '0' := by
  have h1 : ('1' ≤ c) ↔ 49 ≤ c.toNat := Iff.rfl
  have h9 : (c ≤ '9') ↔ c.toNat ≤ 57 := Iff.rfl
  have h0 : c = '0' ↔ c.toNat = 48 := ⟨fun h => by rw [h]; rfl, fun h => Char.toNat_inj.1 h⟩
  simp only [isDigit, Bool.and_eq_true, decide_eq_true_eq, ne_eq, h1, h9, h0]
  omega

/-- What cannot follow a number. -/
def Ends (r : Str) : Prop := ∀ c s, r = c :: s → isDigit c = false ∧ c ≠ '.' ∧ c ≠ 'e' ∧ c ≠ 'E'

/-- The text does not begin with a digit. -/
def NoDigit (r : Str) : Prop := ∀ c s, r = c :: s → isDigit c = false

theorem take_digits {ds r : Str} (hd : Digits ds) (hr : NoDigit r) : (ds ++ r).takeWhile isDigit = ds := by
  rw [digits_iff] at hd
  induction ds with
  | nil =>
    cases r with
    | nil => rfl
    | cons c r => simp [hr c r rfl]
  | cons d ds ih =>
    simp only [List.cons_append, List.takeWhile_cons, hd d (by simp), if_true, List.cons.injEq, true_and]
    exact ih fun c hc => hd c (by simp [hc])

theorem drop_digits {ds r : Str} (hd : Digits ds) (hr : NoDigit r) : (ds ++ r).dropWhile isDigit = r := by
  rw [digits_iff] at hd
  induction ds with
  | nil =>
    cases r with
    | nil => rfl
    | cons c r => simp [hr c r rfl]
  | cons d ds ih =>
    simp only [List.cons_append, List.dropWhile_cons, hd d (by simp), if_true]
    exact ih fun c hc => hd c (by simp [hc])

theorem digits_take (s : Str) : Digits (s.takeWhile isDigit) := by
  rw [digits_iff]
  intro c hc
  have := List.all_takeWhile (p := isDigit) (l := s)
  rw [List.all_eq_true] at this
  exact this c hc

theorem take_drop (s : Str) : s.takeWhile isDigit ++ s.dropWhile isDigit = s := List.takeWhile_append_dropWhile

def IsExp (exp : Str) : Prop :=
  exp = [] ∨ ∃ e s ds, exp = e :: (s ++ ds) ∧ (e = 'e' ∨ e = 'E') ∧ (s = [] ∨ s = ['+'] ∨ s = ['-']) ∧ ds ≠ [] ∧ Digits ds

def IsFrac (frac : Str) : Prop := frac = [] ∨ ∃ ds, frac = '.' :: ds ∧ ds ≠ [] ∧ Digits ds

def IsInt (int : Str) : Prop := int = ['0'] ∨ ∃ d ds, int = d :: ds ∧ '1' ≤ d ∧ d ≤ '9' ∧ Digits ds

theorem exponent_sound (p s t r : Str) (h : exponent p s = some (t, r)) : ∃ e, t = p ++ e ∧ s = e ++ r ∧ IsExp e := by
  cases s with
  | nil => simp only [exponent, Option.some.injEq, Prod.mk.injEq] at h; obtain ⟨rfl, rfl⟩ := h; exact ⟨[], by simp, rfl, .inl rfl⟩
  | cons c s =>
    simp only [exponent] at h
    by_cases hc : c = 'e' ∨ c = 'E'
    · rw [if_pos hc] at h
      cases s with
      | nil => simp at h
      | cons d s =>
        simp only at h
        by_cases hd : d = '+' ∨ d = '-'
        · simp only [if_pos hd] at h
          by_cases hz : s.takeWhile isDigit = []
          · rw [if_pos hz] at h; cases h
          · simp only [if_neg hz, Option.some.injEq, Prod.mk.injEq] at h
            obtain ⟨rfl, rfl⟩ := h
            refine ⟨_, rfl, by simp [take_drop], .inr ⟨c, [d], _, rfl, hc, ?_, hz, digits_take s⟩⟩
            rcases hd with rfl | rfl <;> simp
        · simp only [if_neg hd] at h
          by_cases hz : (d :: s).takeWhile isDigit = []
          · rw [if_pos hz] at h; cases h
          · simp only [if_neg hz, Option.some.injEq, Prod.mk.injEq] at h
            obtain ⟨rfl, rfl⟩ := h
            exact ⟨_, rfl, by simp [take_drop], .inr ⟨c, [], _, rfl, hc, .inl rfl, hz, digits_take _⟩⟩
    · rw [if_neg hc] at h
      simp only [Option.some.injEq, Prod.mk.injEq] at h
      obtain ⟨rfl, rfl⟩ := h
      exact ⟨[], by simp, rfl, .inl rfl⟩

theorem exponent_complete (p e r : Str) (he : IsExp e) (hr : Ends r) : exponent p (e ++ r) = some (p ++ e, r) := by
  rcases he with rfl | ⟨x, s, ds, rfl, hx, hs, hn, hd⟩
  · cases r with
    | nil => simp [exponent]
    | cons c r =>
      have := hr c r rfl
      simp [exponent, this.2.2]
  · have hnd : NoDigit r := fun c s h => (hr c s h).1
    simp only [List.cons_append, exponent, if_pos hx]
    rcases hs with rfl | rfl | rfl
    · cases ds with
      | nil => exact absurd rfl hn
      | cons d ds =>
        have hdd := (isDigit_iff d).2 (hd d (by simp))
        have h1 : ¬ (d = '+' ∨ d = '-') := by rintro (rfl | rfl) <;> simp [isDigit] at hdd
        simp only [List.nil_append, List.cons_append, if_neg h1]
        have ht := take_digits (ds := d :: ds) hd hnd
        have hdr := drop_digits (ds := d :: ds) hd hnd
        simp only [List.cons_append] at ht hdr
        simp [ht, hdr]
    · simp [take_digits hd hnd, drop_digits hd hnd, hn]
    · simp [take_digits hd hnd, drop_digits hd hnd, hn]

theorem fraction_sound (p s t r : Str) (h : fraction p s = some (t, r)) : ∃ f e, t = p ++ f ++ e ∧ s = f ++ (e ++ r) ∧ IsFrac f ∧ IsExp e := by
  cases s with
  | nil => simp only [fraction, Option.some.injEq, Prod.mk.injEq] at h; obtain ⟨rfl, rfl⟩ := h; exact ⟨[], [], by simp, rfl, .inl rfl, .inl rfl⟩
  | cons c s =>
    simp only [fraction] at h
    by_cases hc : c = '.'
    · rw [if_pos hc] at h
      by_cases hz : s.takeWhile isDigit = []
      · rw [if_pos hz] at h; cases h
      · rw [if_neg hz] at h
        obtain ⟨e, rfl, he, hx⟩ := exponent_sound _ _ _ _ h
        refine ⟨'.' :: s.takeWhile isDigit, e, by simp, ?_, .inr ⟨_, rfl, hz, digits_take s⟩, hx⟩
        rw [← he, hc, List.cons_append, take_drop]
    · rw [if_neg hc] at h
      obtain ⟨e, rfl, he, hx⟩ := exponent_sound _ _ _ _ h
      exact ⟨[], e, by simp, he, .inl rfl, hx⟩

theorem exp_start {e r : Str} (he : IsExp e) (hr : Ends r) : ∀ c s, e ++ r = c :: s → isDigit c = false ∧ c ≠ '.' := by
  intro c s h
  rcases he with rfl | ⟨x, s', ds, rfl, hx, -⟩
  · exact ⟨(hr c s h).1, (hr c s h).2.1⟩
  · simp only [List.cons_append, List.cons.injEq] at h
    obtain ⟨rfl, -⟩ := h
    rcases hx with rfl | rfl <;> decide

theorem fraction_complete (p f e r : Str) (hf : IsFrac f) (he : IsExp e) (hr : Ends r) :
    fraction p (f ++ (e ++ r)) = some (p ++ f ++ e, r) := by
  have hst := exp_start he hr
  have hex := fun p => exponent_complete p e r he hr
  rcases hf with rfl | ⟨ds, rfl, hn, hd⟩
  · rw [List.nil_append, List.append_nil]
    cases hx : e ++ r with
    | nil =>
      have := hex p
      rw [hx] at this
      simpa [fraction, exponent] using this
    | cons c s =>
      simp only [fraction, if_neg (hst c s hx).2, ← hx, hex]
  · have hnd : NoDigit (e ++ r) := fun c s h => (hst c s h).1
    simp only [List.cons_append, fraction, if_true, take_digits hd hnd, drop_digits hd hnd, if_neg hn, hex, List.append_assoc]

theorem unsigned_sound (p s t r : Str) (h : unsigned p s = some (t, r)) :
    ∃ i f e, t = p ++ i ++ f ++ e ∧ s = i ++ (f ++ (e ++ r)) ∧ IsInt i ∧ IsFrac f ∧ IsExp e := by
  cases s with
  | nil => simp [unsigned] at h
  | cons c s =>
    simp only [unsigned] at h
    by_cases h0 : c = '0'
    · rw [if_pos h0] at h
      obtain ⟨f, e, rfl, hs, hf, he⟩ := fraction_sound _ _ _ _ h
      exact ⟨['0'], f, e, by simp, by simp [h0, hs], .inl rfl, hf, he⟩
    · rw [if_neg h0] at h
      by_cases hd : isDigit c = true
      · rw [if_pos hd] at h
        obtain ⟨f, e, rfl, hs, hf, he⟩ := fraction_sound _ _ _ _ h
        have hnz := (nonzero_iff c).2 ⟨hd, h0⟩
        refine ⟨c :: s.takeWhile isDigit, f, e, by simp, ?_, .inr ⟨c, _, rfl, hnz.1, hnz.2, digits_take s⟩, hf, he⟩
        rw [← hs, List.cons_append, take_drop]
      · rw [if_neg hd] at h; cases h

theorem unsigned_complete (p i f e r : Str) (hi : IsInt i) (hf : IsFrac f) (he : IsExp e) (hr : Ends r) :
    unsigned p (i ++ (f ++ (e ++ r))) = some (p ++ i ++ f ++ e, r) := by
  rcases hi with rfl | ⟨d, ds, rfl, h1, h9, hd⟩
  · simp [unsigned, fraction_complete _ f e r hf he hr]
  · obtain ⟨hdd, h0⟩ := (nonzero_iff d).1 ⟨h1, h9⟩
    have hnd : NoDigit (f ++ (e ++ r)) := by
      intro c s h
      rcases hf with rfl | ⟨ds, rfl, -⟩
      · exact (exp_start he hr c s h).1
      · simp only [List.cons_append, List.cons.injEq] at h; rw [← h.1]; decide
    simp only [List.cons_append, unsigned, if_neg h0, if_pos hdd, take_digits hd hnd, drop_digits hd hnd,
      fraction_complete _ f e r hf he hr, List.append_assoc]

theorem number_sound (s t r : Str) (h : number s = some (t, r)) : s = t ++ r ∧ IsNumber t := by
  cases s with
  | nil => simp [number] at h
  | cons c s =>
    simp only [number] at h
    by_cases hc : c = '-'
    · rw [if_pos hc] at h
      obtain ⟨i, f, e, rfl, rfl, hi, hf, he⟩ := unsigned_sound _ _ _ _ h
      exact ⟨by simp [hc], ['-'], i, f, e, by simp, .inr rfl, hi, hf, he⟩
    · rw [if_neg hc] at h
      obtain ⟨i, f, e, rfl, hs, hi, hf, he⟩ := unsigned_sound _ _ _ _ h
      exact ⟨by simp [hs], [], i, f, e, by simp, .inl rfl, hi, hf, he⟩

theorem int_start {i : Str} (hi : IsInt i) : ∃ d ds, i = d :: ds ∧ isDigit d = true := by
  rcases hi with rfl | ⟨d, ds, rfl, h1, h9, -⟩
  · exact ⟨'0', [], rfl, by decide⟩
  · exact ⟨d, ds, rfl, ((nonzero_iff d).1 ⟨h1, h9⟩).1⟩

theorem number_complete (t r : Str) (h : IsNumber t) (hr : Ends r) : number (t ++ r) = some (t, r) := by
  obtain ⟨sgn, i, f, e, rfl, hs, hi, hf, he⟩ := h
  rcases hs with rfl | rfl
  · have := unsigned_complete [] i f e r hi hf he hr
    obtain ⟨d, ds, rfl, hd⟩ := int_start hi
    have hm : d ≠ '-' := by rintro rfl; simp [isDigit] at hd
    simpa [number, hm] using this
  · simpa [number] using unsigned_complete ['-'] i f e r hi hf he hr

theorem number_start {t : Str} (h : IsNumber t) : ∃ c s, t = c :: s ∧ (c = '-' ∨ isDigit c = true) := by
  obtain ⟨sgn, i, f, e, rfl, hs, hi, hf, he⟩ := h
  obtain ⟨d, ds, rfl, hd⟩ := int_start hi
  rcases hs with rfl | rfl
  · exact ⟨d, _, rfl, .inr hd⟩
  · exact ⟨'-', _, rfl, .inl rfl⟩

/-! ## Values -/

theorem expect_iff : ∀ (p s r : Str), expect p s = some r ↔ s = p ++ r := by
  intro p
  induction p with
  | nil => intro s r; simp [expect]
  | cons c p ih =>
    intro s r
    cases s with
    | nil => simp [expect]
    | cons d s =>
      simp only [expect, List.cons_append, List.cons.injEq]
      by_cases h : c = d
      · rw [if_pos h, ih]; simp [h]
      · rw [if_neg h]; simp [Ne.symm h]

theorem Text.mono {n : Nat} {p : Phrase} {t : Str} (h : Text n p t) : ∀ {m : Nat}, n ≤ m → Text m p t := by
  induction h with
  | null n => intro m _; exact .null m
  | true n => intro m _; exact .true m
  | false n => intro m _; exact .false m
  | num n t h => intro m _; exact .num m t h
  | str n t s h => intro m _; exact .str m t s h
  | empty n w h => intro m hm; obtain ⟨k, rfl⟩ : ∃ k, m = k + 1 := ⟨m - 1, by omega⟩; exact .empty k w h
  | arr n vs t _ ih => intro m hm; obtain ⟨k, rfl⟩ : ∃ k, m = k + 1 := ⟨m - 1, by omega⟩; exact .arr k vs t (ih (by omega))
  | none n w h => intro m hm; obtain ⟨k, rfl⟩ : ∃ k, m = k + 1 := ⟨m - 1, by omega⟩; exact .none k w h
  | obj n ms t _ ih => intro m hm; obtain ⟨k, rfl⟩ : ∃ k, m = k + 1 := ⟨m - 1, by omega⟩; exact .obj k ms t (ih (by omega))
  | last n v a t b ha _ hb ih => intro m hm; exact .last m v a t b ha (ih hm) hb
  | more n v vs a t b u ha _ hb _ ih ih' => intro m hm; exact .more m v vs a t b u ha (ih hm) hb (ih' hm)
  | lastMember n k v a q b c t d ha hq hb hc _ hd ih => intro m hm; exact .lastMember m k v a q b c t d ha hq hb hc (ih hm) hd
  | moreMembers n k v ms a q b c t d u ha hq hb hc _ hd _ ih ih' =>
    intro m hm; exact .moreMembers m k v ms a q b c t d u ha hq hb hc (ih hm) hd (ih' hm)

theorem blank_append {a b : Str} (ha : Blank a) (hb : Blank b) : Blank (a ++ b) := by
  intro c hc
  rcases List.mem_append.1 hc with h | h
  · exact ha c h
  · exact hb c h

theorem blank_nil : Blank [] := by intro c hc; cases hc

theorem blank_elements {n : Nat} {vs : List Json} {t w : Str} (hw : Blank w) (h : Text n (.elements vs) t) : Text n (.elements vs) (w ++ t) := by
  cases h with
  | last _ v a t b ha h hb => rw [← List.append_assoc]; exact .last n v _ t b (blank_append hw ha) h hb
  | more _ v vs a t b u ha h hb hs => rw [← List.append_assoc]; exact .more n v vs _ t b u (blank_append hw ha) h hb hs

theorem blank_members {n : Nat} {ms : List (Str × Json)} {t w : Str} (hw : Blank w) (h : Text n (.members ms) t) :
    Text n (.members ms) (w ++ t) := by
  cases h with
  | lastMember _ k v a q b c t d ha hq hb hc h hd =>
    rw [← List.append_assoc]; exact .lastMember n k v _ q b c t d (blank_append hw ha) hq hb hc h hd
  | moreMembers _ k v ms a q b c t d u ha hq hb hc h hd hs =>
    rw [← List.append_assoc]; exact .moreMembers n k v ms _ q b c t d u (blank_append hw ha) hq hb hc h hd hs

theorem value_sound : ∀ (fuel : Nat),
    (∀ d s v r, value fuel d s = some (v, r) → ∃ t, s = t ++ r ∧ Text d (.value v) t) ∧
    (∀ d s vs r, elements fuel d s = some (vs, r) → ∃ t, s = t ++ ']' :: r ∧ Text d (.elements vs) t) ∧
    (∀ d s ms r, members fuel d s = some (ms, r) → ∃ t, s = t ++ '}' :: r ∧ Text d (.members ms) t) := by
  intro fuel
  induction fuel with
  | zero => refine ⟨?_, ?_, ?_⟩ <;> intros <;> simp_all [value, elements, members]
  | succ fuel ih =>
    obtain ⟨ihv, ihe, ihm⟩ := ih
    refine ⟨?_, ?_, ?_⟩
    · intro d s v r h
      cases s with
      | nil => simp [value] at h
      | cons c s =>
        simp only [value] at h
        by_cases hn : c = 'n'
        · simp only [hn, if_true, Option.map_eq_some_iff, expect_iff, Prod.mk.injEq] at h
          obtain ⟨_, rfl, rfl, rfl⟩ := h
          exact ⟨_, by rw [hn]; rfl, .null d⟩
        rw [if_neg hn] at h
        by_cases ht : c = 't'
        · simp only [ht, if_true, Option.map_eq_some_iff, expect_iff, Prod.mk.injEq] at h
          obtain ⟨_, rfl, rfl, rfl⟩ := h
          exact ⟨_, by rw [ht]; rfl, .true d⟩
        rw [if_neg ht] at h
        by_cases hf : c = 'f'
        · simp only [hf, if_true, Option.map_eq_some_iff, expect_iff, Prod.mk.injEq] at h
          obtain ⟨_, rfl, rfl, rfl⟩ := h
          exact ⟨_, by rw [hf]; rfl, .false d⟩
        rw [if_neg hf] at h
        by_cases hq : c = '"'
        · simp only [hq, if_true, Option.map_eq_some_iff, Prod.mk.injEq] at h
          obtain ⟨⟨x, r'⟩, hc, rfl, rfl⟩ := h
          obtain ⟨t, rfl, hx⟩ := chars_sound _ _ _ _ (Nat.le_refl _) hc
          exact ⟨'"' :: (t ++ ['"']), by simp [hq], .str d t x hx⟩
        rw [if_neg hq] at h
        by_cases hb : c = '['
        · rw [if_pos hb] at h
          cases d with
          | zero => simp at h
          | succ d =>
            obtain ⟨w, hw, hbl⟩ := skip_split s
            cases hs : skip s with
            | nil => simp [hs] at h
            | cons x s' =>
              simp only [hs] at h
              by_cases hx : x = ']'
              · simp only [hx, if_true, Option.some.injEq, Prod.mk.injEq] at h
                obtain ⟨rfl, rfl⟩ := h
                exact ⟨'[' :: (w ++ [']']), by rw [hb, hw, hs, hx]; simp, .empty d w hbl⟩
              · simp only [if_neg hx, Option.map_eq_some_iff, Prod.mk.injEq] at h
                obtain ⟨⟨vs, r'⟩, he, rfl, rfl⟩ := h
                obtain ⟨t, h1, h2⟩ := ihe d _ _ _ he
                exact ⟨'[' :: ((w ++ t) ++ [']']), by rw [hb, hw, hs, h1]; simp, .arr d vs _ (blank_elements hbl h2)⟩
        rw [if_neg hb] at h
        by_cases ho : c = '{'
        · rw [if_pos ho] at h
          cases d with
          | zero => simp at h
          | succ d =>
            obtain ⟨w, hw, hbl⟩ := skip_split s
            cases hs : skip s with
            | nil => simp [hs] at h
            | cons x s' =>
              simp only [hs] at h
              by_cases hx : x = '}'
              · simp only [hx, if_true, Option.some.injEq, Prod.mk.injEq] at h
                obtain ⟨rfl, rfl⟩ := h
                exact ⟨'{' :: (w ++ ['}']), by rw [ho, hw, hs, hx]; simp, .none d w hbl⟩
              · simp only [if_neg hx, Option.map_eq_some_iff, Prod.mk.injEq] at h
                obtain ⟨⟨ms, r'⟩, he, rfl, rfl⟩ := h
                obtain ⟨t, h1, h2⟩ := ihm d _ _ _ he
                exact ⟨'{' :: ((w ++ t) ++ ['}']), by rw [ho, hw, hs, h1]; simp, .obj d ms _ (blank_members hbl h2)⟩
        rw [if_neg ho] at h
        simp only [Option.map_eq_some_iff, Prod.mk.injEq] at h
        obtain ⟨⟨t, r'⟩, hnum, rfl, rfl⟩ := h
        obtain ⟨h1, h2⟩ := number_sound _ _ _ hnum
        exact ⟨t, h1, .num d t h2⟩
    · intro d s vs r h
      simp only [elements] at h
      cases hv : value fuel d (skip s) with
      | none => simp [hv] at h
      | some vr =>
        obtain ⟨v, r1⟩ := vr
        simp only [hv] at h
        obtain ⟨w, hw, hbl⟩ := skip_split s
        obtain ⟨t, ht, htx⟩ := ihv _ _ _ _ hv
        obtain ⟨w1, hw1, hbl1⟩ := skip_split r1
        cases hs : skip r1 with
        | nil => simp [hs] at h
        | cons c r2 =>
          simp only [hs] at h
          by_cases hc : c = ']'
          · simp only [if_pos hc, Option.some.injEq, Prod.mk.injEq] at h
            obtain ⟨rfl, rfl⟩ := h
            exact ⟨w ++ (t ++ w1), by rw [hw, ht, hw1, hs, hc]; simp, .last d v w t w1 hbl htx hbl1⟩
          · rw [if_neg hc] at h
            by_cases hk : c = ','
            · simp only [if_pos hk, Option.map_eq_some_iff, Prod.mk.injEq] at h
              obtain ⟨⟨vs', r'⟩, he, rfl, rfl⟩ := h
              obtain ⟨u, h1, h2⟩ := ihe _ _ _ _ he
              exact ⟨w ++ (t ++ (w1 ++ ',' :: u)), by rw [hw, ht, hw1, hs, hk, h1]; simp, .more d v vs' w t w1 u hbl htx hbl1 h2⟩
            · rw [if_neg hk] at h; cases h
    · intro d s ms r h
      simp only [members] at h
      obtain ⟨w, hw, hbl⟩ := skip_split s
      cases hs : skip s with
      | nil => simp [hs] at h
      | cons q s1 =>
        simp only [hs] at h
        by_cases hq : q = '"'
        · rw [if_pos hq] at h
          cases hc : chars s1 with
          | none => simp [hc] at h
          | some kr =>
            obtain ⟨k, s2⟩ := kr
            simp only [hc] at h
            obtain ⟨kt, hkt, hks⟩ := chars_sound _ _ _ _ (Nat.le_refl _) hc
            obtain ⟨w1, hw1, hbl1⟩ := skip_split s2
            cases hs2 : skip s2 with
            | nil => simp [hs2] at h
            | cons col s3 =>
              simp only [hs2] at h
              by_cases hcol : col = ':'
              · rw [if_pos hcol] at h
                obtain ⟨w2, hw2, hbl2⟩ := skip_split s3
                cases hv : value fuel d (skip s3) with
                | none => simp [hv] at h
                | some vr =>
                  obtain ⟨v, r1⟩ := vr
                  simp only [hv] at h
                  obtain ⟨t, ht, htx⟩ := ihv _ _ _ _ hv
                  obtain ⟨w3, hw3, hbl3⟩ := skip_split r1
                  cases hs4 : skip r1 with
                  | nil => simp [hs4] at h
                  | cons c r2 =>
                    simp only [hs4] at h
                    by_cases hc' : c = '}'
                    · simp only [if_pos hc', Option.some.injEq, Prod.mk.injEq] at h
                      obtain ⟨rfl, rfl⟩ := h
                      refine ⟨w ++ '"' :: (kt ++ '"' :: (w1 ++ ':' :: (w2 ++ (t ++ w3)))), ?_, .lastMember d k v w kt w1 w2 t w3 hbl hks hbl1 hbl2 htx hbl3⟩
                      rw [hw, hs, hq, hkt, hw1, hs2, hcol, hw2, ht, hw3, hs4, hc']; simp
                    · rw [if_neg hc'] at h
                      by_cases hk : c = ','
                      · simp only [if_pos hk, Option.map_eq_some_iff, Prod.mk.injEq] at h
                        obtain ⟨⟨ms', r'⟩, he, rfl, rfl⟩ := h
                        obtain ⟨u, h1, h2⟩ := ihm _ _ _ _ he
                        refine ⟨w ++ '"' :: (kt ++ '"' :: (w1 ++ ':' :: (w2 ++ (t ++ (w3 ++ ',' :: u))))), ?_,
                          .moreMembers d k v ms' w kt w1 w2 t w3 u hbl hks hbl1 hbl2 htx hbl3 h2⟩
                        rw [hw, hs, hq, hkt, hw1, hs2, hcol, hw2, ht, hw3, hs4, hk, h1]; simp
                      · rw [if_neg hk] at h; cases h
              · rw [if_neg hcol] at h; cases h
        · rw [if_neg hq] at h; cases h

theorem skip_skip (s : Str) : skip (skip s) = skip s := skip_solid (solid_skip s)

theorem elements_skip (fuel d : Nat) (s : Str) : elements fuel d (skip s) = elements fuel d s := by
  cases fuel with
  | zero => simp [elements]
  | succ fuel => simp only [elements, skip_skip]

theorem members_skip (fuel d : Nat) (s : Str) : members fuel d (skip s) = members fuel d s := by
  cases fuel with
  | zero => simp [members]
  | succ fuel => simp only [members, skip_skip]

/-- How a value begins. -/
theorem value_start {n : Nat} {v : Json} {t : Str} (h : Text n (.value v) t) :
    ∃ c s, t = c :: s ∧ isWs c = false ∧ c ≠ ']' ∧ c ≠ '}' := by
  cases h with
  | num _ t h =>
    obtain ⟨c, s, rfl, hc⟩ := number_start h
    refine ⟨c, s, rfl, ?_⟩
    rcases hc with rfl | hc
    · decide
    · simp only [isDigit, Bool.and_eq_true, decide_eq_true_eq] at hc
      refine ⟨?_, ?_, ?_⟩
      · rw [Bool.eq_false_iff]; intro hw
        rw [isWs_iff] at hw
        rcases hw with rfl | rfl | rfl | rfl <;> revert hc <;> decide
      · rintro rfl; revert hc; decide
      · rintro rfl; revert hc; decide
  | _ => exact ⟨_, _, rfl, by decide, by decide, by decide⟩

theorem ends_of {c : Char} (hc : isDigit c = false ∧ c ≠ '.' ∧ c ≠ 'e' ∧ c ≠ 'E') (r : Str) : Ends (c :: r) := by
  intro d s h; simp only [List.cons.injEq] at h; rw [← h.1]; exact hc

theorem ends_blank {w r : Str} (hw : Blank w) (hr : Ends r) : Ends (w ++ r) := by
  cases w with
  | nil => exact hr
  | cons c w =>
    have := hw c (by simp)
    apply ends_of
    rcases this with rfl | rfl | rfl | rfl <;> decide

theorem skip_value {n : Nat} {v : Json} {t : Str} (h : Text n (.value v) t) (a r : Str) (ha : Blank a) : skip (a ++ (t ++ r)) = t ++ r := by
  rw [skip_blank ha]
  obtain ⟨c, s, rfl, hc, -⟩ := value_start h
  exact skip_solid fun d s' e => by simp only [List.cons_append, List.cons.injEq] at e; rw [← e.1]; exact hc

theorem skip_char {c : Char} (hc : isWs c = false) (w r : Str) (hw : Blank w) : skip (w ++ c :: r) = c :: r := by
  rw [skip_blank hw]
  exact skip_solid fun d s e => by simp only [List.cons.injEq] at e; rw [← e.1]; exact hc

theorem value_length {n : Nat} {v : Json} {t : Str} (h : Text n (.value v) t) : 1 ≤ t.length := by
  obtain ⟨c, s, rfl, -⟩ := value_start h; simp

theorem value_complete {n : Nat} {p : Phrase} {t : Str} (h : Text n p t) :
    match p with
    | .value v => ∀ r fuel, Ends r → 2 * t.length + 1 ≤ fuel → value fuel n (t ++ r) = some (v, r)
    | .elements vs => (∀ r fuel, 2 * t.length + 2 ≤ fuel → elements fuel n (t ++ ']' :: r) = some (vs, r)) ∧
        ∀ r, ∃ c s, skip (t ++ ']' :: r) = c :: s ∧ c ≠ ']'
    | .members ms => (∀ r fuel, 2 * t.length + 2 ≤ fuel → members fuel n (t ++ '}' :: r) = some (ms, r)) ∧
        ∀ r, ∃ c s, skip (t ++ '}' :: r) = c :: s ∧ c ≠ '}' := by
  induction h with
  | null n => 
    intro r fuel _ hf
    obtain ⟨k, rfl⟩ : ∃ k, fuel = k + 1 := ⟨fuel - 1, by omega⟩
    simp [value, expect]
  | true n =>
    intro r fuel _ hf
    obtain ⟨k, rfl⟩ : ∃ k, fuel = k + 1 := ⟨fuel - 1, by omega⟩
    simp [value, expect]
  | false n =>
    intro r fuel _ hf
    obtain ⟨k, rfl⟩ : ∃ k, fuel = k + 1 := ⟨fuel - 1, by omega⟩
    simp [value, expect]
  | num n t h =>
    intro r fuel hr hf
    obtain ⟨k, rfl⟩ : ∃ k, fuel = k + 1 := ⟨fuel - 1, by omega⟩
    have hn := number_complete t r h hr
    obtain ⟨c, s, rfl, hc⟩ := number_start h
    have : c ≠ 'n' ∧ c ≠ 't' ∧ c ≠ 'f' ∧ c ≠ '"' ∧ c ≠ '[' ∧ c ≠ '{' := by
      rcases hc with rfl | hc
      · decide
      · refine ⟨?_, ?_, ?_, ?_, ?_, ?_⟩ <;> rintro rfl <;> simp [isDigit] at hc
    obtain ⟨h1, h2, h3, h4, h5, h6⟩ := this
    simp only [List.cons_append] at hn ⊢
    simp only [value, if_neg h1, if_neg h2, if_neg h3, if_neg h4, if_neg h5, if_neg h6, hn, Option.map_some]
  | str n t s h =>
    intro r fuel _ hf
    obtain ⟨k, rfl⟩ : ∃ k, fuel = k + 1 := ⟨fuel - 1, by omega⟩
    have hc := chars_complete h r
    simp [value, hc]
  | empty n w h =>
    intro r fuel _ hf
    obtain ⟨k, rfl⟩ : ∃ k, fuel = k + 1 := ⟨fuel - 1, by omega⟩
    have hs : skip (w ++ ']' :: r) = ']' :: r := skip_char (by decide) w r h
    simp [value, hs]
  | arr n vs t h ih =>
    intro r fuel _ hf
    obtain ⟨k, rfl⟩ : ∃ k, fuel = k + 1 := ⟨fuel - 1, by omega⟩
    simp only [List.length_cons, List.length_append, List.length_nil] at hf
    obtain ⟨ih1, ih2⟩ := ih
    obtain ⟨c, s, hc, hne⟩ := ih2 r
    have he := ih1 r k (by omega)
    rw [← elements_skip, hc] at he
    simp [value, hc, hne, he]
  | none n w h =>
    intro r fuel _ hf
    obtain ⟨k, rfl⟩ : ∃ k, fuel = k + 1 := ⟨fuel - 1, by omega⟩
    have hs : skip (w ++ '}' :: r) = '}' :: r := skip_char (by decide) w r h
    simp [value, hs]
  | obj n ms t h ih =>
    intro r fuel _ hf
    obtain ⟨k, rfl⟩ : ∃ k, fuel = k + 1 := ⟨fuel - 1, by omega⟩
    simp only [List.length_cons, List.length_append, List.length_nil] at hf
    obtain ⟨ih1, ih2⟩ := ih
    obtain ⟨c, s, hc, hne⟩ := ih2 r
    have he := ih1 r k (by omega)
    rw [← members_skip, hc] at he
    simp [value, hc, hne, he]
  | last n v a t b ha h hb ih =>
    refine ⟨fun r fuel hf => ?_, fun r => ?_⟩
    · obtain ⟨k, rfl⟩ : ∃ k, fuel = k + 1 := ⟨fuel - 1, by omega⟩
      simp only [List.length_append] at hf
      have hv := ih (b ++ ']' :: r) k (ends_blank hb (ends_of (by decide) _)) (by omega)
      have hs := skip_value h a (b ++ ']' :: r) ha
      simp only [List.append_assoc]
      simp only [elements, hs, hv, skip_char (c := ']') (by decide) b r hb, if_true]
    · obtain ⟨c, s, hts, -, h2, -⟩ := value_start h
      refine ⟨c, s ++ (b ++ ']' :: r), ?_, h2⟩
      simp only [List.append_assoc]
      rw [skip_value h a _ ha, hts]; rfl
  | more n v vs a t b u ha h hb hs ih ih' =>
    refine ⟨fun r fuel hf => ?_, fun r => ?_⟩
    · obtain ⟨k, rfl⟩ : ∃ k, fuel = k + 1 := ⟨fuel - 1, by omega⟩
      simp only [List.length_append, List.length_cons] at hf
      have hv := ih (b ++ ',' :: (u ++ ']' :: r)) k (ends_blank hb (ends_of (by decide) _)) (by omega)
      have hsk := skip_value h a (b ++ ',' :: (u ++ ']' :: r)) ha
      have he := ih'.1 r k (by omega)
      simp only [List.append_assoc, List.cons_append]
      simp only [elements, hsk, hv, skip_char (c := ',') (by decide) b _ hb, if_true, if_neg (show ¬ (',' : Char) = ']' from by decide), he, Option.map_some]
    · obtain ⟨c, s, hts, -, h2, -⟩ := value_start h
      refine ⟨c, s ++ (b ++ ',' :: (u ++ ']' :: r)), ?_, h2⟩
      simp only [List.append_assoc, List.cons_append]
      rw [skip_value h a _ ha, hts]; rfl
  | lastMember n k v a q b c t d ha hq hb hc h hd ih =>
    refine ⟨fun r fuel hf => ?_, fun r => ?_⟩
    · obtain ⟨m, rfl⟩ : ∃ m, fuel = m + 1 := ⟨fuel - 1, by omega⟩
      simp only [List.length_append, List.length_cons] at hf
      have hv := ih (d ++ '}' :: r) m (ends_blank hd (ends_of (by decide) _)) (by omega)
      simp only [List.append_assoc, List.cons_append]
      simp only [members, skip_char (c := '"') (by decide) a _ ha, if_true, chars_complete hq, skip_char (c := ':') (by decide) b _ hb,
        skip_value h c _ hc, hv, skip_char (c := '}') (by decide) d _ hd]
    · simp only [List.append_assoc, List.cons_append]
      rw [skip_char (c := '"') (by decide) a _ ha]
      exact ⟨'"', _, rfl, by decide⟩
  | moreMembers n k v ms a q b c t d u ha hq hb hc h hd hs ih ih' =>
    refine ⟨fun r fuel hf => ?_, fun r => ?_⟩
    · obtain ⟨m, rfl⟩ : ∃ m, fuel = m + 1 := ⟨fuel - 1, by omega⟩
      simp only [List.length_append, List.length_cons] at hf
      have hv := ih (d ++ ',' :: (u ++ '}' :: r)) m (ends_blank hd (ends_of (by decide) _)) (by omega)
      have he := ih'.1 r m (by omega)
      simp only [List.append_assoc, List.cons_append]
      simp only [members, skip_char (c := '"') (by decide) a _ ha, if_true, chars_complete hq, skip_char (c := ':') (by decide) b _ hb,
        skip_value h c _ hc, hv, skip_char (c := ',') (by decide) d _ hd, if_neg (show ¬ (',' : Char) = '}' from by decide), he, Option.map_some]
    · simp only [List.append_assoc, List.cons_append]
      rw [skip_char (c := '"') (by decide) a _ ha]
      exact ⟨'"', _, rfl, by decide⟩

/-- The reader takes exactly the texts of the grammar, for what they are. -/
theorem read_iff (n : Nat) (s : Str) (v : Json) : read n s = some v ↔ IsText n v s := by
  constructor
  · intro h
    simp only [read] at h
    cases hv : value (2 * s.length + 1) n (skip s) with
    | none => simp [hv] at h
    | some vr =>
      obtain ⟨w, r⟩ := vr
      simp only [hv] at h
      by_cases hr : skip r = []
      · simp only [if_pos hr, Option.some.injEq] at h
        subst h
        obtain ⟨t, ht, htx⟩ := (value_sound _).1 _ _ _ _ hv
        obtain ⟨a, ha, hba⟩ := skip_split s
        obtain ⟨b, hb, hbb⟩ := skip_split r
        rw [hr, List.append_nil] at hb
        exact ⟨a, t, r, by rw [← ht]; exact ha, hba, htx, by rw [hb]; exact hbb⟩
      · rw [if_neg hr] at h; cases h
  · rintro ⟨a, t, b, rfl, ha, ht, hb⟩
    have hends : Ends b := by
      have := ends_blank hb (r := []) (by intro c s h; cases h)
      simpa using this
    have hv := value_complete ht b (2 * (a ++ (t ++ b)).length + 1) hends (by simp only [List.length_append]; omega)
    have hsb : skip b = [] := by
      have := skip_blank hb []
      simpa [skip] using this
    simp only [read, skip_value ht a b ha, hv, hsb, if_true]

/-- A text is a text of at most one value. -/
theorem isText_unique {n m : Nat} {v w : Json} {s : Str} (hv : IsText n v s) (hw : IsText m w s) : v = w := by
  have up : ∀ {n v}, IsText n v s → ∀ k, n ≤ k → IsText k v s := by
    rintro n v ⟨a, t, b, h, ha, ht, hb⟩ k hk
    exact ⟨a, t, b, h, ha, ht.mono hk, hb⟩
  have h1 := (read_iff _ _ _).2 (up hv (max n m) (Nat.le_max_left ..))
  have h2 := (read_iff _ _ _).2 (up hw (max n m) (Nat.le_max_right ..))
  rw [h1] at h2
  exact Option.some.inj h2

/-! ## What is written -/

theorem escape_text (c : Char) : CharText (escape c) c := by
  have hn : ∀ n, n < 32 → hex4 '0' '0' (hexDigit (n / 16)) (hexDigit (n % 16)) = some n := by decide
  unfold escape
  by_cases h1 : c = '"'
  · rw [if_pos h1, h1]; exact .short _ _ (by decide)
  rw [if_neg h1]
  by_cases h2 : c = '\\'
  · rw [if_pos h2, h2]; exact .short _ _ (by decide)
  rw [if_neg h2]
  by_cases h3 : c = '\n'
  · rw [if_pos h3, h3]; exact .short _ _ (by decide)
  rw [if_neg h3]
  by_cases h4 : c = '\r'
  · rw [if_pos h4, h4]; exact .short _ _ (by decide)
  rw [if_neg h4]
  by_cases h5 : c = '\t'
  · rw [if_pos h5, h5]; exact .short _ _ (by decide)
  rw [if_neg h5]
  by_cases h6 : c.toNat = 8
  · rw [if_pos h6, show c = '\x08' from Char.toNat_inj.1 h6]; exact .short _ _ (by decide)
  rw [if_neg h6]
  by_cases h7 : c.toNat = 12
  · rw [if_pos h7, show c = '\x0c' from Char.toNat_inj.1 h7]; exact .short _ _ (by decide)
  rw [if_neg h7]
  by_cases h8 : c.toNat < 32
  · rw [if_pos h8]; exact .hex _ _ ((hex4_iff _ _ _ _ _).1 (hn _ h8))
  · rw [if_neg h8]; exact .plain c (by omega) h1 h2

theorem escapes_text : ∀ s : Str, StringText (s.flatMap escape) s
  | [] => .nil
  | c :: s => .cons _ _ _ _ (escape_text c) (escapes_text s)

mutual
theorem write_text : ∀ v : Json, Numbers v → Text (deep v) (.value v) (write v)
  | .null, _ => .null _
  | .bool true, _ => .true _
  | .bool false, _ => .false _
  | .num t, h => .num _ t h
  | .str s, _ => .str _ _ s (escapes_text s)
  | .arr [], _ => .empty 0 [] blank_nil
  | .arr (v :: vs), h => .arr _ _ _ (write_elements (v :: vs) (by simp) h)
  | .obj [], _ => .none 0 [] blank_nil
  | .obj (m :: ms), h => .obj _ _ _ (write_members (m :: ms) (by simp) h)
theorem write_elements : ∀ vs : List Json, vs ≠ [] → NumbersElements vs → Text (deepElements vs) (.elements vs) (writeElements vs)
  | [], hn, _ => absurd rfl hn
  | [v], _, h => by
    have := Text.last (deepElements [v]) v [] (write v) [] blank_nil ((write_text v h.1).mono (Nat.le_max_left ..)) blank_nil
    simpa [writeElements] using this
  | v :: w :: vs, _, h => by
    have := Text.more (deepElements (v :: w :: vs)) v (w :: vs) [] (write v) [] _ blank_nil ((write_text v h.1).mono (Nat.le_max_left ..)) blank_nil
      ((write_elements (w :: vs) (by simp) h.2).mono (Nat.le_max_right ..))
    simpa [writeElements] using this
theorem write_members : ∀ ms : List (Str × Json), ms ≠ [] → NumbersMembers ms → Text (deepMembers ms) (.members ms) (writeMembers ms)
  | [], hn, _ => absurd rfl hn
  | [(k, v)], _, h => by
    have := Text.lastMember (deepMembers [(k, v)]) k v [] _ [] [] (write v) [] blank_nil (escapes_text k) blank_nil blank_nil
      ((write_text v h.1).mono (Nat.le_max_left ..)) blank_nil
    simpa [writeMembers, quoted] using this
  | (k, v) :: m :: ms, _, h => by
    have := Text.moreMembers (deepMembers ((k, v) :: m :: ms)) k v (m :: ms) [] _ [] [] (write v) [] _ blank_nil (escapes_text k) blank_nil blank_nil
      ((write_text v h.1).mono (Nat.le_max_left ..)) blank_nil ((write_members (m :: ms) (by simp) h.2).mono (Nat.le_max_right ..))
    simpa [writeMembers, quoted] using this
end

/-- No control characters. -/
def Printable (s : Str) : Prop := ∀ c ∈ s, 32 ≤ c.toNat

theorem printable_append {a b : Str} (ha : Printable a) (hb : Printable b) : Printable (a ++ b) := by
  intro c hc
  rcases List.mem_append.1 hc with h | h
  · exact ha c h
  · exact hb c h

theorem printable_cons {c : Char} {b : Str} (hc : 32 ≤ c.toNat) (hb : Printable b) : Printable (c :: b) := by
  intro d hd
  rcases List.mem_cons.1 hd with h | h
  · rw [h]; exact hc
  · exact hb d h

theorem printable_nil : Printable [] := by intro c hc; cases hc

theorem escape_printable (c : Char) : Printable (escape c) := by
  have hn : ∀ n, n < 16 → 32 ≤ (hexDigit n).toNat := by decide
  unfold escape
  by_cases h1 : c = '"'
  · rw [if_pos h1]; intro d hd; revert d; decide
  rw [if_neg h1]
  by_cases h2 : c = '\\'
  · rw [if_pos h2]; intro d hd; revert d; decide
  rw [if_neg h2]
  by_cases h3 : c = '\n'
  · rw [if_pos h3]; intro d hd; revert d; decide
  rw [if_neg h3]
  by_cases h4 : c = '\r'
  · rw [if_pos h4]; intro d hd; revert d; decide
  rw [if_neg h4]
  by_cases h5 : c = '\t'
  · rw [if_pos h5]; intro d hd; revert d; decide
  rw [if_neg h5]
  by_cases h6 : c.toNat = 8
  · rw [if_pos h6]; intro d hd; revert d; decide
  rw [if_neg h6]
  by_cases h7 : c.toNat = 12
  · rw [if_pos h7]; intro d hd; revert d; decide
  rw [if_neg h7]
  by_cases h8 : c.toNat < 32
  · rw [if_pos h8]
    refine printable_cons (by decide) (printable_cons (by decide) (printable_cons (by decide) (printable_cons (by decide)
      (printable_cons (hn _ (by omega)) (printable_cons (hn _ (by omega)) printable_nil)))))
  · rw [if_neg h8]; exact printable_cons (by omega) printable_nil

theorem quoted_printable (s : Str) : Printable (quoted s) := by
  refine printable_cons (by decide) (printable_append ?_ (printable_cons (by decide) printable_nil))
  intro c hc
  obtain ⟨d, -, hd⟩ := List.mem_flatMap.1 hc
  exact escape_printable d c hd

theorem digits_printable {ds : Str} (h : Digits ds) : Printable ds := by
  intro c hc
  have := (isDigit_iff c).2 (h c hc)
  simp only [isDigit, Bool.and_eq_true, decide_eq_true_eq] at this
  omega

theorem number_printable {t : Str} (h : IsNumber t) : Printable t := by
  obtain ⟨sgn, i, f, e, rfl, hs, hi, hf, he⟩ := h
  refine printable_append (printable_append (printable_append ?_ ?_) ?_) ?_
  · rcases hs with rfl | rfl
    · exact printable_nil
    · exact printable_cons (by decide) printable_nil
  · rcases hi with rfl | ⟨d, ds, rfl, h1, h9, hd⟩
    · exact printable_cons (by decide) printable_nil
    · refine printable_cons ?_ (digits_printable hd)
      have h1' : 49 ≤ d.toNat := h1
      omega
  · rcases hf with rfl | ⟨ds, rfl, -, hd⟩
    · exact printable_nil
    · exact printable_cons (by decide) (digits_printable hd)
  · rcases he with rfl | ⟨x, s, ds, rfl, hx, hs, -, hd⟩
    · exact printable_nil
    · refine printable_cons (by rcases hx with rfl | rfl <;> decide) (printable_append ?_ (digits_printable hd))
      rcases hs with rfl | rfl | rfl
      · exact printable_nil
      · exact printable_cons (by decide) printable_nil
      · exact printable_cons (by decide) printable_nil

mutual
theorem write_printable : ∀ v : Json, Numbers v → Printable (write v)
  | .null, _ => by intro c hc; revert c; simp only [write]; decide
  | .bool true, _ => by intro c hc; revert c; simp only [write, if_true]; decide
  | .bool false, _ => by intro c hc; revert c; simp only [write, Bool.false_eq_true, if_false]; decide
  | .num t, h => number_printable h
  | .str s, _ => quoted_printable s
  | .arr vs, h => printable_cons (by decide) (printable_append (write_elements_printable vs h) (printable_cons (by decide) printable_nil))
  | .obj ms, h => printable_cons (by decide) (printable_append (write_members_printable ms h) (printable_cons (by decide) printable_nil))
theorem write_elements_printable : ∀ vs : List Json, NumbersElements vs → Printable (writeElements vs)
  | [], _ => printable_nil
  | [v], h => write_printable v h.1
  | v :: w :: vs, h => printable_append (write_printable v h.1) (printable_cons (by decide) (write_elements_printable (w :: vs) h.2))
theorem write_members_printable : ∀ ms : List (Str × Json), NumbersMembers ms → Printable (writeMembers ms)
  | [], _ => printable_nil
  | [(k, v)], h => printable_append (quoted_printable k) (printable_cons (by decide) (write_printable v h.1))
  | (k, v) :: m :: ms, h => printable_append (quoted_printable k) (printable_cons (by decide)
      (printable_append (write_printable v h.1) (printable_cons (by decide) (write_members_printable (m :: ms) h.2))))
end

theorem isText_write (v : Json) (h : Numbers v) : IsText (deep v) v (write v) :=
  ⟨[], write v, [], by simp, blank_nil, write_text v h, blank_nil⟩

/-! ## What a text stands for -/

theorem get_append (a b : JsonMap) (k : Str) : JsonMap.get (a ++ b) k = (JsonMap.get a k).or (JsonMap.get b k) := by
  simp only [JsonMap.get, List.find?_append]
  cases List.find? (fun kv => decide (kv.1 = k)) a <;> simp

theorem get_filter (m : JsonMap) (j k : Str) : JsonMap.get (m.filter fun x => x.1 ≠ j) k = if k = j then none else JsonMap.get m k := by
  induction m with
  | nil => simp [JsonMap.get]
  | cons kv m ih =>
    simp only [JsonMap.get] at ih ⊢
    by_cases h : kv.1 = j
    · simp only [List.filter_cons, h, ne_eq, not_true, decide_false, Bool.false_eq_true, if_false, List.find?_cons]
      rw [show (m.filter fun x => decide ¬ x.1 = j) = m.filter fun x => decide (x.1 ≠ j) from rfl, ih]
      by_cases hk : k = j
      · simp [hk]
      · simp [hk, Ne.symm hk]
    · simp only [List.filter_cons, h, ne_eq, not_false_eq_true, decide_true, if_true, List.find?_cons]
      by_cases hk : kv.1 = k
      · simp only [hk, decide_true, Option.map_some]
        rw [if_neg (by rw [← hk]; exact h)]
      · simp only [hk, decide_false]
        exact ih

theorem get_insertAll : ∀ (kvs m : JsonMap) (k : Str), JsonMap.get (insertAll m kvs) k = (JsonMap.get kvs.reverse k).or (JsonMap.get m k) := by
  intro kvs
  induction kvs with
  | nil => intro m k; simp [insertAll, JsonMap.get]
  | cons kv kvs ih =>
    intro m k
    simp only [insertAll, ih, List.reverse_cons, get_append, get_filter, Option.or_assoc]
    congr 1
    by_cases h : kv.1 = k
    · simp [JsonMap.get, h]
    · simp [JsonMap.get, h, Ne.symm h]

theorem nodup_insertAll : ∀ (kvs m : JsonMap), (m.map Prod.fst).Nodup → ((insertAll m kvs).map Prod.fst).Nodup := by
  intro kvs
  induction kvs with
  | nil => intro m h; exact h
  | cons kv kvs ih =>
    intro m h
    refine ih _ ?_
    rw [List.map_append, List.nodup_append]
    refine ⟨(List.Sublist.map _ (List.filter_sublist)).nodup h, by simp, fun a ha b hb => ?_⟩
    simp only [List.map_cons, List.map_nil, List.mem_singleton] at hb
    obtain ⟨x, hx, rfl⟩ := List.mem_map.1 ha
    have := (List.mem_filter.1 hx).2
    simp only [ne_eq, decide_not, Bool.not_eq_true', decide_eq_false_iff_not] at this
    rw [hb]; exact this

variable {num : Str → Option Str}

mutual
theorem settle_stands : ∀ v w : Json, settle num v = some w → Stands num v w
  | .null, w, h => by simp only [settle, Option.some.injEq] at h; rw [← h]; exact .null
  | .bool b, w, h => by simp only [settle, Option.some.injEq] at h; rw [← h]; exact .bool b
  | .str s, w, h => by simp only [settle, Option.some.injEq] at h; rw [← h]; exact .str s
  | .num t, w, h => by
    simp only [settle, Option.map_eq_some_iff] at h
    obtain ⟨u, hu, rfl⟩ := h
    exact .num t u hu
  | .arr vs, w, h => by
    simp only [settle, Option.map_eq_some_iff] at h
    obtain ⟨ws, hws, rfl⟩ := h
    obtain ⟨h1, h2⟩ := settleElements_stands vs ws hws
    exact .arr vs ws h1 h2
  | .obj ms, w, h => by
    simp only [settle, Option.map_eq_some_iff] at h
    obtain ⟨ms', hms, rfl⟩ := h
    obtain ⟨h1, h2⟩ := settleMembers_stands ms ms' hms
    refine .obj ms (ms'.map Prod.snd) _ ?_ h2 (nodup_insertAll _ _ (by simp)) fun k => ?_
    · have := congrArg List.length h1
      simpa using this.symm
    · rw [get_insertAll, ← h1]
      have hz : (ms'.map Prod.fst).zip (ms'.map Prod.snd) = ms' := by
        rw [List.zip_map', List.map_id'']
        intro x; rfl
      rw [hz]
      simp [JsonMap.get]
theorem settleElements_stands : ∀ vs ws : List Json, settleElements num vs = some ws →
    vs.length = ws.length ∧ ∀ (i : Nat) (v w : Json), vs[i]? = some v → ws[i]? = some w → Stands num v w
  | [], ws, h => by simp only [settleElements, Option.some.injEq] at h; rw [← h]; simp
  | v :: vs, ws, h => by
    simp only [settleElements] at h
    cases h1 : settle num v with
    | none => simp [h1] at h
    | some w =>
      cases h2 : settleElements num vs with
      | none => simp [h1, h2] at h
      | some ws' =>
        simp only [h1, h2, Option.some.injEq] at h
        subst h
        have i1 := settle_stands v w h1
        obtain ⟨i2, i3⟩ := settleElements_stands vs ws' h2
        refine ⟨by simp [i2], fun i v' w' hv hw => ?_⟩
        cases i with
        | zero => simp only [List.getElem?_cons_zero, Option.some.injEq] at hv hw; rw [← hv, ← hw]; exact i1
        | succ i => exact i3 i v' w' hv hw
theorem settleMembers_stands : ∀ ms ms' : List (Str × Json), settleMembers num ms = some ms' →
    ms'.map Prod.fst = ms.map Prod.fst ∧
      ∀ (i : Nat) (kv : Str × Json) (w : Json), ms[i]? = some kv → (ms'.map Prod.snd)[i]? = some w → Stands num kv.2 w
  | [], ms', h => by simp only [settleMembers, Option.some.injEq] at h; rw [← h]; simp
  | (k, v) :: ms, ms', h => by
    simp only [settleMembers] at h
    cases h1 : settle num v with
    | none => simp [h1] at h
    | some w =>
      cases h2 : settleMembers num ms with
      | none => simp [h1, h2] at h
      | some ms'' =>
        simp only [h1, h2, Option.some.injEq] at h
        subst h
        have i1 := settle_stands v w h1
        obtain ⟨i2, i3⟩ := settleMembers_stands ms ms'' h2
        refine ⟨by simp [i2], fun i kv w' hv hw => ?_⟩
        cases i with
        | zero => simp only [List.map_cons, List.getElem?_cons_zero, Option.some.injEq] at hv hw; rw [← hv, ← hw]; exact i1
        | succ i => exact i3 i kv w' hv hw
end

theorem settleElements_some : ∀ vs : List Json, (∀ v ∈ vs, ∃ w, settle num v = some w) → ∃ ws, settleElements num vs = some ws
  | [], _ => ⟨[], rfl⟩
  | v :: vs, h => by
    obtain ⟨w, hw⟩ := h v (by simp)
    obtain ⟨ws, hws⟩ := settleElements_some vs fun v hv => h v (by simp [hv])
    exact ⟨w :: ws, by simp [settleElements, hw, hws]⟩

theorem settleMembers_some : ∀ ms : List (Str × Json), (∀ kv ∈ ms, ∃ w, settle num kv.2 = some w) → ∃ ws, settleMembers num ms = some ws
  | [], _ => ⟨[], rfl⟩
  | (k, v) :: ms, h => by
    obtain ⟨w, hw⟩ := h (k, v) (by simp)
    obtain ⟨ws, hws⟩ := settleMembers_some ms fun v hv => h v (by simp [hv])
    exact ⟨(k, w) :: ws, by simp only [settleMembers, hw, hws]⟩

theorem stands_settles {v w : Json} (h : Stands num v w) : ∃ w', settle num v = some w' := by
  induction h with
  | null => exact ⟨_, rfl⟩
  | bool b => exact ⟨_, rfl⟩
  | str s => exact ⟨_, rfl⟩
  | num t u h => exact ⟨.num u, by simp [settle, h]⟩
  | arr vs ws hl _ ih =>
    obtain ⟨ws', h⟩ := settleElements_some (num := num) vs fun v hv => by
      obtain ⟨i, hi⟩ := List.getElem?_of_mem hv
      have hlt : i < ws.length := by
        rw [← hl]; exact (List.getElem?_eq_some_iff.1 hi).1
      exact ih i v ws[i] hi (List.getElem?_eq_getElem hlt)
    exact ⟨.arr ws', by simp [settle, h]⟩
  | obj ms ws os hl _ hd hk ih =>
    obtain ⟨ws', h⟩ := settleMembers_some (num := num) ms fun kv hv => by
      obtain ⟨i, hi⟩ := List.getElem?_of_mem hv
      have hlt : i < ws.length := by
        rw [← hl]; exact (List.getElem?_eq_some_iff.1 hi).1
      exact ih i kv ws[i] hi (List.getElem?_eq_getElem hlt)
    exact ⟨.obj (insertAll [] ws'), by simp only [settle, h, Option.map_some]⟩

theorem numbersMembers_iff : ∀ ms : List (Str × Json), NumbersMembers ms ↔ ∀ kv ∈ ms, Numbers kv.2
  | [] => by simp [NumbersMembers]
  | (k, v) :: ms => by simp [NumbersMembers, numbersMembers_iff ms]

theorem mem_insertAll : ∀ (kvs m : JsonMap) (kv : Str × Json), kv ∈ insertAll m kvs → kv ∈ m ∨ kv ∈ kvs := by
  intro kvs
  induction kvs with
  | nil => intro m kv h; exact .inl h
  | cons x kvs ih =>
    intro m kv h
    rcases ih _ _ h with h | h
    · rcases List.mem_append.1 h with h | h
      · exact .inl (List.mem_filter.1 h).1
      · exact .inr (by simp only [List.mem_singleton] at h; simp [h])
    · exact .inr (by simp [h])

mutual
theorem settle_numbers (hn : ∀ t u, num t = some u → IsNumber u) : ∀ v w : Json, settle num v = some w → Numbers w
  | .null, w, h => by simp only [settle, Option.some.injEq] at h; rw [← h]; exact trivial
  | .bool b, w, h => by simp only [settle, Option.some.injEq] at h; rw [← h]; exact trivial
  | .str s, w, h => by simp only [settle, Option.some.injEq] at h; rw [← h]; exact trivial
  | .num t, w, h => by
    simp only [settle, Option.map_eq_some_iff] at h
    obtain ⟨u, hu, rfl⟩ := h
    exact hn t u hu
  | .arr vs, w, h => by
    simp only [settle, Option.map_eq_some_iff] at h
    obtain ⟨ws, hws, rfl⟩ := h
    exact settleElements_numbers hn vs ws hws
  | .obj ms, w, h => by
    simp only [settle, Option.map_eq_some_iff] at h
    obtain ⟨ms', hms, rfl⟩ := h
    have := settleMembers_numbers hn ms ms' hms
    refine (numbersMembers_iff _).2 fun kv hkv => ?_
    rcases mem_insertAll _ _ _ hkv with h | h
    · cases h
    · exact (numbersMembers_iff _).1 this kv h
theorem settleElements_numbers (hn : ∀ t u, num t = some u → IsNumber u) : ∀ vs ws : List Json, settleElements num vs = some ws → NumbersElements ws
  | [], ws, h => by simp only [settleElements, Option.some.injEq] at h; rw [← h]; exact trivial
  | v :: vs, ws, h => by
    simp only [settleElements] at h
    cases h1 : settle num v with
    | none => simp [h1] at h
    | some w =>
      cases h2 : settleElements num vs with
      | none => simp [h1, h2] at h
      | some ws' =>
        simp only [h1, h2, Option.some.injEq] at h
        subst h
        exact ⟨settle_numbers hn v w h1, settleElements_numbers hn vs ws' h2⟩
theorem settleMembers_numbers (hn : ∀ t u, num t = some u → IsNumber u) : ∀ ms ws : List (Str × Json), settleMembers num ms = some ws → NumbersMembers ws
  | [], ws, h => by simp only [settleMembers, Option.some.injEq] at h; rw [← h]; exact trivial
  | (k, v) :: ms, ws, h => by
    simp only [settleMembers] at h
    cases h1 : settle num v with
    | none => simp [h1] at h
    | some w =>
      cases h2 : settleMembers num ms with
      | none => simp [h1, h2] at h
      | some ws' =>
        simp only [h1, h2, Option.some.injEq] at h
        subst h
        exact ⟨settle_numbers hn v w h1, settleMembers_numbers hn ms ws' h2⟩
end

/-- What is read: a text of the grammar, nested at most 127 deep, for what it stands for. -/
theorem fromStr_some {s : Str} {v : Json} (h : fromStr num s = some v) : ∃ w, IsText 127 w s ∧ Stands num w v := by
  simp only [fromStr, Option.bind_eq_some_iff] at h
  obtain ⟨w, hw, hs⟩ := h
  exact ⟨w, (read_iff _ _ _).1 hw, settle_stands w v hs⟩

theorem fromStr_none {s : Str} : fromStr num s = none ↔ ∀ w v, IsText 127 w s → ¬ Stands num w v := by
  constructor
  · intro h w v hw hs
    obtain ⟨v', hv⟩ := stands_settles hs
    simp [fromStr, (read_iff _ _ _).2 hw, hv] at h
  · intro h
    cases hf : fromStr num s with
    | none => rfl
    | some v =>
      obtain ⟨w, h1, h2⟩ := fromStr_some hf
      exact absurd h2 (h w v h1)

/-! ## Lines -/

theorem lines_unique : ∀ {ls ms : List Str} {t : Str}, Lines t ls → Lines t ms → ls = ms := by
  have key : ∀ {a b r s : Str}, '\n' ∉ a → '\n' ∉ b → a ++ '\n' :: r = b ++ '\n' :: s → a = b ∧ r = s := by
    intro a
    induction a with
    | nil =>
      intro b r s _ hb h
      cases b with
      | nil => simpa using h
      | cons c b => simp only [List.nil_append, List.cons_append, List.cons.injEq] at h; simp [← h.1] at hb
    | cons c a ih =>
      intro b r s ha hb h
      cases b with
      | nil => simp only [List.nil_append, List.cons_append, List.cons.injEq] at h; simp [h.1] at ha
      | cons d b =>
        simp only [List.cons_append, List.cons.injEq] at h
        obtain ⟨rfl, h⟩ := h
        obtain ⟨h1, h2⟩ := ih (fun hm => ha (by simp [hm])) (fun hm => hb (by simp [hm])) h
        exact ⟨by rw [h1], h2⟩
  intro ls
  induction ls with
  | nil =>
    rintro ms t ⟨h1, -⟩ ⟨h2, -⟩
    cases ms with
    | nil => rfl
    | cons m ms => rw [h1] at h2; simp at h2
  | cons l ls ih =>
    rintro ms t ⟨h1, h1'⟩ ⟨h2, h2'⟩
    cases ms with
    | nil => rw [h2] at h1; simp at h1
    | cons m ms =>
      rw [h1] at h2
      simp only [List.flatMap_cons, List.append_assoc, List.singleton_append] at h2
      obtain ⟨rfl, h3⟩ := key (h1' l (by simp)) (h2' m (by simp)) h2
      rw [ih ⟨rfl, fun x hx => h1' x (by simp [hx])⟩ ⟨h3, fun x hx => h2' x (by simp [hx])⟩]

end Verif.Json
