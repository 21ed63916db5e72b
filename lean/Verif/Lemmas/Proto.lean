import Verif.Spec.Proto
import Verif.Lemmas.Tags
/-! # Lemmas about the native protocol's messages -/
namespace Verif.Proto

/-! ## Numbers -/

theorem toNat_ofNat_lt {n : Nat} (h : n < 256) : (UInt8.ofNat n).toNat = n := by
  simp [UInt8.toNat_ofNat', Nat.mod_eq_of_lt h]

theorem readVarintN_varintN (n : Nat) (v : Nat) (rest : Bytes) (h : v < 128 ^ (n + 1)) :
    readVarintN (n + 1) (varintN (n + 1) v ++ rest) = some (v, rest) := by
  induction n generalizing v with
  | zero =>
    have h1 : v < 128 := by simpa using h
    have h2 : (UInt8.ofNat v).toNat = v := toNat_ofNat_lt (by omega)
    simp only [varintN, if_pos h1, List.cons_append, List.nil_append, readVarintN, h2]
  | succ n ih =>
    by_cases h1 : v < 128
    · have h2 : (UInt8.ofNat v).toNat = v := toNat_ofNat_lt (by omega)
      rw [varintN, if_pos h1, List.cons_append, List.nil_append, readVarintN, h2, if_pos h1]
    · have h2 : (UInt8.ofNat (v % 128 + 128)).toNat = v % 128 + 128 := toNat_ofNat_lt (by omega)
      have h3 : v / 128 < 128 ^ (n + 1) := by
        rw [Nat.div_lt_iff_lt_mul (by omega)]; rw [Nat.pow_succ] at h; exact h
      rw [varintN, if_neg h1, List.cons_append, readVarintN, h2, if_neg (by omega), ih _ h3]
      simp only [Option.map_some, Option.some.injEq, Prod.mk.injEq, and_true]
      omega

theorem readVarint_varint (v : Nat) (rest : Bytes) (h : v < 18446744073709551616) :
    readVarint (varint v ++ rest) = some (v, rest) := by
  have h1 : v < 128 ^ (9 + 1) := Nat.lt_of_lt_of_le h (by decide)
  simp only [readVarint, varint, readVarintN_varintN 9 v rest h1, Option.map_some,
    Nat.mod_eq_of_lt h]

theorem readVarint32_varint (v : Nat) (rest : Bytes) (h : v < 4294967296) :
    readVarint32 (varint v ++ rest) = some (v, rest) := by
  simp only [readVarint32, readVarint_varint v rest (by omega), Option.map_some,
    Nat.mod_eq_of_lt h]

theorem varintN_length_succ (n v : Nat) : (varintN (n + 1) v).length =
    if v < 128 then 1 else 1 + (varintN n (v / 128)).length := by
  rw [varintN]; split <;> simp <;> omega

theorem varint_length_lt (k : Nat) : ∀ n v : Nat, k ≤ n → v < 128 ^ (k + 1) → 128 ^ k ≤ v →
    (varintN (n + 1) v).length = k + 1 := by
  induction k with
  | zero => intro n v _ h _; rw [varintN_length_succ, if_pos (by simpa using h)]
  | succ k ih =>
    intro n v hn h h'
    obtain ⟨m, rfl⟩ : ∃ m, n = m + 1 := ⟨n - 1, by omega⟩
    have h1 : 128 ≤ v := Nat.le_trans (by
      have := Nat.pow_le_pow_right (n := 128) (by omega) (show 1 ≤ k + 1 by omega)
      simpa using this) h'
    rw [varintN_length_succ, if_neg (by omega), ih m (v / 128) (by omega)]
    · omega
    · rw [Nat.div_lt_iff_lt_mul (by omega)]; rw [Nat.pow_succ] at h; exact h
    · rw [Nat.le_div_iff_mul_le (by omega)]; rw [Nat.pow_succ] at h'; exact h'

theorem varint_length_small (v : Nat) (h : v < 128) : (varint v).length = 1 := by
  simp [varint, varintN_length_succ, h]

theorem varint_length (v : Nat) (h : v < 4294967296) : (varint v).length = varintSize v := by
  simp only [varintSize]
  split
  · next h1 => exact varint_length_small v h1
  split
  · next h1 => exact varint_length_lt 1 9 v (by omega) (by simpa using h1) (by simp; omega)
  split
  · next h1 => exact varint_length_lt 2 9 v (by omega) (by simpa using h1) (by simp; omega)
  split
  · next h1 => exact varint_length_lt 3 9 v (by omega) (by simpa using h1) (by simp; omega)
  · exact varint_length_lt 4 9 v (by omega) (by simp; omega) (by simp; omega)

theorem varint64_length (v : Nat) (h : v < 18446744073709551616) :
    (varint v).length = varint64Size v := by
  simp only [varint64Size]
  split
  · next h1 => exact varint_length_small v h1
  split
  · next h1 => exact varint_length_lt 1 9 v (by omega) (by simpa using h1) (by simp; omega)
  split
  · next h1 => exact varint_length_lt 2 9 v (by omega) (by simpa using h1) (by simp; omega)
  split
  · next h1 => exact varint_length_lt 3 9 v (by omega) (by simpa using h1) (by simp; omega)
  split
  · next h1 => exact varint_length_lt 4 9 v (by omega) (by simpa using h1) (by simp; omega)
  split
  · next h1 => exact varint_length_lt 5 9 v (by omega) (by simpa using h1) (by simp; omega)
  split
  · next h1 => exact varint_length_lt 6 9 v (by omega) (by simpa using h1) (by simp; omega)
  split
  · next h1 => exact varint_length_lt 7 9 v (by omega) (by simpa using h1) (by simp; omega)
  split
  · next h1 => exact varint_length_lt 8 9 v (by omega) (by simpa using h1) (by simp; omega)
  · exact varint_length_lt 9 9 v (by omega) (by simp; omega) (by simp; omega)

theorem varint_ne_nil (v : Nat) : varint v ≠ [] := by
  rw [varint, varintN]; split <;> simp

/-- A varint without its last byte is not a varint. -/
theorem readVarintN_dropLast (n : Nat) : ∀ (m v : Nat), v < 128 ^ (n + 1) →
    readVarintN m (varintN (n + 1) v).dropLast = none := by
  induction n with
  | zero =>
    intro m v h
    have h1 : v < 128 := by simpa using h
    rw [varintN, if_pos h1]
    cases m <;> simp [readVarintN]
  | succ n ih =>
    intro m v h
    by_cases h1 : v < 128
    · rw [varintN, if_pos h1]; cases m <;> simp [readVarintN]
    · have h3 : v / 128 < 128 ^ (n + 1) := by
        rw [Nat.div_lt_iff_lt_mul (by omega)]; rw [Nat.pow_succ] at h; exact h
      have h2 : (UInt8.ofNat (v % 128 + 128)).toNat = v % 128 + 128 := toNat_ofNat_lt (by omega)
      have h4 : varintN (n + 1) (v / 128) ≠ [] := by rw [varintN]; split <;> simp
      rw [varintN, if_neg h1, List.dropLast_cons_of_ne_nil h4]
      cases m with
      | zero => rfl
      | succ m => rw [readVarintN, h2, if_neg (by omega), ih m _ h3]; rfl

theorem readVarint_dropLast (v : Nat) (h : v < 18446744073709551616) :
    readVarint (varint v).dropLast = none := by
  have h1 : v < 128 ^ (9 + 1) := Nat.lt_of_lt_of_le h (by decide)
  simp only [readVarint, varint, readVarintN_dropLast 9 10 v h1, Option.map_none]

theorem ofI64_lt (v : Int) : ofI64 v < 18446744073709551616 := by
  simp only [ofI64]; omega

theorem toI64_ofI64 (v : Int) (h : InI64 v) : toI64 (ofI64 v) = v := by
  obtain ⟨h1, h2⟩ := h
  have h3 : ((ofI64 v : Nat) : Int) = v % 18446744073709551616 := by
    simp only [ofI64]; omega
  rw [toI64]
  by_cases h : ofI64 v < 9223372036854775808
  · rw [if_pos h]; omega
  · rw [if_neg h]; omega

theorem leBytes_length (n v : Nat) : (leBytes n v).length = n := by
  induction n generalizing v with
  | zero => rfl
  | succ n ih => simp [leBytes, ih]

theorem leNat_leBytes (n v : Nat) (h : v < 256 ^ n) : leNat (leBytes n v) = v := by
  induction n generalizing v with
  | zero => simp at h; simp [leBytes, leNat, h]
  | succ n ih =>
    have h1 : (UInt8.ofNat (v % 256)).toNat = v % 256 := toNat_ofNat_lt (by omega)
    have h2 : v / 256 < 256 ^ n := by
      rw [Nat.div_lt_iff_lt_mul (by omega)]; rw [Nat.pow_succ] at h; exact h
    simp only [leBytes, leNat, h1, ih _ h2]; omega

theorem unUtf8_utf8 (s : Str) : unUtf8 (utf8 s) = some s := by
  have h := List.utf8Decode?_utf8Encode (l := s)
  simp only [List.utf8Encode] at h
  simp only [unUtf8, utf8, h, Option.map_some]

/-! ## Pieces -/

theorem readBytes_append (bs rest : Bytes) : readBytes bs.length (bs ++ rest) = some (bs, rest) := by
  simp [readBytes]

theorem readDelimited_append (n : Nat) (bs rest : Bytes) (hn : bs.length = n) (h : n < 4294967296) :
    readDelimited (varint n ++ (bs ++ rest)) = some (bs, rest) := by
  subst hn
  simp only [readDelimited, readVarint32_varint _ _ h, Option.bind_some, readBytes_append]

theorem readString_append (s : Str) (rest : Bytes) (h : (utf8 s).length < 4294967296) :
    readString (varint (utf8 s).length ++ (utf8 s ++ rest)) = some (s, rest) := by
  simp only [readString, readDelimited_append _ (utf8 s) rest rfl h, Option.bind_some,
    unUtf8_utf8, Option.map_some]

theorem readDouble_append (d : UInt64) (rest : Bytes) :
    readDouble (leBytes 8 d.toNat ++ rest) = some (d, rest) := by
  have h := readBytes_append (leBytes 8 d.toNat) rest
  rw [leBytes_length] at h
  simp only [readDouble, h, Option.map_some]
  rw [leNat_leBytes 8 d.toNat (by have := d.toNat_lt; simpa using this)]
  simp

theorem readDoubles_append (l : List UInt64) (fuel : Nat) (h : l.length ≤ fuel) :
    readDoubles fuel (l.flatMap fun v => leBytes 8 v.toNat) = some l := by
  induction l generalizing fuel with
  | nil => cases fuel <;> simp [readDoubles]
  | cons d l ih =>
    obtain ⟨fuel, rfl⟩ : ∃ n, fuel = n + 1 := ⟨fuel - 1, by simp at h; omega⟩
    have hne : ∃ b bs, (leBytes 8 d.toNat ++ l.flatMap fun v => leBytes 8 v.toNat) = b :: bs := by
      simp only [leBytes, List.cons_append]; exact ⟨_, _, rfl⟩
    obtain ⟨b, bs, hb⟩ := hne
    have h1 : readDoubles (fuel + 1) (b :: bs) =
        (readDouble (b :: bs)).bind fun (d, r) => (readDoubles fuel r).map (d :: ·) := rfl
    rw [List.flatMap_cons, hb, h1, ← hb, readDouble_append]
    simp only [Option.bind_some, ih fuel (by simpa using h), Option.map_some]

theorem doubles_length (l : List UInt64) :
    (l.flatMap fun v => leBytes 8 v.toNat).length = l.length * 8 := by
  induction l with
  | nil => rfl
  | cons d l ih => simp only [List.flatMap_cons, List.length_append, leBytes_length, ih, List.length_cons]; omega

theorem putTag_length (f w : Nat) (hf : f < 16) (hw : w ≤ 5) : (putTag f w).length = 1 :=
  varint_length_small _ (by omega)

theorem readTag_putTag (f w : Nat) (rest : Bytes) (hf : f < 536870912) (h0 : 0 < f) (hw : w ≤ 5) :
    readTag (putTag f w ++ rest) = some (f, w, rest) := by
  have h1 : (f * 8 + w) / 8 = f := by omega
  have h2 : (f * 8 + w) % 8 = w := by omega
  simp only [readTag, putTag, readVarint32_varint _ _ (show f * 8 + w < 4294967296 by omega),
    Option.bind_some, h1, h2]
  rw [if_neg (by omega)]

/-! ## Messages as sequences of fields -/

/-- Reading `bytes` changes the message by `g` and leaves what follows. -/
def Steps {α : Type} (step : Nat → Nat → α → Bytes → Option (α × Bytes)) (bytes : Bytes)
    (g : α → α) : Prop :=
  ∃ k ≤ bytes.length, ∀ n rest a,
    mergeLoop step (n + k) a (bytes ++ rest) = mergeLoop step n (g a) rest

section
variable {α : Type} {step : Nat → Nat → α → Bytes → Option (α × Bytes)}

theorem Steps.nil : Steps step [] id := ⟨0, Nat.le_refl _, fun _ _ _ => rfl⟩

theorem Steps.append {b1 b2 : Bytes} {g1 g2 : α → α} (h1 : Steps step b1 g1)
    (h2 : Steps step b2 g2) : Steps step (b1 ++ b2) (g2 ∘ g1) := by
  obtain ⟨k1, hk1, h1⟩ := h1
  obtain ⟨k2, hk2, h2⟩ := h2
  refine ⟨k2 + k1, by simp; omega, fun n rest a => ?_⟩
  rw [List.append_assoc, ← Nat.add_assoc, h1, h2]; rfl

theorem mergeLoop_tag (f w n : Nat) (a : α) (rest : Bytes) (hf : f < 536870912) (h0 : 0 < f)
    (hw : w ≤ 5) : mergeLoop step (n + 1) a (putTag f w ++ rest) =
      (step f w a rest).bind fun (a', r') => mergeLoop step n a' r' := by
  obtain ⟨b, bs, hb⟩ : ∃ b bs, putTag f w ++ rest = b :: bs := by
    match h : putTag f w with
    | [] => exact absurd h (varint_ne_nil _)
    | b :: bs => exact ⟨b, bs ++ rest, rfl⟩
  rw [hb]
  have h1 : mergeLoop step (n + 1) a (b :: bs) = (readTag (b :: bs)).bind fun (f, w, r) =>
      (step f w a r).bind fun (a', r') => mergeLoop step n a' r' := rfl
  rw [h1, ← hb, readTag_putTag f w rest hf h0 hw]; rfl

theorem Steps.field {f w : Nat} {body : Bytes} {g : α → α} (hf : f < 536870912) (h0 : 0 < f)
    (hw : w ≤ 5) (h : ∀ a rest, step f w a (body ++ rest) = some (g a, rest)) :
    Steps step (putTag f w ++ body) g := by
  refine ⟨1, by have := List.length_pos_iff.2 (varint_ne_nil (f * 8 + w)); simp only [putTag, List.length_append]; omega, fun n rest a => ?_⟩
  rw [List.append_assoc, mergeLoop_tag f w n a _ hf h0 hw, h]; rfl

theorem Steps.run {bytes : Bytes} {g : α → α} (h : Steps step bytes g) (a : α) :
    mergeLoop step (bytes.length + 1) a bytes = some (g a) := by
  obtain ⟨k, hk, h⟩ := h
  have h1 := h (bytes.length + 1 - k) [] a
  rw [List.append_nil, Nat.sub_add_cancel (by omega)] at h1
  rw [h1]
  obtain ⟨m, hm⟩ : ∃ m, bytes.length + 1 - k = m + 1 := ⟨bytes.length - k, by omega⟩
  rw [hm]; rfl

/-- What follows a readable prefix decides, if it is unreadable in every state. -/
theorem Steps.run_none {bytes rest : Bytes} {g : α → α} (h : Steps step bytes g) (a : α)
    (hr : ∀ n a, mergeLoop step n a rest = none) (fuel : Nat) (hf : bytes.length ≤ fuel) :
    mergeLoop step fuel a (bytes ++ rest) = none := by
  obtain ⟨k, hk, h⟩ := h
  have h1 := h (fuel - k) rest a
  rw [Nat.sub_add_cancel (by omega)] at h1
  rw [h1, hr]

end

theorem putStr_length (f : Nat) (s : Str) (hf : f < 16) (h : (utf8 s).length < 4294967296) :
    (putStr f s).length = strSize s := by
  simp only [putStr, strSize, List.length_append, putTag_length f 2 hf (by omega),
    varint_length _ h]

theorem utf8_le_putStr (f : Nat) (s : Str) : (utf8 s).length ≤ (putStr f s).length := by
  simp only [putStr, List.length_append]; omega

theorem entry_length (kv : Str × Str) (h1 : (utf8 kv.1).length < 4294967296)
    (h2 : (utf8 kv.2).length < 4294967296) :
    (putStr 1 kv.1 ++ putStr 2 kv.2).length = entrySize kv := by
  rw [List.length_append, putStr_length 1 _ (by omega) h1, putStr_length 2 _ (by omega) h2]; rfl

theorem str_steps {α : Type} {step : Nat → Nat → α → Bytes → Option (α × Bytes)} {g : α → α}
    (f : Nat) (s : Str) (hf : f < 16) (h0 : 0 < f) (hs : (utf8 s).length < 4294967296)
    (h : ∀ a bs r, readString bs = some (s, r) → step f 2 a bs = some (g a, r)) :
    Steps step (putStr f s) g := by
  have : putStr f s = putTag f 2 ++ (varint (utf8 s).length ++ utf8 s) := by
    simp [putStr]
  rw [this]
  refine Steps.field (by omega) h0 (by omega) fun a rest => h a _ rest ?_
  rw [List.append_assoc, readString_append s rest hs]

theorem readEntry_append (m : TagMap) (kv : Str × Str) (rest : Bytes)
    (h : (putStr 1 kv.1 ++ putStr 2 kv.2).length < 4294967296) :
    readEntry m (varint (entrySize kv) ++ ((putStr 1 kv.1 ++ putStr 2 kv.2) ++ rest)) =
      some (m.set kv.1 kv.2, rest) := by
  have h1 : (utf8 kv.1).length < 4294967296 := by
    have := utf8_le_putStr 1 kv.1; simp only [List.length_append] at h; omega
  have h2 : (utf8 kv.2).length < 4294967296 := by
    have := utf8_le_putStr 2 kv.2; simp only [List.length_append] at h; omega
  have hl := entry_length kv h1 h2
  have hs1 : Steps entryStep (putStr 1 kv.1) (fun x => (kv.1, x.2)) :=
    str_steps 1 kv.1 (by omega) (by omega) h1 fun a bs r hb => by simp [entryStep, expect, hb]
  have hs2 : Steps entryStep (putStr 2 kv.2) (fun x => (x.1, kv.2)) :=
    str_steps 2 kv.2 (by omega) (by omega) h2 fun a bs r hb => by simp [entryStep, expect, hb]
  have hr := (hs1.append hs2).run ([], [])
  rw [readEntry, readDelimited_append _ _ rest hl (by omega)]
  simp only [Option.bind_some, hr, Option.map_some, Function.comp]

theorem map_steps {α : Type} {step : Nat → Nat → α → Bytes → Option (α × Bytes)}
    (get : α → TagMap) (put : α → TagMap → α) (f : Nat) (hf : f < 16) (h0 : 0 < f)
    (hgp : ∀ a m, get (put a m) = m) (hpp : ∀ a m m', put (put a m) m' = put a m')
    (hpg : ∀ a, put a (get a) = a)
    (h : ∀ a bs m r, readEntry (get a) bs = some (m, r) → step f 2 a bs = some (put a m, r))
    (m : TagMap) (hm : (putMap f m).length < 4294967296) :
    Steps step (putMap f m) (fun a => put a ((get a).setAll m)) := by
  induction m with
  | nil =>
    have : (fun a => put a ((get a).setAll [])) = id := by
      funext a; simp [TagMap.setAll, hpg]
    rw [this]; exact Steps.nil
  | cons kv m ih =>
    have hc : putMap f (kv :: m) = putEntry f kv ++ putMap f m := by simp [putMap]
    rw [hc] at hm ⊢
    simp only [List.length_append] at hm
    have he : (putStr 1 kv.1 ++ putStr 2 kv.2).length < 4294967296 := by
      have : (putStr 1 kv.1 ++ putStr 2 kv.2).length ≤ (putEntry f kv).length := by
        simp only [putEntry, List.length_append]; omega
      omega
    have h1 : Steps step (putEntry f kv) (fun a => put a ((get a).set kv.1 kv.2)) := by
      rw [putEntry, List.append_assoc]
      refine Steps.field (by omega) h0 (by omega) fun a rest => h a _ _ rest ?_
      rw [List.append_assoc, readEntry_append _ kv rest he]
    have h2 := h1.append (ih (by omega))
    have : (fun a => put a ((get a).setAll m)) ∘ (fun a => put a ((get a).set kv.1 kv.2)) =
        fun a => put a ((get a).setAll (kv :: m)) := by
      funext a; simp [hgp, hpp, TagMap.setAll]
    rw [this] at h2; exact h2

theorem putMap_length (f : Nat) (hf : f < 16) (m : TagMap) (hm : (putMap f m).length < 4294967296) :
    (putMap f m).length = mapSize m := by
  induction m with
  | nil => rfl
  | cons kv m ih =>
    have hc : putMap f (kv :: m) = putEntry f kv ++ putMap f m := by simp [putMap]
    rw [hc, List.length_append] at hm ⊢
    have he : (putStr 1 kv.1 ++ putStr 2 kv.2).length ≤ (putEntry f kv).length := by
      simp only [putEntry, List.length_append]; omega
    have h1 : (utf8 kv.1).length < 4294967296 := by
      have := utf8_le_putStr 1 kv.1; simp only [List.length_append] at he; omega
    have h2 : (utf8 kv.2).length < 4294967296 := by
      have := utf8_le_putStr 2 kv.2; simp only [List.length_append] at he; omega
    have hl := entry_length kv h1 h2
    rw [ih (by omega)]
    have : (putEntry f kv).length = 1 + varintSize (entrySize kv) + entrySize kv := by
      rw [putEntry, List.length_append, List.length_append, hl,
        putTag_length f 2 hf (by omega), varint_length _ (by omega)]
    rw [this]; simp [mapSize]

theorem setAll_aux (o m : TagMap) (h : (m ++ o).Ok) : TagMap.setAll m o = m ++ o := by
  induction o generalizing m with
  | nil => simp [TagMap.setAll]
  | cons kv o ih =>
    have hset : m.set kv.1 kv.2 = m ++ [kv] := by
      have hk : ∀ x ∈ m, x.1 ≠ kv.1 := by
        intro x hx he
        have hn : ((m ++ kv :: o).map Prod.fst).Nodup := h
        rw [List.map_append, List.nodup_append] at hn
        exact hn.2.2 x.1 (List.mem_map_of_mem hx) kv.1 (by simp) he
      clear ih h
      induction m with
      | nil => rfl
      | cons x m ih =>
        obtain ⟨a, b⟩ := x
        have hne : a ≠ kv.1 := hk (a, b) (by simp)
        simp only [TagMap.set, if_neg hne, List.cons_append]
        rw [ih fun x hx => hk x (by simp [hx])]
    have : TagMap.setAll m (kv :: o) = TagMap.setAll (m.set kv.1 kv.2) o := rfl
    rw [this, hset, ih (m ++ [kv]) (by simpa using h)]; simp

theorem setAll_nil (m : TagMap) (h : m.Ok) : TagMap.setAll [] m = m := by
  simpa using setAll_aux m [] (by simpa using h)

/-- The effect of an optional field. -/
def optSet {α β : Type} (g : β → α → α) : Option β → α → α
  | none => id
  | some b => g b

theorem opt_steps {α β : Type} {step : Nat → Nat → α → Bytes → Option (α × Bytes)}
    (put : β → Bytes) (g : β → α → α) (o : Option β)
    (h : ∀ b, o = some b → Steps step (put b) (g b)) :
    Steps step (putOpt put o) (optSet g o) := by
  cases o with
  | none => exact Steps.nil
  | some b => exact h b rfl

/-! ## Points -/

theorem varint64_put (f : Nat) (v : Int) (hf : f < 16) :
    (putI64 f v).length = 1 + varint64Size (ofI64 v) := by
  rw [putI64, List.length_append, putTag_length f 0 hf (by omega), varint64_length _ (ofI64_lt v)]

theorem i64_steps {α : Type} {step : Nat → Nat → α → Bytes → Option (α × Bytes)} {g : α → α}
    (f : Nat) (v : Int) (hf : f < 16) (h0 : 0 < f) (hv : InI64 v)
    (h : ∀ a bs n r, readVarint bs = some (n, r) → toI64 n = v → step f 0 a bs = some (g a, r)) :
    Steps step (putI64 f v) g :=
  Steps.field (by omega) h0 (by omega) fun a rest =>
    h a _ (ofI64 v) rest (readVarint_varint _ rest (ofI64_lt v)) (toI64_ofI64 v hv)

theorem samples_steps (l : List UInt64) (h : l.length * 8 < 4294967296) :
    Steps Point.step (putSamples l) (fun a => { a with samples := a.samples ++ l }) := by
  rw [putSamples]
  by_cases he : l.isEmpty
  · rw [if_pos he]
    have : l = [] := by simpa using he
    subst this
    have : (fun a : Point => { a with samples := a.samples ++ [] }) = id := by funext a; simp
    rw [this]; exact Steps.nil
  · rw [if_neg he, List.append_assoc]
    refine Steps.field (by omega) (by omega) (by omega) fun a rest => ?_
    have h1 := readDelimited_append (l.length * 8) (l.flatMap fun v => leBytes 8 v.toNat) rest
      (doubles_length l) h
    rw [List.append_assoc]
    have h2 := readDoubles_append l (l.flatMap fun v => leBytes 8 v.toNat).length
      (by rw [doubles_length]; omega)
    simp only [Point.step, if_true, h1, Option.bind_some, h2, Option.map_some]

theorem bounds_steps (l : List UInt64) :
    Steps Point.step (l.flatMap fun v => putTag 7 1 ++ leBytes 8 v.toNat)
      (fun a => { a with binBounds := a.binBounds ++ l }) := by
  induction l with
  | nil =>
    have : (fun a : Point => { a with binBounds := a.binBounds ++ [] }) = id := by funext a; simp
    rw [this]; exact Steps.nil
  | cons v l ih =>
    rw [List.flatMap_cons]
    have h1 : Steps Point.step (putTag 7 1 ++ leBytes 8 v.toNat)
        (fun a => { a with binBounds := a.binBounds ++ [v] }) :=
      Steps.field (by omega) (by omega) (by omega) fun a rest => by
        simp [Point.step, expect, readDouble_append]
    have h2 := h1.append ih
    have : (fun a : Point => { a with binBounds := a.binBounds ++ l }) ∘
        (fun a : Point => { a with binBounds := a.binBounds ++ [v] }) =
        fun a => { a with binBounds := a.binBounds ++ v :: l } := by funext a; simp
    rw [this] at h2; exact h2

theorem bounds_length (l : List UInt64) :
    (l.flatMap fun v => putTag 7 1 ++ leBytes 8 v.toNat).length = 9 * l.length := by
  induction l with
  | nil => rfl
  | cons d l ih =>
    simp only [List.flatMap_cons, List.length_append, leBytes_length, ih, List.length_cons,
      putTag_length 7 1 (by omega) (by omega)]
    omega

/-- Everything in a point's encoding before the time. -/
def Point.head (p : Point) : Bytes :=
  putOpt (putStr 1) p.name
  ++ putSamples p.samples
  ++ putOpt (fun b => putTag 3 0 ++ [if b then 1 else 0]) p.persisted
  ++ putOpt (fun m => putTag 4 0 ++ varint m.value) p.method
  ++ putMap 5 p.metadata

theorem Point.write_eq (p : Point) : p.write = p.head ++ putOpt (putI64 6) p.timestampMs
    ++ p.binBounds.flatMap fun v => putTag 7 1 ++ leBytes 8 v.toNat := rfl

/-- What reading a point's head does to a point. -/
def Point.headSet (p a : Point) : Point :=
  { name := p.name.or a.name
    samples := a.samples ++ p.samples
    persisted := p.persisted.or a.persisted
    method := p.method.or a.method
    metadata := a.metadata.setAll p.metadata
    timestampMs := a.timestampMs
    binBounds := a.binBounds }

theorem readVarint32_small (n : Nat) (rest : Bytes) (h : n < 128) :
    readVarint32 (UInt8.ofNat n :: rest) = some (n, rest) := by
  have := readVarint32_varint n rest (by omega)
  have h1 : varint n = [UInt8.ofNat n] := by rw [varint, varintN, if_pos h]
  rwa [h1] at this

theorem putOpt_str_le (f : Nat) (o : Option Str) (s : Str) (h : o = some s) :
    (utf8 s).length ≤ (putOpt (putStr f) o).length := by
  subst h; exact utf8_le_putStr f s

theorem Point.head_steps (p : Point) (hl : p.head.length < 4294967296) :
    Steps Point.step p.head p.headSet := by
  simp only [Point.head, List.length_append] at hl
  have hs : p.samples.length * 8 ≤ (putSamples p.samples).length := by
    rw [putSamples]
    split
    · next h => simp only [List.isEmpty_iff] at h; simp [h]
    · simp only [List.length_append, doubles_length]; omega
  have h1 := opt_steps (step := Point.step) (putStr 1) (fun s a => { a with name := some s }) p.name
    (fun s hs => str_steps 1 s (by omega) (by omega)
      (by have := putOpt_str_le 1 _ s hs; omega)
      fun a bs r hb => by simp [Point.step, expect, hb])
  have h2 := samples_steps p.samples (by omega)
  have h3 := opt_steps (step := Point.step) (fun b : Bool => putTag 3 0 ++ [if b then 1 else 0])
    (fun b a => { a with persisted := some b }) p.persisted
    (fun b hb => Steps.field (by omega) (by omega) (by omega) fun a rest => by
      have e0 := readVarint32_small 0 rest (by omega)
      have e1 := readVarint32_small 1 rest (by omega)
      cases b
      · simp only [Point.step, expect, Bool.false_eq_true, if_false, if_true, List.cons_append, List.nil_append]
        rw [show (0 : UInt8) = UInt8.ofNat 0 from rfl, e0]; rfl
      · simp only [Point.step, expect, if_true, List.cons_append, List.nil_append]
        rw [show (1 : UInt8) = UInt8.ofNat 1 from rfl, e1]; rfl)
  have h4 := opt_steps (step := Point.step) (fun m : Method => putTag 4 0 ++ varint m.value)
    (fun m a => { a with method := some m }) p.method
    (fun m hb => Steps.field (by omega) (by omega) (by omega) fun a rest => by
      have hm : m.value < 4294967296 := by cases m <;> decide
      have ho : Method.ofI32 m.value = some m := by cases m <;> rfl
      simp only [Point.step, expect, if_true, readVarint32_varint _ _ hm, Option.bind_some, ho,
        Option.map_some])
  have h5 := map_steps (step := Point.step) Point.metadata (fun a m => { a with metadata := m }) 5
    (by omega) (by omega) (fun _ _ => rfl) (fun _ _ _ => rfl) (fun _ => rfl)
    (fun a bs m r h => by simp only [Point.step, expect, if_true, h, Option.map_some])
    p.metadata (by omega)
  have h := (((h1.append h2).append h3).append h4).append h5
  have he : ∀ a : Point, (((((fun a : Point => { a with metadata := a.metadata.setAll p.metadata }) ∘
      (optSet (fun b a => { a with method := some b }) p.method)) ∘
      (optSet (fun b a => { a with persisted := some b }) p.persisted)) ∘
      (fun a : Point => { a with samples := a.samples ++ p.samples })) ∘
      (optSet (fun b a => { a with name := some b }) p.name)) a =
        p.headSet a := by
    intro a
    rcases p with ⟨n, s, pe, me, md, ts, bb⟩
    cases n <;> cases pe <;> cases me <;> rfl
  have he2 : p.headSet = _ := (funext he).symm
  rw [he2]; exact h

theorem Point.steps (p : Point) (hl : p.write.length < 4294967296)
    (ht : ∀ t, p.timestampMs = some t → InI64 t) :
    Steps Point.step p.write (fun a =>
      { p.headSet a with timestampMs := p.timestampMs.or a.timestampMs, binBounds := a.binBounds ++ p.binBounds }) := by
  rw [Point.write_eq] at hl ⊢
  simp only [List.length_append] at hl
  have h1 := Point.head_steps p (by omega)
  have h2 := opt_steps (step := Point.step) (putI64 6) (fun v a => { a with timestampMs := some v })
    p.timestampMs (fun v hv => i64_steps 6 v (by omega) (by omega) (ht v hv)
      fun a bs n r hb hn => by simp [Point.step, expect, hb, hn])
  have h3 := bounds_steps p.binBounds
  have h := (h1.append h2).append h3
  have he : ∀ a : Point, ((fun a : Point => { a with binBounds := a.binBounds ++ p.binBounds }) ∘
      (optSet (fun b a => { a with timestampMs := some b }) p.timestampMs) ∘
      p.headSet) a =
      { p.headSet a with timestampMs := p.timestampMs.or a.timestampMs, binBounds := a.binBounds ++ p.binBounds } := by
    intro a
    rcases p with ⟨n, s, pe, me, md, ts, bb⟩
    cases ts <;> rfl
  rw [← funext he]; exact h

theorem Point.read_write (p : Point) (hv : p.Valid) (hl : p.write.length < 4294967296) :
    mergeLoop Point.step (p.write.length + 1) {} p.write = some p := by
  rw [(Point.steps p hl hv.2).run {}]
  rcases p with ⟨n, s, pe, me, md, ts, bb⟩
  have := setAll_nil md hv.1
  simp [Point.headSet, this]

theorem samples_size (n : Nat) (h : n * 8 < 4294967296) :
    varintSize (n * 8) = varintSize n + if GoodCount n then 0 else 1 := by
  simp only [varintSize, GoodCount]
  by_cases h1 : n < 16
  · simp [show n * 8 < 128 by omega, show n < 128 by omega, h1]
  by_cases h2 : n < 128
  · simp [show ¬ n * 8 < 128 by omega, show n * 8 < 16384 by omega, h2, h1,
      show ¬ 128 ≤ n by omega, show ¬ 16384 ≤ n by omega, show ¬ 2097152 ≤ n by omega,
      show ¬ 268435456 ≤ n by omega]
  by_cases h3 : n < 2048
  · simp [show ¬ n * 8 < 128 by omega, show n * 8 < 16384 by omega, h2, h3,
      show 128 ≤ n by omega, show n < 16384 by omega]
  by_cases h4 : n < 16384
  · simp [show ¬ n * 8 < 128 by omega, show ¬ n * 8 < 16384 by omega, show n * 8 < 2097152 by omega,
      h1, h2, h3, h4, show ¬ 16384 ≤ n by omega, show ¬ 2097152 ≤ n by omega,
      show ¬ 268435456 ≤ n by omega]
  by_cases h5 : n < 262144
  · simp [show ¬ n * 8 < 128 by omega, show ¬ n * 8 < 16384 by omega, show n * 8 < 2097152 by omega,
      h2, h4, h5, show 16384 ≤ n by omega, show n < 2097152 by omega]
  by_cases h6 : n < 2097152
  · simp [show ¬ n * 8 < 128 by omega, show ¬ n * 8 < 16384 by omega, show ¬ n * 8 < 2097152 by omega,
      show n * 8 < 268435456 by omega, h1, h2, h3, h4, h5, h6, show ¬ 2097152 ≤ n by omega,
      show ¬ 268435456 ≤ n by omega]
  by_cases h7 : n < 33554432
  · simp [show ¬ n * 8 < 128 by omega, show ¬ n * 8 < 16384 by omega, show ¬ n * 8 < 2097152 by omega,
      show n * 8 < 268435456 by omega, h2, h4, h6, h7, show 2097152 ≤ n by omega,
      show n < 268435456 by omega]
  by_cases h8 : n < 268435456
  · simp [show ¬ n * 8 < 128 by omega, show ¬ n * 8 < 16384 by omega, show ¬ n * 8 < 2097152 by omega,
      show ¬ n * 8 < 268435456 by omega, h1, h2, h3, h4, h5, h6, h7, h8, show ¬ 268435456 ≤ n by omega]
  · simp [show ¬ n * 8 < 128 by omega, show ¬ n * 8 < 16384 by omega, show ¬ n * 8 < 2097152 by omega,
      show ¬ n * 8 < 268435456 by omega, h2, h4, h6, h8, show 268435456 ≤ n by omega]

theorem opt_length {β : Type} (put : β → Bytes) (size : β → Nat) (o : Option β)
    (h : ∀ b, o = some b → (put b).length = size b) : (putOpt put o).length = optSize size o := by
  cases o with
  | none => rfl
  | some b => exact h b rfl

/-- How long a point is on the wire. -/
theorem Point.write_length (p : Point) (hl : p.write.length < 4294967296) :
    p.write.length = p.computeSize + if GoodCount p.samples.length then 0 else 1 := by
  simp only [Point.write, List.length_append] at hl
  have h1 := opt_length (putStr 1) strSize p.name (fun s hs => putStr_length 1 s (by omega)
    (by have := putOpt_str_le 1 _ s hs; omega))
  have h3 := opt_length (fun b : Bool => putTag 3 0 ++ [if b then 1 else 0]) (fun _ => 2) p.persisted
    (fun b _ => by simp [putTag_length 3 0 (by omega) (by omega)])
  have h4 := opt_length (fun m : Method => putTag 4 0 ++ varint m.value)
    (fun m => 1 + varintSize m.value) p.method
    (fun m _ => by
      rw [List.length_append, putTag_length 4 0 (by omega) (by omega), varint_length]
      cases m <;> decide)
  have h5 := putMap_length 5 (by omega) p.metadata (by omega)
  have h6 := opt_length (putI64 6) (fun v => 1 + varint64Size (ofI64 v)) p.timestampMs
    (fun v _ => varint64_put 6 v (by omega))
  have h7 := bounds_length p.binBounds
  have h2 : (putSamples p.samples).length =
      (if p.samples.isEmpty then 0 else 1 + varintSize p.samples.length + p.samples.length * 8)
      + if GoodCount p.samples.length then 0 else 1 := by
    have hs : p.samples.length * 8 ≤ (putSamples p.samples).length := by
      rw [putSamples]
      split
      · next h => simp only [List.isEmpty_iff] at h; simp [h]
      · simp only [List.length_append, doubles_length]; omega
    have hs' : p.samples.length * 8 < 4294967296 := by omega
    clear hs
    rw [putSamples]
    by_cases he : p.samples.isEmpty
    · simp only [if_pos he]; simp only [List.isEmpty_iff] at he; simp [he, GoodCount]
    · simp only [if_neg he, List.length_append, doubles_length,
        putTag_length 2 2 (by omega) (by omega)]
      rw [varint_length _ (by omega), samples_size _ (by omega)]; omega
  simp only [Point.write, Point.computeSize, List.length_append, h1, h2, h3, h4, h5, h6, h7]
  omega

/-! ## Lines -/

theorem Line.steps (l : Line) (hl : l.write.length < 4294967296)
    (ht : ∀ t, l.timestampMs = some t → InI64 t) :
    Steps Line.step l.write (fun a =>
      { path := l.path.or a.path, value := l.value.or a.value, metadata := a.metadata.setAll l.metadata, timestampMs := l.timestampMs.or a.timestampMs }) := by
  simp only [Line.write, List.length_append] at hl
  have h1 := opt_steps (step := Line.step) (putStr 1) (fun s a => { a with path := some s }) l.path
    (fun s hs => str_steps 1 s (by omega) (by omega)
      (by have := putOpt_str_le 1 _ s hs; omega)
      fun a bs r hb => by simp [Line.step, expect, hb])
  have h2 := opt_steps (step := Line.step) (putStr 2) (fun s a => { a with value := some s }) l.value
    (fun s hs => str_steps 2 s (by omega) (by omega)
      (by have := putOpt_str_le 2 _ s hs; omega)
      fun a bs r hb => by simp [Line.step, expect, hb])
  have h3 := map_steps (step := Line.step) Line.metadata (fun a m => { a with metadata := m }) 3
    (by omega) (by omega) (fun _ _ => rfl) (fun _ _ _ => rfl) (fun _ => rfl)
    (fun a bs m r h => by simp only [Line.step, expect, if_true, h, Option.map_some])
    l.metadata (by omega)
  have h4 := opt_steps (step := Line.step) (putI64 4) (fun v a => { a with timestampMs := some v })
    l.timestampMs (fun v hv => i64_steps 4 v (by omega) (by omega) (ht v hv)
      fun a bs n r hb hn => by simp [Line.step, expect, hb, hn])
  have h := ((h1.append h2).append h3).append h4
  have he : ∀ a : Line, ((((optSet (fun b a => { a with timestampMs := some b }) l.timestampMs) ∘
      (fun a : Line => { a with metadata := a.metadata.setAll l.metadata })) ∘
      (optSet (fun b a => { a with value := some b }) l.value)) ∘
      (optSet (fun b a => { a with path := some b }) l.path)) a =
      { path := l.path.or a.path, value := l.value.or a.value, metadata := a.metadata.setAll l.metadata, timestampMs := l.timestampMs.or a.timestampMs } := by
    intro a
    rcases l with ⟨p, v, md, ts⟩
    cases p <;> cases v <;> cases ts <;> rfl
  rw [← funext he]; exact h

theorem Line.read_write (l : Line) (hv : l.Valid) (hl : l.write.length < 4294967296) :
    mergeLoop Line.step (l.write.length + 1) {} l.write = some l := by
  rw [(Line.steps l hl hv.2).run {}]
  rcases l with ⟨p, v, md, ts⟩
  have := setAll_nil md hv.1
  simp [this]

theorem Line.write_length (l : Line) (hl : l.write.length < 4294967296) :
    l.write.length = l.computeSize := by
  simp only [Line.write, List.length_append] at hl
  have h1 := opt_length (putStr 1) strSize l.path (fun s hs => putStr_length 1 s (by omega)
    (by have := putOpt_str_le 1 _ s hs; omega))
  have h2 := opt_length (putStr 2) strSize l.value (fun s hs => putStr_length 2 s (by omega)
    (by have := putOpt_str_le 2 _ s hs; omega))
  have h3 := putMap_length 3 (by omega) l.metadata (by omega)
  have h4 := opt_length (putI64 4) (fun v => 1 + varint64Size (ofI64 v)) l.timestampMs
    (fun v _ => varint64_put 4 v (by omega))
  simp only [Line.write, Line.computeSize, List.length_append, h1, h2, h3, h4]

/-! ## Payloads -/

/-- One nested point on the wire. -/
def putPoint (x : Point) : Bytes := putTag 2 2 ++ varint x.computeSize ++ x.write

/-- One nested line on the wire. -/
def putLine (x : Line) : Bytes := putTag 3 2 ++ varint x.computeSize ++ x.write

theorem Payload.write_eq (p : Payload) :
    p.write = p.points.flatMap putPoint ++ p.lines.flatMap putLine := rfl

theorem point_steps (x : Point) (hv : x.Valid) (hl : (putPoint x).length < 4294967296)
    (hg : GoodCount x.samples.length) :
    Steps Payload.step (putPoint x) (fun a => { a with points := a.points ++ [x] }) := by
  rw [putPoint, List.append_assoc]
  simp only [putPoint, List.length_append] at hl
  refine Steps.field (by omega) (by omega) (by omega) fun a rest => ?_
  have hlen := Point.write_length x (by omega)
  rw [if_pos hg] at hlen
  rw [List.append_assoc]
  simp only [Payload.step, expect, if_true,
    readDelimited_append x.computeSize x.write rest (by omega) (by omega), Option.bind_some,
    Point.read_write x hv (by omega), Option.map_some]

theorem line_steps (x : Line) (hv : x.Valid) (hl : (putLine x).length < 4294967296) :
    Steps Payload.step (putLine x) (fun a => { a with lines := a.lines ++ [x] }) := by
  rw [putLine, List.append_assoc]
  simp only [putLine, List.length_append] at hl
  refine Steps.field (by omega) (by omega) (by omega) fun a rest => ?_
  have hlen := Line.write_length x (by omega)
  rw [List.append_assoc]
  simp only [Payload.step, expect, if_true,
    readDelimited_append x.computeSize x.write rest (by omega) (by omega), Option.bind_some,
    Line.read_write x hv (by omega), Option.map_some]

theorem points_steps (l : List Point) (hv : ∀ x ∈ l, x.Valid)
    (hl : (l.flatMap putPoint).length < 4294967296) (hg : ∀ x ∈ l, GoodCount x.samples.length) :
    Steps Payload.step (l.flatMap putPoint) (fun a => { a with points := a.points ++ l }) := by
  induction l with
  | nil =>
    have : (fun a : Payload => { a with points := a.points ++ [] }) = id := by funext a; simp
    rw [this]; exact Steps.nil
  | cons x l ih =>
    rw [List.flatMap_cons] at hl ⊢
    rw [List.length_append] at hl
    have h := (point_steps x (hv x (by simp)) (by omega) (hg x (by simp))).append
      (ih (fun y hy => hv y (by simp [hy])) (by omega) (fun y hy => hg y (by simp [hy])))
    have : (fun a : Payload => { a with points := a.points ++ l }) ∘
        (fun a : Payload => { a with points := a.points ++ [x] }) =
        fun a => { a with points := a.points ++ x :: l } := by funext a; simp
    rw [this] at h; exact h

theorem lines_steps (l : List Line) (hv : ∀ x ∈ l, x.Valid)
    (hl : (l.flatMap putLine).length < 4294967296) :
    Steps Payload.step (l.flatMap putLine) (fun a => { a with lines := a.lines ++ l }) := by
  induction l with
  | nil =>
    have : (fun a : Payload => { a with lines := a.lines ++ [] }) = id := by funext a; simp
    rw [this]; exact Steps.nil
  | cons x l ih =>
    rw [List.flatMap_cons] at hl ⊢
    rw [List.length_append] at hl
    have h := (line_steps x (hv x (by simp)) (by omega)).append
      (ih (fun y hy => hv y (by simp [hy])) (by omega))
    have : (fun a : Payload => { a with lines := a.lines ++ l }) ∘
        (fun a : Payload => { a with lines := a.lines ++ [x] }) =
        fun a => { a with lines := a.lines ++ x :: l } := by funext a; simp
    rw [this] at h; exact h

theorem Payload.parse_write (p : Payload) (hv : p.Valid)
    (hg : ∀ x ∈ p.points, GoodCount x.samples.length) : Payload.parse p.write = some p := by
  obtain ⟨h1, h2, h3⟩ := hv
  rw [Payload.write_eq] at h3
  rw [List.length_append] at h3
  have h := (points_steps p.points h1 (by omega) hg).append (lines_steps p.lines h2 (by omega))
  rw [Payload.parse, Payload.write_eq, h.run {}]
  simp

theorem putPoint_length (x : Point) (hl : (putPoint x).length < 4294967296) :
    (putPoint x).length = 1 + varintSize x.computeSize + x.computeSize +
      if GoodCount x.samples.length then 0 else 1 := by
  simp only [putPoint, List.length_append] at hl ⊢
  have hlen := Point.write_length x (by omega)
  rw [putTag_length 2 2 (by omega) (by omega), hlen, varint_length _ (by omega)]; omega

theorem putLine_length (x : Line) (hl : (putLine x).length < 4294967296) :
    (putLine x).length = 1 + varintSize x.computeSize + x.computeSize := by
  simp only [putLine, List.length_append] at hl ⊢
  have hlen := Line.write_length x (by omega)
  rw [putTag_length 3 2 (by omega) (by omega), hlen, varint_length _ (by omega)]

theorem points_length (l : List Point) (hl : (l.flatMap putPoint).length < 4294967296) :
    (l.flatMap putPoint).length =
      (l.map fun x => 1 + varintSize x.computeSize + x.computeSize).sum +
      l.countP fun x => decide (¬ GoodCount x.samples.length) := by
  induction l with
  | nil => rfl
  | cons x l ih =>
    rw [List.flatMap_cons, List.length_append] at hl ⊢
    rw [putPoint_length x (by omega), ih (by omega), List.map_cons, List.sum_cons, List.countP_cons]
    by_cases hg : GoodCount x.samples.length <;> simp [hg] <;> omega

theorem lines_length (l : List Line) (hl : (l.flatMap putLine).length < 4294967296) :
    (l.flatMap putLine).length =
      (l.map fun x => 1 + varintSize x.computeSize + x.computeSize).sum := by
  induction l with
  | nil => rfl
  | cons x l ih =>
    rw [List.flatMap_cons, List.length_append] at hl ⊢
    rw [putLine_length x (by omega), ih (by omega), List.map_cons, List.sum_cons]

/-- A payload is one byte longer than computed for every point whose number of samples is not
good. -/
theorem Payload.write_length (p : Payload) (hl : p.write.length < 4294967296) :
    p.write.length = p.computeSize +
      p.points.countP fun x => decide (¬ GoodCount x.samples.length) := by
  rw [Payload.write_eq, List.length_append] at hl ⊢
  rw [points_length _ (by omega), lines_length _ (by omega), Payload.computeSize]; omega

/-- A point that ends with its time cannot be read without its last byte. -/
theorem Point.read_dropLast (p : Point) (t : Int) (ht : p.timestampMs = some t)
    (hb : p.binBounds = []) (hl : p.write.length < 4294967296) (fuel : Nat) (a : Point)
    (hf : p.write.length ≤ fuel) :
    mergeLoop Point.step fuel a p.write.dropLast = none := by
  have hw : p.write = (p.head ++ putTag 6 0) ++ varint (ofI64 t) := by
    simp [Point.write_eq, ht, hb, putOpt, putI64]
  have hd : p.write.dropLast = p.head ++ (putTag 6 0 ++ (varint (ofI64 t)).dropLast) := by
    rw [hw, List.dropLast_append_of_ne_nil (varint_ne_nil _), List.append_assoc]
  rw [hw, List.length_append, List.length_append] at hl hf
  rw [hd]
  refine (Point.head_steps p (by omega)).run_none a (fun n a => ?_) fuel (by omega)
  cases n with
  | zero => rfl
  | succ n =>
    rw [mergeLoop_tag 6 0 n a _ (by omega) (by omega) (by omega)]
    simp only [Point.step, expect, if_true, readVarint_dropLast _ (ofI64_lt t), Option.map_none,
      Option.bind_none]

/-- A payload cut to its computed size cannot be read once a point's number of samples is not
good. -/
theorem Payload.parse_bad (p : Payload) (hv : p.Valid)
    (hs : ∀ x ∈ p.points, x.timestampMs.isSome ∧ x.binBounds = [])
    (hb : ∃ x ∈ p.points, ¬ GoodCount x.samples.length) :
    Payload.parse (p.write.take p.computeSize) = none := by
  obtain ⟨h1, h2, h3⟩ := hv
  -- the first such point
  have split : ∀ l : List Point, (∃ x ∈ l, ¬ GoodCount x.samples.length) →
      ∃ pre x post, l = pre ++ x :: post ∧ (∀ y ∈ pre, GoodCount y.samples.length) ∧
        ¬ GoodCount x.samples.length := by
    intro l
    induction l with
    | nil => simp
    | cons y l ih =>
      rintro ⟨x, hx, hg⟩
      by_cases hy : GoodCount y.samples.length
      · have : x ∈ l := by
          rcases List.mem_cons.1 hx with e | e
          · rw [e] at hg; exact absurd hy hg
          · exact e
        obtain ⟨pre, z, post, e1, e2, e3⟩ := ih ⟨x, this, hg⟩
        refine ⟨y :: pre, z, post, by simp [e1], ?_, e3⟩
        intro w hw
        rcases List.mem_cons.1 hw with e | e
        · rw [e]; exact hy
        · exact e2 w e
      · exact ⟨[], y, l, rfl, by simp, hy⟩
  obtain ⟨pre, x, post, hp, hpre, hx⟩ := split p.points hb
  have hsz : p.computeSize = (pre.map fun x => 1 + varintSize x.computeSize + x.computeSize).sum +
      (1 + varintSize x.computeSize + x.computeSize) +
      ((post.map fun x => 1 + varintSize x.computeSize + x.computeSize).sum +
       (p.lines.map fun x => 1 + varintSize x.computeSize + x.computeSize).sum) := by
    simp only [Payload.computeSize, hp, List.map_append, List.map_cons, List.sum_append,
      List.sum_cons]
    omega
  have hw : p.write = pre.flatMap putPoint ++ (putTag 2 2 ++ (varint x.computeSize ++
      (x.write ++ (post.flatMap putPoint ++ p.lines.flatMap putLine)))) := by
    simp only [Payload.write_eq, hp, List.flatMap_append, List.flatMap_cons, List.append_assoc]
    congr 1
    simp [putPoint]
  rw [hw] at h3
  simp only [List.length_append] at h3
  have hpl := points_length pre (by omega)
  have hz : (pre.countP fun x => decide (¬ GoodCount x.samples.length)) = 0 := by
    rw [List.countP_eq_zero]; intro y hy; simp [hpre y hy]
  rw [hz] at hpl
  have htag : (putTag 2 2).length = 1 := putTag_length 2 2 (by omega) (by omega)
  have hvar := varint_length x.computeSize (by
    have := Point.write_length x (by omega); omega)
  have hxl := Point.write_length x (by omega)
  rw [if_neg hx] at hxl
  -- what is left of the payload after the cut
  have htake : ∃ tail, x.computeSize ≤ tail.length ∧ tail.take x.computeSize = x.write.dropLast ∧
      p.write.take p.computeSize = pre.flatMap putPoint ++ (putTag 2 2 ++ (varint x.computeSize ++ tail)) := by
    refine ⟨(x.write ++ (post.flatMap putPoint ++ p.lines.flatMap putLine)).take
      (p.computeSize - (pre.flatMap putPoint).length - 1 - varintSize x.computeSize), ?_, ?_, ?_⟩
    · rw [List.length_take, List.length_append]; omega
    · rw [List.take_take, Nat.min_eq_left (by omega), List.take_append_of_le_length (by omega),
        List.dropLast_eq_take]
      congr 1; omega
    · rw [hw, List.take_append, List.take_of_length_le (by omega)]
      congr 1
      rw [List.take_append, List.take_of_length_le (by omega), htag]
      congr 1
      rw [List.take_append, List.take_of_length_le (by omega), hvar]
  obtain ⟨tail, ht1, ht2, ht3⟩ := htake
  rw [Payload.parse, ht3]
  have hpv : ∀ y ∈ pre, y.Valid := fun y hy => h1 y (by rw [hp]; simp [hy])
  refine (points_steps pre hpv (by omega) hpre).run_none {} (fun n a => ?_) _
    (by rw [List.length_append]; omega)
  cases n with
  | zero => rfl
  | succ n =>
    rw [mergeLoop_tag 2 2 n a _ (by omega) (by omega) (by omega)]
    have hd : readDelimited (varint x.computeSize ++ tail) =
        some (x.write.dropLast, tail.drop x.computeSize) := by
      simp only [readDelimited, readVarint32_varint _ _ (show x.computeSize < 4294967296 by omega),
        Option.bind_some, readBytes, if_pos ht1, ht2]
    obtain ⟨hts, hbb⟩ := hs x (by rw [hp]; simp)
    obtain ⟨t, ht⟩ := Option.isSome_iff_exists.1 hts
    have hlen : x.write.dropLast.length + 1 = x.write.length := by
      rw [List.length_dropLast]; omega
    simp only [Payload.step, expect, if_true, hd, Option.bind_some,
      Point.read_dropLast x t ht hbb (by omega) (x.write.dropLast.length + 1) {} (by omega),
      Option.map_none, Option.bind_none]

/-! ## Unknown fields -/

theorem skip_number (v : Nat) (rest : Bytes) (h : v < 18446744073709551616) : skipField 0 (varint v ++ rest) = some rest := by
  simp only [skipField, readVarint_varint v rest h, Option.map_some]

theorem skip_eight (b rest : Bytes) (h : b.length = 8) : skipField 1 (b ++ rest) = some rest := by
  simp only [skipField, ← h, readBytes_append, Option.map_some]

theorem skip_text (b rest : Bytes) (h : b.length < 4294967296) : skipField 2 ((varint b.length ++ b) ++ rest) = some rest := by
  rw [List.append_assoc]
  simp only [skipField, readDelimited_append b.length b rest rfl h, Option.map_some]

theorem skip_four (b rest : Bytes) (h : b.length = 4) : skipField 5 (b ++ rest) = some rest := by
  simp only [skipField, ← h, readBytes_append, Option.map_some]

theorem extra_steps {α : Type} {step : Nat → Nat → α → Bytes → Option (α × Bytes)} (f : Nat) (hf : f < 536870912) (h0 : 0 < f)
    (hs : ∀ w a bs, step f w a bs = unknown w a bs) (x : Extra) (hv : x.Valid) : Steps step (x.write f) id := by
  cases x with
  | number v => exact Steps.field hf h0 (by omega) fun a rest => by simp only [hs, unknown, skip_number v rest hv, Option.map_some, id]
  | eight b => exact Steps.field hf h0 (by omega) fun a rest => by simp only [hs, unknown, skip_eight b rest hv, Option.map_some, id]
  | text b => exact Steps.field hf h0 (by omega) fun a rest => by simp only [hs, unknown, skip_text b rest hv, Option.map_some, id]
  | four b => exact Steps.field hf h0 (by omega) fun a rest => by simp only [hs, unknown, skip_four b rest hv, Option.map_some, id]

theorem extras_steps {α : Type} {step : Nat → Nat → α → Bytes → Option (α × Bytes)} (xs : List (Nat × Extra))
    (h : ∀ x ∈ xs, 0 < x.1 ∧ x.1 < 536870912 ∧ (∀ w a bs, step x.1 w a bs = unknown w a bs) ∧ x.2.Valid) : Steps step (writeExtras xs) id := by
  induction xs with
  | nil => exact Steps.nil
  | cons x xs ih =>
    obtain ⟨h1, h2, h3, h4⟩ := h x (by simp)
    have := (extra_steps x.1 h2 h1 h3 x.2 h4).append (ih fun y hy => h y (by simp [hy]))
    simpa [writeExtras] using this

theorem Payload.step_unknown {f : Nat} (h2 : f ≠ 2) (h3 : f ≠ 3) (w : Nat) (a : Payload) (bs : Bytes) :
    Payload.step f w a bs = unknown w a bs := by
  unfold Payload.step; split <;> simp_all

theorem Point.step_unknown {f : Nat} (h : 7 < f) (w : Nat) (a : Point) (bs : Bytes) :
    Point.step f w a bs = unknown w a bs := by
  unfold Point.step; split <;> first | omega | rfl

theorem Line.step_unknown {f : Nat} (h : 4 < f) (w : Nat) (a : Line) (bs : Bytes) :
    Line.step f w a bs = unknown w a bs := by
  unfold Line.step; split <;> first | omega | rfl

theorem Payload.steps (p : Payload) (hv : p.Valid) (hg : ∀ x ∈ p.points, GoodCount x.samples.length) :
    Steps Payload.step p.write fun a => { points := a.points ++ p.points, lines := a.lines ++ p.lines } := by
  obtain ⟨h1, h2, h3⟩ := hv
  rw [Payload.write_eq] at h3 ⊢
  rw [List.length_append] at h3
  exact (points_steps p.points h1 (by omega) hg).append (lines_steps p.lines h2 (by omega))

theorem Payload.parse_extras (p : Payload) (hv : p.Valid) (hg : ∀ x ∈ p.points, GoodCount x.samples.length)
    (xs ys : List (Nat × Extra))
    (hx : ∀ x ∈ xs ++ ys, 0 < x.1 ∧ x.1 < 536870912 ∧ x.1 ≠ 2 ∧ x.1 ≠ 3 ∧ x.2.Valid) :
    Payload.parse (writeExtras xs ++ p.write ++ writeExtras ys) = some p := by
  have h1 := extras_steps (step := Payload.step) xs fun x hm => by
    obtain ⟨a, b, c, d, e⟩ := hx x (by simp [hm]); exact ⟨a, b, Payload.step_unknown c d, e⟩
  have h2 := extras_steps (step := Payload.step) ys fun x hm => by
    obtain ⟨a, b, c, d, e⟩ := hx x (by simp [hm]); exact ⟨a, b, Payload.step_unknown c d, e⟩
  rw [Payload.parse, ((h1.append (Payload.steps p hv hg)).append h2).run {}]
  simp

theorem Point.read_extras (p : Point) (hv : p.Valid) (hl : p.write.length < 4294967296) (xs ys : List (Nat × Extra))
    (hx : ∀ x ∈ xs ++ ys, 7 < x.1 ∧ x.1 < 536870912 ∧ x.2.Valid) :
    mergeLoop Point.step ((writeExtras xs ++ p.write ++ writeExtras ys).length + 1) {} (writeExtras xs ++ p.write ++ writeExtras ys) = some p := by
  have h1 := extras_steps (step := Point.step) xs fun x hm => by
    obtain ⟨a, b, c⟩ := hx x (by simp [hm]); exact ⟨by omega, b, Point.step_unknown a, c⟩
  have h2 := extras_steps (step := Point.step) ys fun x hm => by
    obtain ⟨a, b, c⟩ := hx x (by simp [hm]); exact ⟨by omega, b, Point.step_unknown a, c⟩
  rw [((h1.append (Point.steps p hl hv.2)).append h2).run {}]
  rcases p with ⟨n, s, pe, me, md, ts, bb⟩
  have := setAll_nil md hv.1
  simp [Point.headSet, this]

theorem Line.read_extras (l : Line) (hv : l.Valid) (hl : l.write.length < 4294967296) (xs ys : List (Nat × Extra))
    (hx : ∀ x ∈ xs ++ ys, 4 < x.1 ∧ x.1 < 536870912 ∧ x.2.Valid) :
    mergeLoop Line.step ((writeExtras xs ++ l.write ++ writeExtras ys).length + 1) {} (writeExtras xs ++ l.write ++ writeExtras ys) = some l := by
  have h1 := extras_steps (step := Line.step) xs fun x hm => by
    obtain ⟨a, b, c⟩ := hx x (by simp [hm]); exact ⟨by omega, b, Line.step_unknown a, c⟩
  have h2 := extras_steps (step := Line.step) ys fun x hm => by
    obtain ⟨a, b, c⟩ := hx x (by simp [hm]); exact ⟨by omega, b, Line.step_unknown a, c⟩
  rw [((h1.append (Line.steps l hl hv.2)).append h2).run {}]
  rcases l with ⟨p, v, md, ts⟩
  have := setAll_nil md hv.1
  simp [this]

/-- A payload with one nested message of either kind. -/
theorem Payload.parse_point (body : Bytes) (x : Point) (h : mergeLoop Point.step (body.length + 1) {} body = some x)
    (hl : body.length < 4294967296) : Payload.parse (putTag 2 2 ++ (varint body.length ++ body)) = some { points := [x] } := by
  have hs : Steps Payload.step (putTag 2 2 ++ (varint body.length ++ body)) fun a => { a with points := a.points ++ [x] } :=
    Steps.field (by omega) (by omega) (by omega) fun a rest => by
      rw [List.append_assoc]
      simp only [Payload.step, expect, if_true, readDelimited_append body.length body rest rfl hl, Option.bind_some, h, Option.map_some]
  rw [Payload.parse, hs.run {}]; rfl

theorem Payload.parse_line (body : Bytes) (x : Line) (h : mergeLoop Line.step (body.length + 1) {} body = some x)
    (hl : body.length < 4294967296) : Payload.parse (putTag 3 2 ++ (varint body.length ++ body)) = some { lines := [x] } := by
  have hs : Steps Payload.step (putTag 3 2 ++ (varint body.length ++ body)) fun a => { a with lines := a.lines ++ [x] } :=
    Steps.field (by omega) (by omega) (by omega) fun a rest => by
      rw [List.append_assoc]
      simp only [Payload.step, expect, if_true, readDelimited_append body.length body rest rfl hl, Option.bind_some, h, Option.map_some]
  rw [Payload.parse, hs.run {}]; rfl

theorem unpacked_steps (l : List UInt64) :
    Steps Point.step (l.flatMap fun v => putTag 2 1 ++ leBytes 8 v.toNat) (fun a => { a with samples := a.samples ++ l }) := by
  induction l with
  | nil =>
    have : (fun a : Point => { a with samples := a.samples ++ [] }) = id := by funext a; simp
    rw [this]; exact Steps.nil
  | cons v l ih =>
    rw [List.flatMap_cons]
    have h1 : Steps Point.step (putTag 2 1 ++ leBytes 8 v.toNat) (fun a => { a with samples := a.samples ++ [v] }) :=
      Steps.field (by omega) (by omega) (by omega) fun a rest => by
        simp [Point.step, expect, readDouble_append]
    have h2 := h1.append ih
    have : (fun a : Point => { a with samples := a.samples ++ l }) ∘ (fun a : Point => { a with samples := a.samples ++ [v] }) =
        fun a => { a with samples := a.samples ++ v :: l } := by funext a; simp
    rw [this] at h2; exact h2

theorem packedBounds_steps (l : List UInt64) (h : l.length * 8 < 4294967296) :
    Steps Point.step (putTag 7 2 ++ (varint (l.length * 8) ++ l.flatMap fun v => leBytes 8 v.toNat))
      (fun a => { a with binBounds := a.binBounds ++ l }) :=
  Steps.field (by omega) (by omega) (by omega) fun a rest => by
    have h1 := readDelimited_append (l.length * 8) (l.flatMap fun v => leBytes 8 v.toNat) rest (doubles_length l) h
    have h2 := readDoubles_append l (l.flatMap fun v => leBytes 8 v.toNat).length (by rw [doubles_length]; omega)
    rw [List.append_assoc]
    simp only [Point.step, if_true, h1, Option.bind_some, h2, Option.map_some]

theorem Point.read_other (p : Point) (hv : p.Valid) (hl : p.write.length < 4294967296) (ds bs : List UInt64) (hb : bs.length * 8 < 4294967296) :
    mergeLoop Point.step (((ds.flatMap fun v => putTag 2 1 ++ leBytes 8 v.toNat) ++ p.write ++
        (putTag 7 2 ++ (varint (bs.length * 8) ++ bs.flatMap fun v => leBytes 8 v.toNat))).length + 1) {}
      ((ds.flatMap fun v => putTag 2 1 ++ leBytes 8 v.toNat) ++ p.write ++
        (putTag 7 2 ++ (varint (bs.length * 8) ++ bs.flatMap fun v => leBytes 8 v.toNat))) =
      some { p with samples := ds ++ p.samples, binBounds := p.binBounds ++ bs } := by
  rw [(((unpacked_steps ds).append (Point.steps p hl hv.2)).append (packedBounds_steps bs hb)).run {}]
  rcases p with ⟨n, s, pe, me, md, ts, bb⟩
  have := setAll_nil md hv.1
  simp [Point.headSet, this]

end Verif.Proto
