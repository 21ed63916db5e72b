import Verif.Model.Json
/-!
# JSON texts (C128, C129)

The grammar of RFC 8259, independent of the writer and of the reader.
-/
namespace Verif.Json

/-- Only blanks, tabs and line ends. -/
def Blank (w : Str) : Prop := ∀ c ∈ w, c = ' ' ∨ c = '\t' ∨ c = '\n' ∨ c = '\r'

/-- Digits only. -/
def Digits (t : Str) : Prop := ∀ c ∈ t, '0' ≤ c ∧ c ≤ '9'

/-- `[ minus ] int [ frac ] [ exp ]` -/
def IsNumber (t : Str) : Prop :=
  ∃ sign int frac exp, t = sign ++ int ++ frac ++ exp ∧
    (sign = [] ∨ sign = ['-']) ∧
    (int = ['0'] ∨ ∃ d ds, int = d :: ds ∧ '1' ≤ d ∧ d ≤ '9' ∧ Digits ds) ∧
    (frac = [] ∨ ∃ ds, frac = '.' :: ds ∧ ds ≠ [] ∧ Digits ds) ∧
    (exp = [] ∨ ∃ e s ds, exp = e :: (s ++ ds) ∧ (e = 'e' ∨ e = 'E') ∧ (s = [] ∨ s = ['+'] ∨ s = ['-']) ∧ ds ≠ [] ∧ Digits ds)

/-- The value of a hexadecimal digit. -/
inductive HexDigit : Char → Nat → Prop where
  | digit (n : Nat) (h : n < 10) : HexDigit (Char.ofNat ('0'.toNat + n)) n
  | lower (n : Nat) (h : n < 6) : HexDigit (Char.ofNat ('a'.toNat + n)) (10 + n)
  | upper (n : Nat) (h : n < 6) : HexDigit (Char.ofNat ('A'.toNat + n)) (10 + n)

/-- Four hexadecimal digits and their value. -/
def Hex4 (t : Str) (n : Nat) : Prop :=
  ∃ a b c d x y z w, t = [a, b, c, d] ∧ HexDigit a x ∧ HexDigit b y ∧ HexDigit c z ∧ HexDigit d w ∧
    n = x * 4096 + y * 256 + z * 16 + w

/-- The characters that have an escape of their own. -/
def shortEscapes : List (Char × Char) :=
  [('"', '"'), ('\\', '\\'), ('/', '/'), ('b', '\x08'), ('f', '\x0c'), ('n', '\n'), ('r', '\r'), ('t', '\t')]

/-- What may stand for a character inside a string. -/
inductive CharText : Str → Char → Prop where
  | plain (c : Char) (h : 32 ≤ c.toNat) (hq : c ≠ '"') (hb : c ≠ '\\') : CharText [c] c
  | short (e c : Char) (h : (e, c) ∈ shortEscapes) : CharText ['\\', e] c
  | hex (t : Str) (c : Char) (h : Hex4 t c.toNat) : CharText ('\\' :: 'u' :: t) c
  | pair (t u : Str) (hi lo : Nat) (c : Char) (ht : Hex4 t hi) (hu : Hex4 u lo) (hhi : 0xD800 ≤ hi ∧ hi < 0xDC00)
      (hlo : 0xDC00 ≤ lo ∧ lo < 0xE000) (hc : c.toNat = 0x10000 + (hi - 0xD800) * 0x400 + (lo - 0xDC00)) :
      CharText ('\\' :: 'u' :: (t ++ '\\' :: 'u' :: u)) c

/-- The text of a string, without its quotation marks. -/
inductive StringText : Str → Str → Prop where
  | nil : StringText [] []
  | cons (t : Str) (c : Char) (ts s : Str) (h : CharText t c) (hs : StringText ts s) : StringText (t ++ ts) (c :: s)

/-- What a text can be a text of: a value, or what stands between the brackets of an array or the braces of an object that is not empty. -/
inductive Phrase where
  | value (v : Json)
  | elements (vs : List Json)
  | members (ms : List (Str × Json))

/-- The texts of a phrase in which arrays and objects are nested at most so deep. -/
inductive Text : Nat → Phrase → Str → Prop where
  | null (n : Nat) : Text n (.value .null) ['n', 'u', 'l', 'l']
  | true (n : Nat) : Text n (.value (.bool true)) ['t', 'r', 'u', 'e']
  | false (n : Nat) : Text n (.value (.bool false)) ['f', 'a', 'l', 's', 'e']
  | num (n : Nat) (t : Str) (h : IsNumber t) : Text n (.value (.num t)) t
  | str (n : Nat) (t s : Str) (h : StringText t s) : Text n (.value (.str s)) ('"' :: (t ++ ['"']))
  | empty (n : Nat) (w : Str) (h : Blank w) : Text (n + 1) (.value (.arr [])) ('[' :: (w ++ [']']))
  | arr (n : Nat) (vs : List Json) (t : Str) (h : Text n (.elements vs) t) : Text (n + 1) (.value (.arr vs)) ('[' :: (t ++ [']']))
  | none (n : Nat) (w : Str) (h : Blank w) : Text (n + 1) (.value (.obj [])) ('{' :: (w ++ ['}']))
  | obj (n : Nat) (ms : List (Str × Json)) (t : Str) (h : Text n (.members ms) t) : Text (n + 1) (.value (.obj ms)) ('{' :: (t ++ ['}']))
  | last (n : Nat) (v : Json) (a t b : Str) (ha : Blank a) (h : Text n (.value v) t) (hb : Blank b) : Text n (.elements [v]) (a ++ (t ++ b))
  | more (n : Nat) (v : Json) (vs : List Json) (a t b u : Str) (ha : Blank a) (h : Text n (.value v) t) (hb : Blank b)
      (hs : Text n (.elements vs) u) : Text n (.elements (v :: vs)) (a ++ (t ++ (b ++ ',' :: u)))
  | lastMember (n : Nat) (k : Str) (v : Json) (a q b c t d : Str) (ha : Blank a) (hq : StringText q k) (hb : Blank b) (hc : Blank c)
      (h : Text n (.value v) t) (hd : Blank d) : Text n (.members [(k, v)]) (a ++ '"' :: (q ++ '"' :: (b ++ ':' :: (c ++ (t ++ d)))))
  | moreMembers (n : Nat) (k : Str) (v : Json) (ms : List (Str × Json)) (a q b c t d u : Str) (ha : Blank a) (hq : StringText q k) (hb : Blank b)
      (hc : Blank c) (h : Text n (.value v) t) (hd : Blank d) (hs : Text n (.members ms) u) :
      Text n (.members ((k, v) :: ms)) (a ++ '"' :: (q ++ '"' :: (b ++ ':' :: (c ++ (t ++ (d ++ ',' :: u))))))

/-- A JSON text of a value, with arrays and objects nested at most `n` deep. -/
def IsText (n : Nat) (v : Json) (s : Str) : Prop := ∃ a t b, s = a ++ (t ++ b) ∧ Blank a ∧ Text n (.value v) t ∧ Blank b

mutual
/-- How deep arrays and objects are nested. -/
def deep : Json → Nat
  | .arr vs => deepElements vs + 1
  | .obj ms => deepMembers ms + 1
  | _ => 0

/-- The deepest of the elements. -/
def deepElements : List Json → Nat
  | [] => 0
  | v :: vs => max (deep v) (deepElements vs)

/-- The deepest of the members. -/
def deepMembers : List (Str × Json) → Nat
  | [] => 0
  | (_, v) :: ms => max (deep v) (deepMembers ms)
end

mutual
/-- Every number is the text of a number. -/
def Numbers : Json → Prop
  | .num t => IsNumber t
  | .arr vs => NumbersElements vs
  | .obj ms => NumbersMembers ms
  | _ => True

/-- In each element. -/
def NumbersElements : List Json → Prop
  | [] => True
  | v :: vs => Numbers v ∧ NumbersElements vs

/-- In each member. -/
def NumbersMembers : List (Str × Json) → Prop
  | [] => True
  | (_, v) :: ms => Numbers v ∧ NumbersMembers ms
end

/-- A value as it was written, and the value it is read as: numbers are converted, each key has the value of its last member. -/
inductive Stands (num : Str → Option Str) : Json → Json → Prop where
  | null : Stands num .null .null
  | bool (b : Bool) : Stands num (.bool b) (.bool b)
  | str (s : Str) : Stands num (.str s) (.str s)
  | num (t u : Str) (h : num t = some u) : Stands num (.num t) (.num u)
  | arr (vs ws : List Json) (hl : vs.length = ws.length) (h : ∀ (i : Nat) (v w : Json), vs[i]? = some v → ws[i]? = some w → Stands num v w) :
      Stands num (.arr vs) (.arr ws)
  | obj (ms : List (Str × Json)) (ws : List Json) (os : JsonMap) (hl : ms.length = ws.length)
      (h : ∀ (i : Nat) (kv : Str × Json) (w : Json), ms[i]? = some kv → ws[i]? = some w → Stands num kv.2 w)
      (hd : (os.map Prod.fst).Nodup)
      (hk : ∀ k, os.get k = JsonMap.get ((ms.map Prod.fst).zip ws).reverse k) : Stands num (.obj ms) (.obj os)

/-- The lines of a text, each with a line end after it. -/
def Lines (t : Str) (ls : List Str) : Prop := t = ls.flatMap (fun l => l ++ ['\n']) ∧ ∀ l ∈ ls, '\n' ∉ l

end Verif.Json
