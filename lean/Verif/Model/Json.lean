import Verif.Model.Tags
/-!
# JSON text

`serde_json` is external: this is its compact writer and its reader as far as cernan uses them (`to_string` on values, `from_str` to a
`Value`), modelled after RFC 8259 and the crate's documentation, for the JSON-encoding filter (src/filter/json_encode_filter.rs:85, 114) and the
Elasticsearch sink (src/sink/elasticsearch.rs:140, 153).  Simplifications: the reader first reads the text as it stands and then settles numbers and repeated
keys (`settle`), where the crate does both at once; conversion of numbers is a parameter; the
members of an object are in the order of the list, which means nothing in JSON, where the crate sorts them by key.
-/
namespace Verif

/-- `serde_json::Value`; a number is kept as text.  Used at src/filter/json_encode_filter.rs:68-129 and src/sink/elasticsearch.rs:126-157. -/
inductive Json where
  | null
  | bool (b : Bool)
  | num (text : Str)
  | str (s : Str)
  | arr (elements : List Json)
  | obj (fields : List (Str × Json))

/-- `serde_json::Map<String, Value>` as an association list.  Used at src/filter/json_encode_filter.rs:145-155. -/
abbrev JsonMap := List (Str × Json)

/-- `Map::get`.  What a reader of src/filter/json_encode_filter.rs:114 gets. -/
def JsonMap.get (m : JsonMap) (k : Str) : Option Json := (m.find? fun kv => kv.1 = k).map Prod.snd

namespace Json

/-! ## Writing -/

/-- A hexadecimal digit as the crate writes it.  For `serde_json::to_string` at src/filter/json_encode_filter.rs:114 and src/sink/elasticsearch.rs:140, 153. -/
def hexDigit (n : Nat) : Char := if n < 10 then Char.ofNat (48 + n) else Char.ofNat (87 + n)

/-- `format_escaped_str_contents`, one character: quotation mark, backslash and control characters are escaped.  For `serde_json::to_string` at src/filter/json_encode_filter.rs:114 and src/sink/elasticsearch.rs:140, 153. -/
def escape (c : Char) : Str :=
  if c = '"' then ['\\', '"']
  else if c = '\\' then ['\\', '\\']
  else if c = '\n' then ['\\', 'n']
  else if c = '\r' then ['\\', 'r']
  else if c = '\t' then ['\\', 't']
  else if c.toNat = 8 then ['\\', 'b']
  else if c.toNat = 12 then ['\\', 'f']
  else if c.toNat < 32 then ['\\', 'u', '0', '0', hexDigit (c.toNat / 16), hexDigit (c.toNat % 16)]
  else [c]

/-- A string between quotation marks.  For `serde_json::to_string` at src/filter/json_encode_filter.rs:114 and src/sink/elasticsearch.rs:140, 153. -/
def quoted (s : Str) : Str := '"' :: (s.flatMap escape ++ ['"'])

mutual
/-- `serde_json::to_string` — called at src/filter/json_encode_filter.rs:114 and src/sink/elasticsearch.rs:140, 153. -/
def write : Json → Str
  | .null => ['n', 'u', 'l', 'l']
  | .bool b => if b then ['t', 'r', 'u', 'e'] else ['f', 'a', 'l', 's', 'e']
  | .num t => t
  | .str s => quoted s
  | .arr vs => '[' :: (writeElements vs ++ [']'])
  | .obj ms => '{' :: (writeMembers ms ++ ['}'])

/-- The elements of an array, separated by commas.  For `serde_json::to_string` at src/filter/json_encode_filter.rs:114 and src/sink/elasticsearch.rs:140, 153. -/
def writeElements : List Json → Str
  | [] => []
  | [v] => write v
  | v :: w :: vs => write v ++ ',' :: writeElements (w :: vs)

/-- The members of an object, separated by commas.  For `serde_json::to_string` at src/filter/json_encode_filter.rs:114 and src/sink/elasticsearch.rs:140, 153. -/
def writeMembers : List (Str × Json) → Str
  | [] => []
  | [(k, v)] => quoted k ++ ':' :: write v
  | (k, v) :: m :: ms => quoted k ++ ':' :: (write v ++ ',' :: writeMembers (m :: ms))
end

/-! ## Reading -/

/-- Whitespace.  For `serde_json::from_str` at src/filter/json_encode_filter.rs:85. -/
def isWs (c : Char) : Bool := c = ' ' || c = '\n' || c = '\t' || c = '\r'

/-- Skipping whitespace.  For `serde_json::from_str` at src/filter/json_encode_filter.rs:85. -/
def skip (s : Str) : Str := s.dropWhile isWs

/-- The value of a hexadecimal digit, in either case.  For `serde_json::from_str` at src/filter/json_encode_filter.rs:85. -/
def hexVal (c : Char) : Option Nat :=
  if 48 ≤ c.toNat ∧ c.toNat ≤ 57 then some (c.toNat - 48)
  else if 97 ≤ c.toNat ∧ c.toNat ≤ 102 then some (c.toNat - 87)
  else if 65 ≤ c.toNat ∧ c.toNat ≤ 70 then some (c.toNat - 55)
  else none

/-- Four hexadecimal digits.  For `serde_json::from_str` at src/filter/json_encode_filter.rs:85. -/
def hex4 (a b c d : Char) : Option Nat :=
  match hexVal a, hexVal b, hexVal c, hexVal d with
  | some a, some b, some c, some d => some (((a * 16 + b) * 16 + c) * 16 + d)
  | _, _, _, _ => none

/-- Escapes of two characters.  For `serde_json::from_str` at src/filter/json_encode_filter.rs:85. -/
def short (e : Char) : Option Char :=
  if e = '"' then some '"'
  else if e = '\\' then some '\\'
  else if e = '/' then some '/'
  else if e = 'b' then some (Char.ofNat 8)
  else if e = 'f' then some (Char.ofNat 12)
  else if e = 'n' then some '\n'
  else if e = 'r' then some '\r'
  else if e = 't' then some '\t'
  else none

/-- Putting a character before a string that has been read.  For `serde_json::from_str` at src/filter/json_encode_filter.rs:85. -/
def before (c : Char) : Option (Str × Str) → Option (Str × Str)
  | some (s, r) => some (c :: s, r)
  | none => none

/-- A string after its opening quotation mark, and the text after it.  For `serde_json::from_str` at src/filter/json_encode_filter.rs:85. -/
def chars : Str → Option (Str × Str)
  | [] => none
  | c :: r =>
    if c = '"' then some ([], r)
    else if c = '\\' then
      match r with
      | [] => none
      | e :: r =>
        if e = 'u' then
          match r with
          | a :: b :: c :: d :: r =>
            match hex4 a b c d with
            | none => none
            | some n =>
              if n < 0xD800 ∨ 0xE000 ≤ n then before (Char.ofNat n) (chars r)
              else if 0xDC00 ≤ n then none
              else
                match r with
                | x :: y :: a :: b :: c :: d :: r =>
                  if x = '\\' ∧ y = 'u' then
                    match hex4 a b c d with
                    | none => none
                    | some m =>
                      if 0xDC00 ≤ m ∧ m < 0xE000 then before (Char.ofNat (0x10000 + (n - 0xD800) * 0x400 + (m - 0xDC00))) (chars r)
                      else none
                  else none
                | _ => none
          | _ => none
        else
          match short e with
          | some c => before c (chars r)
          | none => none
    else if c.toNat < 32 then none
    else before c (chars r)

/-- A digit.  For `serde_json::from_str` at src/filter/json_encode_filter.rs:85. -/
def isDigit (c : Char) : Bool := 48 ≤ c.toNat && c.toNat ≤ 57

/-- The exponent of a number whose text so far is given.  For `serde_json::from_str` at src/filter/json_encode_filter.rs:85. -/
def exponent (sofar : Str) : Str → Option (Str × Str)
  | [] => some (sofar, [])
  | c :: r =>
    if c = 'e' ∨ c = 'E' then
      let (sgn, r) := match r with
        | s :: r' => if s = '+' ∨ s = '-' then ([s], r') else ([], r)
        | [] => ([], [])
      if r.takeWhile isDigit = [] then none
      else some (sofar ++ c :: (sgn ++ r.takeWhile isDigit), r.dropWhile isDigit)
    else some (sofar, c :: r)

/-- The fraction and exponent of a number.  For `serde_json::from_str` at src/filter/json_encode_filter.rs:85. -/
def fraction (sofar : Str) : Str → Option (Str × Str)
  | [] => some (sofar, [])
  | c :: r =>
    if c = '.' then
      if r.takeWhile isDigit = [] then none else exponent (sofar ++ '.' :: r.takeWhile isDigit) (r.dropWhile isDigit)
    else exponent sofar (c :: r)

/-- A number without its sign.  For `serde_json::from_str` at src/filter/json_encode_filter.rs:85. -/
def unsigned (sofar : Str) : Str → Option (Str × Str)
  | [] => none
  | c :: r =>
    if c = '0' then fraction (sofar ++ ['0']) r
    else if isDigit c then fraction (sofar ++ c :: r.takeWhile isDigit) (r.dropWhile isDigit)
    else none

/-- A number.  For `serde_json::from_str` at src/filter/json_encode_filter.rs:85. -/
def number : Str → Option (Str × Str)
  | [] => none
  | c :: r => if c = '-' then unsigned ['-'] r else unsigned [] (c :: r)

/-- A text that must follow.  For `serde_json::from_str` at src/filter/json_encode_filter.rs:85. -/
def expect : Str → Str → Option Str
  | [], s => some s
  | _ :: _, [] => none
  | c :: cs, d :: s => if c = d then expect cs s else none

mutual
/-- A value without whitespace around it, and the text after it.  The first number bounds the steps, the second how deep arrays and objects may still be nested.  For `serde_json::from_str` at src/filter/json_encode_filter.rs:85. -/
def value : Nat → Nat → Str → Option (Json × Str)
  | 0, _, _ => none
  | _ + 1, _, [] => none
  | fuel + 1, depth, c :: r =>
    if c = 'n' then (expect ['u', 'l', 'l'] r).map fun r => (.null, r)
    else if c = 't' then (expect ['r', 'u', 'e'] r).map fun r => (.bool true, r)
    else if c = 'f' then (expect ['a', 'l', 's', 'e'] r).map fun r => (.bool false, r)
    else if c = '"' then (chars r).map fun sr => (.str sr.1, sr.2)
    else if c = '[' then
      match depth, skip r with
      | 0, _ => none
      | _, [] => none
      | depth + 1, d :: r =>
        if d = ']' then some (.arr [], r) else (elements fuel depth (d :: r)).map fun vr => (.arr vr.1, vr.2)
    else if c = '{' then
      match depth, skip r with
      | 0, _ => none
      | _, [] => none
      | depth + 1, d :: r =>
        if d = '}' then some (.obj [], r) else (members fuel depth (d :: r)).map fun mr => (.obj mr.1, mr.2)
    else (number (c :: r)).map fun tr => (.num tr.1, tr.2)

/-- The elements of an array up to its closing bracket.  For `serde_json::from_str` at src/filter/json_encode_filter.rs:85. -/
def elements : Nat → Nat → Str → Option (List Json × Str)
  | 0, _, _ => none
  | fuel + 1, depth, s =>
    match value fuel depth (skip s) with
    | none => none
    | some (v, r) =>
      match skip r with
      | [] => none
      | c :: r =>
        if c = ']' then some ([v], r)
        else if c = ',' then (elements fuel depth r).map fun vr => (v :: vr.1, vr.2)
        else none

/-- The members of an object up to its closing brace.  For `serde_json::from_str` at src/filter/json_encode_filter.rs:85. -/
def members : Nat → Nat → Str → Option (List (Str × Json) × Str)
  | 0, _, _ => none
  | fuel + 1, depth, s =>
    match skip s with
    | [] => none
    | q :: r =>
      if q = '"' then
        match chars r with
        | none => none
        | some (k, r) =>
          match skip r with
          | [] => none
          | c :: r =>
            if c = ':' then
              match value fuel depth (skip r) with
              | none => none
              | some (v, r) =>
                match skip r with
                | [] => none
                | c :: r =>
                  if c = '}' then some ([(k, v)], r)
                  else if c = ',' then (members fuel depth r).map fun mr => ((k, v) :: mr.1, mr.2)
                  else none
            else none
      else none
end

/-- A whole text as it stands, with arrays and objects nested at most so deep.  For `serde_json::from_str` at src/filter/json_encode_filter.rs:85. -/
def read (depth : Nat) (s : Str) : Option Json :=
  match value (2 * s.length + 1) depth (skip s) with
  | some (v, r) => if skip r = [] then some v else none
  | none => none

/-- `Map::insert` for one member after another: the last one of a key stays.  For `serde_json::from_str` at src/filter/json_encode_filter.rs:85. -/
def insertAll (m : List (Str × Json)) : List (Str × Json) → List (Str × Json)
  | [] => m
  | kv :: kvs => insertAll (m.filter (fun x => x.1 ≠ kv.1) ++ [kv]) kvs

mutual
/-- The value a text that has been read stands for: numbers are converted (`num` gives the text they are written as afterwards, and `none` if out of
range), of members with the same key the last one stays.  For `serde_json::from_str` at src/filter/json_encode_filter.rs:85. -/
def settle (num : Str → Option Str) : Json → Option Json
  | .null => some .null
  | .bool b => some (.bool b)
  | .num t => (num t).map .num
  | .str s => some (.str s)
  | .arr vs => (settleElements num vs).map .arr
  | .obj ms => (settleMembers num ms).map fun ms => .obj (insertAll [] ms)

/-- Each element of an array.  For `serde_json::from_str` at src/filter/json_encode_filter.rs:85. -/
def settleElements (num : Str → Option Str) : List Json → Option (List Json)
  | [] => some []
  | v :: vs => match settle num v, settleElements num vs with
    | some v, some vs => some (v :: vs)
    | _, _ => none

/-- Each member of an object.  For `serde_json::from_str` at src/filter/json_encode_filter.rs:85. -/
def settleMembers (num : Str → Option Str) : List (Str × Json) → Option (List (Str × Json))
  | [] => some []
  | (k, v) :: ms => match settle num v, settleMembers num ms with
    | some v, some ms => some ((k, v) :: ms)
    | _, _ => none
end

/-- `serde_json::from_str::<Value>` — called at src/filter/json_encode_filter.rs:86; the crate allows arrays and objects nested 127 deep. -/
def fromStr (num : Str → Option Str) (s : Str) : Option Json := (read 127 s).bind (settle num)

end Json
end Verif
