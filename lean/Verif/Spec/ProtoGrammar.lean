import Verif.Spec.Native
/-!
# What a message of the native protocol is

After the protocol buffers' documentation ("Encoding") and resources/protobufs/native.proto: which bytes are a message, and what the
message says.  Nothing here refers to how messages are read.
-/
namespace Verif.Proto
open Native

/-- The number whose digits to base 128, least significant first, are the lower seven bits of the bytes. -/
def digits : Bytes → Nat
  | [] => 0
  | b :: bs => b.toNat % 128 + 128 * digits bs

/-- These bytes are the number `v`: one to ten of them, all but the last with the top bit set.  Of larger numbers 64 bits remain. -/
def IsVarint (bs : Bytes) (v : Nat) : Prop :=
  bs.length ≤ 10 ∧ (∃ init last, bs = init ++ [last] ∧ (∀ b ∈ init, 128 ≤ b.toNat) ∧ last.toNat < 128) ∧
    v = digits bs % 2 ^ 64

/-- What a field holds: a number, eight bytes, any number of bytes, or four bytes. -/
inductive Content where
  | number (v : Nat)
  | eight (b : Bytes)
  | text (b : Bytes)
  | four (b : Bytes)
deriving DecidableEq

/-- Its wire type. -/
def Content.wire : Content → Nat
  | .number _ => 0 | .eight _ => 1 | .text _ => 2 | .four _ => 5

/-- These bytes are that content. -/
def IsContent (bs : Bytes) : Content → Prop
  | .number v => IsVarint bs v
  | .eight b => bs = b ∧ b.length = 8
  | .text b => ∃ len n, bs = len ++ b ∧ IsVarint len n ∧ b.length = n % 2 ^ 32
  | .four b => bs = b ∧ b.length = 4

/-- These bytes are a field: its number (not zero) and wire type in one varint, of which 32 bits count, and the content. -/
def IsField (bs : Bytes) (x : Nat × Content) : Prop :=
  ∃ tag t body, bs = tag ++ body ∧ IsVarint tag t ∧ t % 2 ^ 32 = x.1 * 8 + x.2.wire ∧ x.1 ≠ 0 ∧ IsContent body x.2

/-- These bytes are a message with these fields. -/
inductive IsMessage : Bytes → List (Nat × Content) → Prop
  | nil : IsMessage [] []
  | cons {a b x xs} : IsField a x → IsMessage b xs → IsMessage (a ++ b) (x :: xs)

/-- The contents of the fields with number `f`, in order. -/
def contents (f : Nat) (xs : List (Nat × Content)) : List Content := (xs.filter fun x => x.1 = f).map (·.2)

/-- A string: its UTF-8 bytes. -/
def IsText (c : Content) (s : Str) : Prop := c = .text (utf8 s)

/-- Doubles: one, or several packed into one field. -/
def IsDoubles (c : Content) (ds : List UInt64) : Prop :=
  (∃ d, ds = [d] ∧ c = .eight (leBytes 8 d.toNat)) ∨ c = .text (ds.flatMap fun d => leBytes 8 d.toNat)

/-- A flag: false is zero. -/
def IsFlag (c : Content) (b : Bool) : Prop := ∃ v, c = .number v ∧ (b = true ↔ v % 2 ^ 32 ≠ 0)

/-- An aggregation method: `SUM = 1`, `SET = 2`, `SUMMARIZE = 3`, `BIN = 4`. -/
def IsMethod (c : Content) (m : Method) : Prop :=
  ∃ v, c = .number v ∧ v % 2 ^ 32 = match m with | .sum => 1 | .set => 2 | .summarize => 3 | .bin => 4

/-- A time in milliseconds, in two's complement. -/
def IsTime (c : Content) (t : Int) : Prop := InI64 t ∧ ∃ v : Nat, c = .number v ∧ (v : Int) = t % 2 ^ 64

/-- A string with the fields numbered `f`: the last one holds; empty if there is none. -/
def StringIn (f : Nat) (xs : List (Nat × Content)) (s : Str) : Prop :=
  ∃ ss, Each IsText (contents f xs) ss ∧ s = ss.getLast?.getD []

/-- A tag: a message with a key and a value. -/
def IsEntry (c : Content) (kv : Str × Str) : Prop :=
  ∃ b xs, c = .text b ∧ IsMessage b xs ∧ StringIn 1 xs kv.1 ∧ StringIn 2 xs kv.2

/-- The tags in the fields numbered `f`, of several with the same key the last. -/
def TagsIn (f : Nat) (xs : List (Nat × Content)) (m : TagMap) : Prop :=
  ∃ kvs, Each IsEntry (contents f xs) kvs ∧ m = kvs.foldl (fun (m : TagMap) kv => TagMap.set m kv.1 kv.2) []

/-- The point a message with these fields describes.  A field that occurs again replaces the earlier one, repeated fields add up, and
fields with other numbers mean nothing. -/
def PointOf (xs : List (Nat × Content)) (p : Point) : Prop :=
  (∃ l, Each IsText (contents 1 xs) l ∧ p.name = l.getLast?) ∧
  (∃ l, Each IsDoubles (contents 2 xs) l ∧ p.samples = l.flatten) ∧
  (∃ l, Each IsFlag (contents 3 xs) l ∧ p.persisted = l.getLast?) ∧
  (∃ l, Each IsMethod (contents 4 xs) l ∧ p.method = l.getLast?) ∧
  TagsIn 5 xs p.metadata ∧
  (∃ l, Each IsTime (contents 6 xs) l ∧ p.timestampMs = l.getLast?) ∧
  (∃ l, Each IsDoubles (contents 7 xs) l ∧ p.binBounds = l.flatten)

/-- The line a message with these fields describes. -/
def LineOf (xs : List (Nat × Content)) (l : Line) : Prop :=
  (∃ ss, Each IsText (contents 1 xs) ss ∧ l.path = ss.getLast?) ∧
  (∃ ss, Each IsText (contents 2 xs) ss ∧ l.value = ss.getLast?) ∧
  TagsIn 3 xs l.metadata ∧
  (∃ ts, Each IsTime (contents 4 xs) ts ∧ l.timestampMs = ts.getLast?)

/-- These bytes are a payload that says `p`: its points are the messages in the fields numbered 2, its lines those in the fields
numbered 3. -/
def IsPayload (bs : Bytes) (p : Payload) : Prop :=
  ∃ xs, IsMessage bs xs ∧
    Each (fun c x => ∃ b ys, c = .text b ∧ IsMessage b ys ∧ PointOf ys x) (contents 2 xs) p.points ∧
    Each (fun c x => ∃ b ys, c = .text b ∧ IsMessage b ys ∧ LineOf ys x) (contents 3 xs) p.lines

/-! ## What the source should make of it -/

section
variable {F : Type} [F64 F]

/-- The value for these samples, the first of which is `x`: for a set the last one, for a sum their sum, for a summary a sketch with
error bound 0.001 of all of them, for a histogram their distribution over the bounds 1, 10, 100 and 1000 (the bounds in the message are
not looked at). -/
def ValueIs (x : F) (xs : List F) : Method → Value F → Prop
  | .set, v => v = .set (xs.getLast?.getD x)
  | .sum, v => v = .sum (xs.foldl F64.add x)
  | .summarize, v => v = .quantiles ((x :: xs).foldl F64.ckmsInsert (F64.ckmsNew (F64.div (F64.ofNat 1) (F64.ofNat 1000)))) (xs.foldl F64.add x)
  | .bin, v => ∃ h, F64.histNew [F64.ofNat 1, F64.ofNat 10, F64.ofNat 100, F64.ofNat 1000] = some h ∧ v = .histogram ((x :: xs).foldl F64.histInsert h)

/-- `t` is the point `p` as received.  What the message leaves out: the name is empty, the method is `SUMMARIZE`, it does not persist, the
time is 0. -/
structure Received (bits : Bits F) (p : Point) (t : Telemetry F) : Prop where
  name : t.name = p.name.getD []
  persist : t.persist = p.persisted.getD false
  tags : ∀ k, getFromTags t.tags k [] = p.metadata.get k
  time : ∀ ms, ms = p.timestampMs.getD 0 → -2251799813685248 ≤ ms → ms ≤ 2251799813685248 → t.timestamp = ms.tdiv 1000
  value : ∃ x xs, p.samples.map bits.ofBits = x :: xs ∧ ValueIs x xs (p.method.getD .summarize) t.value
  count : t.overrideCount = none ∧ t.overrideSampleSum = none

/-- `l` is the line `p` as received. -/
structure ReceivedLine (p : Line) (l : LogLine) : Prop where
  path : l.path = p.path.getD []
  value : l.value = p.value.getD []
  tags : ∀ k, getFromTags l.tags k [] = p.metadata.get k
  time : ∀ ms, ms = p.timestampMs.getD 0 → -2251799813685248 ≤ ms → ms ≤ 2251799813685248 → l.time = ms.tdiv 1000
  fields : l.fields = []

end
end Verif.Proto
