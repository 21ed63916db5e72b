import Verif.Lemmas.Json
import Verif.Props.Elasticsearch
import Verif.Props.Filter
/-!
# C128, C129: what is written as JSON is read as it was meant

* C128 — the text of a bulk request, line by line, is the JSON of the lines' documents, whatever characters they contain.
* C129 — the JSON-encoding filter's payloads, and which lines it parses.

`Spec/Json` has the grammar.  `C128_reads` and `C128_unique` are what both rest on.
-/
namespace Verif
open Json

/-- The reader takes exactly the texts of the grammar nested at most so deep, and for exactly the value the grammar gives them. -/
theorem C128_reads (n : Nat) (s : Str) (v : Json) : Json.read n s = some v ↔ IsText n v s := read_iff n s v

/-- A text is the text of at most one value: whoever reads it by the grammar reads the same. -/
theorem C128_unique (n m : Nat) (s : Str) (v w : Json) (hv : IsText n v s) (hw : IsText m w s) : v = w := isText_unique hv hw

/-- What is written is a text of the value, without control characters, line ends among them. -/
theorem C128_written (v : Json) (h : Numbers v) : IsText (deep v) v (Json.write v) ∧ ∀ c ∈ Json.write v, 32 ≤ c.toNat :=
  ⟨isText_write v h, write_printable v h⟩

/-- A text is cut into lines in one way. -/
theorem C128_lines (t : Str) (ls ms : List Str) (hl : Lines t ls) (hm : Lines t ms) : ls = ms := lines_unique hl hm

example : Lines ['a', '\n', '\n'] [['a'], []] := ⟨rfl, by decide⟩
example : (Json.read 2 (" { \"a\" : [ 1.5e+3 , \"\\uD83D\\ude00\\n\" ] } ".toList)).map Json.write =
    some (Json.write (.obj [(['a'], .arr [.num "1.5e+3".toList, .str ['😀', '\n']])])) := by decide +kernel
example : (Json.read 1 ("{\"a\":[]}".toList)).isNone = true := by decide +kernel
example : Json.write (.obj [(['a', '"'], .str ['\n', '\\', 'é'])]) = "{\"a\\\"\":\"\\n\\\\é\"}".toList := by decide +kernel

/-! ## C128 -/
section
open Elastic

private theorem flush_docs (ext : Ext) (s s' : State) (resp : Response) (docs : List Doc)
    (h : flush ext s resp = some (s', some docs)) : docsOf ext s s.buffer = some docs := by
  by_cases he : s.buffer = []
  · simp [flush, he] at h
  · simp only [flush, if_neg he, bulkBody] at h
    cases hb : docsOf ext s s.buffer with
    | none => rw [hb] at h; simp at h
    | some ds =>
      rw [hb] at h
      cases resp with
      | sendError => simp only [Option.some.injEq, Prod.mk.injEq] at h; rw [h.2]
      | error => simp only [Option.some.injEq, Prod.mk.injEq] at h; rw [h.2]
      | bulk items =>
        cases ho : onItems s.limit s.buffer items with
        | none => simp [ho] at h
        | some b => simp only [ho, Option.some.injEq, Prod.mk.injEq] at h; rw [h.2]

private theorem docs_ok (ext : Ext) (s : State) : ∀ (ms : List Line) (ds : List Doc), docsOf ext s ms = some ds → ∀ d ∈ ds, d.body.Ok := by
  intro ms
  induction ms with
  | nil => intro ds h; simp only [docsOf, Option.some.injEq] at h; subst h; simp
  | cons m ms ih =>
    intro ds h
    cases h1 : docOf ext s m with
    | none => simp [docsOf, h1] at h
    | some d =>
      cases h2 : docsOf ext s ms with
      | none => simp [docsOf, h1, h2] at h
      | some ds' =>
        simp only [docsOf, h1, h2, Option.some.injEq] at h
        subst h
        intro x hx
        rcases List.mem_cons.1 hx with rfl | hx
        · simp only [docOf] at h1
          cases hi : indexName ext s.indexPrefix m.line.time with
          | none => simp [hi] at h1
          | some index =>
            cases ht : ext.time m.line.time with
            | none => simp [hi, ht] at h1
            | some time =>
              simp only [hi, ht, Option.some.injEq] at h1
              subst h1
              exact TagMap.Ok.setAll (TagMap.Ok.setAll (by simp only [TagMap.Ok, List.map_cons, List.map_nil]; decide) _) _
        · exact ih ds' h2 x hx

private theorem strings_numbers : ∀ m : TagMap, NumbersMembers (m.map fun kv => (kv.1, Json.str kv.2))
  | [] => trivial
  | _ :: m => ⟨trivial, strings_numbers m⟩

private theorem strings_deep : ∀ m : TagMap, deepMembers (m.map fun kv => (kv.1, Json.str kv.2)) = 0
  | [] => rfl
  | _ :: m => by simp only [List.map_cons, deepMembers, deep, strings_deep m]; rfl

private theorem strings_get (m : TagMap) (k : Str) : JsonMap.get (m.map fun kv => (kv.1, Json.str kv.2)) k = (m.get k).map .str := by
  induction m with
  | nil => rfl
  | cons kv m ih =>
    simp only [JsonMap.get] at ih ⊢
    simp only [List.map_cons, List.find?_cons, TagMap.get]
    by_cases h : kv.1 = k
    · simp [h]
    · simp only [h, decide_false, if_false]; exact ih

private theorem strings_keys (m : TagMap) (h : m.Ok) : ((m.map fun kv => (kv.1, Json.str kv.2)).map Prod.fst).Nodup := by
  rw [List.map_map]; exact h

private theorem no_newline {t : Str} (h : ∀ c ∈ t, 32 ≤ c.toNat) : '\n' ∉ t := fun hm => by
  have := h _ hm
  revert this; decide

private theorem bulk_lines : ∀ docs : List Doc, Lines (bulkText docs) (docs.flatMap fun d => [Json.write d.header, Json.write d.payload]) := by
  intro docs
  induction docs with
  | nil => exact ⟨rfl, by simp⟩
  | cons d docs ih =>
    obtain ⟨h1, h2⟩ := ih
    constructor
    · simp only [bulkText, List.flatMap_cons] at h1 ⊢
      rw [h1]; simp
    · intro l hl
      rcases List.mem_append.1 hl with hl | hl
      · simp only [List.mem_cons, List.not_mem_nil, or_false] at hl
        rcases hl with rfl | rfl
        · exact no_newline (write_printable _ (by exact ⟨⟨trivial, trivial, trivial, trivial⟩, trivial⟩))
        · exact no_newline (write_printable _ (strings_numbers d.body))
      · exact h2 l hl

private theorem pairs_get {α β : Type} (f g : α → β) : ∀ (l : List α) (i : Nat),
    (l.flatMap fun x => [f x, g x])[2 * i]? = l[i]?.map f ∧ (l.flatMap fun x => [f x, g x])[2 * i + 1]? = l[i]?.map g := by
  intro l
  induction l with
  | nil => intro i; simp
  | cons x l ih =>
    intro i
    cases i with
    | zero => simp
    | succ i =>
      have := ih i
      rw [show 2 * (i + 1) = 2 * i + 1 + 1 from by omega, show 2 * i + 1 + 1 + 1 = 2 * i + 1 + 1 + 1 from rfl]
      simpa using this

private theorem pairs_length {α β : Type} (f g : α → β) : ∀ l : List α, (l.flatMap fun x => [f x, g x]).length = 2 * l.length := by
  intro l
  induction l with
  | nil => rfl
  | cons x l ih => simp only [List.flatMap_cons, List.length_append, ih, List.length_cons, List.length_nil]; omega

/-- **C128.**  The body of a bulk request has two lines for each waiting log line, in order.  The first is the JSON of an index action with the
line's index, type and id and nothing else.  The second is the JSON of an object that maps each key to the line's field of that name, else to its own or
the sink's tag, else to its id, path, text or time, as they are, whatever characters they contain. -/
theorem C128_bulk (ext : Ext) (s s' : State) (resp : Response) (docs : List Doc)
    (hd : s.tags.Ok) (hb : ∀ m ∈ s.buffer, OwnOk m.line.tags ∧ m.line.fields.Ok)
    (h : flush ext s resp = some (s', some docs)) :
    ∃ ls, Lines (bulkText docs) ls ∧ ls.length = 2 * s.buffer.length ∧
      ∀ (i : Nat) (m : Line), s.buffer[i]? = some m → ∃ first second action object date time,
        ls[2 * i]? = some first ∧ ls[2 * i + 1]? = some second ∧
        ext.date m.line.time = some date ∧ ext.time m.line.time = some time ∧
        IsText 2 (.obj [("index".toList, .obj action)]) first ∧ (action.map Prod.fst).Nodup ∧
        (∀ k, JsonMap.get action k =
          if k = "_index".toList then some (.str (match s.indexPrefix with | some p => p ++ '-' :: date | none => date))
          else if k = "_type".toList then some (.str s.indexType)
          else if k = "_id".toList then some (.str (ext.showId m.uuid)) else none) ∧
        IsText 1 (.obj object) second ∧ (object.map Prod.fst).Nodup ∧
        ∀ k, JsonMap.get object k =
          (((m.line.fields.get k).or (getFromTags m.line.tags k s.tags)).or
            (if "uuid".toList = k then some (ext.showId m.uuid)
             else if "path".toList = k then some m.line.path
             else if "payload".toList = k then some m.line.value
             else if "timestamp".toList = k then some time else none)).map .str := by
  obtain ⟨hlen, hdoc⟩ := C76_documents ext s s' resp docs hd hb h
  have hok := docs_ok ext s s.buffer docs (flush_docs ext s s' resp docs h)
  refine ⟨_, bulk_lines docs, by rw [pairs_length, hlen], fun i m hm => ?_⟩
  have hi : i < docs.length := by rw [hlen]; exact (List.getElem?_eq_some_iff.1 hm).1
  have hdi : docs[i]? = some docs[i] := List.getElem?_eq_getElem hi
  obtain ⟨h1, h2, ⟨date, hdate, h3⟩, time, htime, h4⟩ := hdoc i m docs[i] hm hdi
  obtain ⟨g1, g2⟩ := pairs_get (fun d : Doc => Json.write d.header) (fun d => Json.write d.payload) docs i
  refine ⟨_, _, _, _, date, time, by rw [g1, hdi]; rfl, by rw [g2, hdi]; rfl, hdate, htime,
    isText_write docs[i].header ⟨⟨trivial, trivial, trivial, trivial⟩, trivial⟩, by simp only [List.map_cons, List.map_nil]; decide, fun k => ?_, ?_,
    strings_keys _ (hok _ (List.getElem_mem hi)), fun k => ?_⟩
  · rw [h1, h2, h3]
    by_cases k1 : k = "_id".toList
    · subst k1; rfl
    · by_cases k2 : k = "_index".toList
      · subst k2; rfl
      · by_cases k3 : k = "_type".toList
        · subst k3; rfl
        · rw [if_neg k2, if_neg k3, if_neg k1]
          simp only [JsonMap.get, List.find?_cons, decide_eq_false (Ne.symm k1), decide_eq_false (Ne.symm k2), decide_eq_false (Ne.symm k3), List.find?_nil,
            Option.map_none]
  · have := isText_write docs[i].payload (strings_numbers docs[i].body)
    simp only [Doc.payload, deep, strings_deep, Nat.zero_add] at this
    exact this
  · rw [strings_get, h4]

/-- A line with a line end, quotation marks and a field. -/
example : (flush esExt (deliverLine (Elastic.init 3 none ['t'] []) 1 ⟨5, ['p'], "say \"hi\"\n".toList, [(['f'], ['\t'])], none⟩) .error).map
    (fun r => r.2.map fun ds => bulkText ds) =
    some (some ("{\"index\":{\"_id\":\"1\",\"_index\":\"D\",\"_type\":\"t\"}}\n" ++
      "{\"uuid\":\"1\",\"path\":\"p\",\"payload\":\"say \\\"hi\\\"\\n\",\"timestamp\":\"T\",\"f\":\"\\t\"}\n").toList) := by decide +kernel
end

/-! ## C129 -/
section
variable {F : Type} [F64 F]

/-- **C129 (what is parsed).**  A line is parsed exactly if it is a JSON text nested at most 127 deep with numbers in range; what it is parsed as is what
the text stands for. -/
theorem C129_parsed (num : Str → Option Str) (line : Str) :
    (∀ v, Json.fromStr num line = some v → ∃ w, IsText 127 w line ∧ Stands num w v) ∧
    (Json.fromStr num line = none ↔ ∀ w v, IsText 127 w line → ¬ Stands num w v) :=
  ⟨fun _ h => fromStr_some h, fromStr_none⟩

private theorem get_mem {o : JsonMap} {k : Str} {v : Json} (h : JsonMap.get o k = some v) : (k, v) ∈ o := by
  simp only [JsonMap.get, Option.map_eq_some_iff] at h
  obtain ⟨kv, h1, rfl⟩ := h
  have := List.find?_some h1
  simp only [decide_eq_true_eq] at this
  subst this
  exact List.mem_of_find?_eq_some h1

private theorem mem_get {o : JsonMap} (hn : (o.map Prod.fst).Nodup) {kv : Str × Json} (h : kv ∈ o) : JsonMap.get o kv.1 = some kv.2 := by
  induction o with
  | nil => simp at h
  | cons x o ih =>
    simp only [List.map_cons, List.nodup_cons] at hn
    simp only [JsonMap.get, List.find?_cons]
    rcases List.mem_cons.1 h with rfl | h
    · simp
    · have : x.1 ≠ kv.1 := fun e => hn.1 (by rw [e]; exact List.mem_map_of_mem h)
      simp only [decide_eq_false this]
      exact ih hn.2 h

/-- **C129 (what is written).**  Each log line becomes one raw event whose bytes are the UTF-8 of a JSON text without control characters, of the object that
maps each key to the first of: the line itself (the object it is parsed as, if lines are to be parsed and this one is the text of an object, else
`message` with its text), its fields, and time, path and tags. -/
theorem C129_payload (num : Str → Option Str) (hnum : ∀ t u, num t = some u → IsNumber u) (rfc : Int → Str) (now : Int) (s : JsonEncode) (l : LogLine) :
    ∃ obj r text, jsonProcess (.serde num rfc) now s (.log l : Event F) [] = ({ s with drawn := s.drawn + 1 }, [.raw r], .ok ()) ∧
      r.encoding = .json ∧ r.bytes = text.flatMap String.utf8EncodeChar ∧ (∃ n, IsText n (.obj obj) text) ∧ (∀ c ∈ text, 32 ≤ c.toNat) ∧
      (obj.map Prod.fst).Nodup ∧
      ∀ k, JsonMap.get obj k =
        ((match (if s.parseLine then Json.fromStr num l.value else none) with
          | some (.obj o) => JsonMap.get o k
          | _ => if k = ['m', 'e', 's', 's', 'a', 'g', 'e'] then some (.str l.value) else none).or
          ((l.fields.get k).map .str)).or
        (if k = ['t', 'i', 'm', 'e'] then some (.str (rfc l.time))
         else if k = ['p', 'a', 't', 'h'] then some (.str l.path)
         else if k = ['t', 'a', 'g', 's'] then
           some (.obj ((tagIter l.tags s.tags).collect.map fun (kv : Str × Str) => (kv.1, Json.str kv.2)))
         else none) := by
  obtain ⟨obj, r, h1, -, h2, h3, -, -, h4, h5⟩ := (C22_json_precedence (F := F) (.serde num rfc) now s).1 l
  have hobj : NumbersMembers obj := by
    refine (numbersMembers_iff _).2 fun kv hkv => ?_
    have hg := mem_get h4 hkv
    rw [h5 kv.1, Option.or_eq_some_iff, Option.or_eq_some_iff] at hg
    rcases hg with (hg | ⟨-, hg⟩) | ⟨-, hg⟩
    · cases hp : (if s.parseLine then (JsonExt.serde num rfc).parse l.value else none) with
      | none =>
        rw [hp] at hg
        by_cases hk : kv.1 = ['m', 'e', 's', 's', 'a', 'g', 'e']
        · simp only [if_pos hk, Option.some.injEq] at hg; rw [← hg]; trivial
        · simp [if_neg hk] at hg
      | some v =>
        have hv : Numbers v := by
          cases hl : s.parseLine with
          | false => simp [hl] at hp
          | true =>
            simp only [hl, if_true, JsonExt.serde, Json.fromStr, Option.bind_eq_some_iff] at hp
            obtain ⟨w, -, hw⟩ := hp
            exact settle_numbers hnum w v hw
        rw [hp] at hg
        cases v with
        | obj o => exact (numbersMembers_iff o).1 hv _ (get_mem hg)
        | _ =>
          by_cases hk : kv.1 = ['m', 'e', 's', 's', 'a', 'g', 'e']
          · simp only [if_pos hk, Option.some.injEq] at hg; rw [← hg]; trivial
          · simp [if_neg hk] at hg
    · simp only [Option.map_eq_some_iff] at hg
      obtain ⟨a, -, ha⟩ := hg
      rw [← ha]; trivial
    · by_cases k1 : kv.1 = ['t', 'i', 'm', 'e']
      · simp only [if_pos k1, Option.some.injEq] at hg; rw [← hg]; trivial
      · by_cases k2 : kv.1 = ['p', 'a', 't', 'h']
        · simp only [if_neg k1, if_pos k2, Option.some.injEq] at hg; rw [← hg]; trivial
        · by_cases k3 : kv.1 = ['t', 'a', 'g', 's']
          · simp only [if_neg k1, if_neg k2, if_pos k3, Option.some.injEq] at hg; rw [← hg]; exact strings_numbers _
          · simp [if_neg k1, if_neg k2, if_neg k3] at hg
  exact ⟨obj, r, Json.write (.obj obj), h1, h2, h3, ⟨_, isText_write (.obj obj) hobj⟩, write_printable (.obj obj) hobj, h4, h5⟩

/-- Of two members of one name the last counts; a field does not replace a member of the line. -/
example : ((jsonProcess (F := Int) (.serde some fun _ => ['T']) 0 { parseLine := true, tags := [], rand := fun _ => 0 }
      (.log ⟨5, ['p'], " {\"a\":[1], \"a\":\"\\u0041\\n\"}".toList, [(['a'], ['x'])], none⟩) []).2.1.map
      fun e => match e with | .raw r => r.bytes | _ => []) =
    [("{\"a\":\"A\\n\",\"time\":\"T\",\"path\":\"p\",\"tags\":{}}".toList).flatMap String.utf8EncodeChar] := by
  decide +kernel
/-- 128 brackets are one too deep; an object followed by anything is no object. -/
example : (Json.fromStr some (List.replicate 127 '[' ++ List.replicate 127 ']')).isSome = true ∧
    (Json.fromStr some (List.replicate 128 '[' ++ List.replicate 128 ']')).isNone = true ∧
    (Json.fromStr some "{} x".toList).isNone = true ∧ (Json.fromStr some "{\"a\":01}".toList).isNone = true := by decide +kernel
/-- The conversion of numbers may refuse some: `C129_payload`'s hypothesis is met by every conversion to texts of numbers. -/
example : ∀ t u : Str, (fun t => if t = ['1'] then some ['1', '.', '0'] else none) t = some u → IsNumber u := by
  intro t u h
  by_cases ht : t = ['1']
  · simp only [if_pos ht, Option.some.injEq] at h
    subst h
    exact (number_sound ['1', '.', '0'] _ [] (by rfl)).2
  · simp [if_neg ht] at h
end

end Verif
