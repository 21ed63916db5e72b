import Verif.Model.Event
import Verif.Model.Json
/-!
# The Elasticsearch sink

Models src/sink/elasticsearch.rs.  A `Uuid` is a number.  The HTTP client is a script of
responses, counters and debug logging are not
modelled.
-/
namespace Verif
namespace Elastic

/-- `chrono` and `uuid`: `format_time` and the date of `idx` — src/sink/elasticsearch.rs:360-374
(`none` is the panic of `NaiveDateTime::from_timestamp` on a time out of range), and the
hyphenated form of a `Uuid`. -/
structure Ext where
  time : Int → Option Str
  date : Int → Option Str
  showId : Nat → Str

/-- `Line` — src/sink/elasticsearch.rs:104-108; `attempts` is a `u8`. -/
structure Line where
  attempts : Nat
  uuid : Nat
  line : LogLine
deriving DecidableEq

/-- `Elasticsearch` — src/sink/elasticsearch.rs:113-123, without the address of the server. -/
structure State where
  buffer : List Line
  limit : Nat
  indexPrefix : Option Str
  indexType : Str
  tags : TagMap
deriving DecidableEq

/-- One entry of a bulk response: was the line written, and the id if it parses as a `Uuid`.  The loop over them is in src/sink/elasticsearch.rs:180-335. -/
structure Item where
  ok : Bool
  id : Option Nat
deriving DecidableEq

/-- What comes back from the request: `send` fails, the response is an error, or a list of
items.  Matched at src/sink/elasticsearch.rs:180-335. -/
inductive Response where
  | sendError
  | error
  | bulk (items : List Item)
deriving DecidableEq

/-- The two JSON lines of one log line in the bulk request — src/sink/elasticsearch.rs:126-157. -/
structure Doc where
  index : Str
  type : Str
  id : Str
  body : TagMap
deriving DecidableEq

/-- `idx` — src/sink/elasticsearch.rs:367-374. -/
def indexName (ext : Ext) (pfx : Option Str) (time : Int) : Option Str :=
  (ext.date time).map fun d => match pfx with
    | some p => p ++ '-' :: d
    | none => d

/-- The body of the loop of `bulk_body` — src/sink/elasticsearch.rs:129-155; `none` is a panic.
The object is an association list: `insert` replaces. -/
def docOf (ext : Ext) (s : State) (m : Line) : Option Doc :=
  match indexName ext s.indexPrefix m.line.time, ext.time m.line.time with
  | some index, some time =>
    let base : TagMap := [("uuid".toList, ext.showId m.uuid), ("path".toList, m.line.path),
      ("payload".toList, m.line.value), ("timestamp".toList, time)]
    let obj := base.setAll (tagIter m.line.tags s.tags).collect
    let obj := obj.setAll m.line.fields
    some { index := index, type := s.indexType, id := ext.showId m.uuid, body := obj }
  | _, _ => none

/-- The loop of `bulk_body` — src/sink/elasticsearch.rs:126-157. -/
def docsOf (ext : Ext) (s : State) : List Line → Option (List Doc)
  | [] => some []
  | m :: ms => match docOf ext s m, docsOf ext s ms with
    | some d, some ds => some (d :: ds)
    | _, _ => none

/-- `bulk_body` — src/sink/elasticsearch.rs:126-156. -/
def bulkBody (ext : Ext) (s : State) : Option (List Doc) :=
  if s.buffer = [] then none else docsOf ext s s.buffer

/-- The first JSON line of a document — src/sink/elasticsearch.rs:133-139. -/
def Doc.header (d : Doc) : Json :=
  .obj [("index".toList, .obj [("_id".toList, .str d.id), ("_index".toList, .str d.index), ("_type".toList, .str d.type)])]

/-- The second — src/sink/elasticsearch.rs:142-152. -/
def Doc.payload (d : Doc) : Json := .obj (d.body.map fun kv => (kv.1, .str kv.2))

/-- The text of a bulk request — src/sink/elasticsearch.rs:140-141, 153-154. -/
def bulkText (docs : List Doc) : Str :=
  docs.flatMap fun d => Json.write d.header ++ '\n' :: (Json.write d.payload ++ ['\n'])

/-- The search for an id in the buffer — src/sink/elasticsearch.rs:203-211, 219-227: the number
of lines before the first with this id. -/
def position : List Line → Nat → Nat
  | [], _ => 0
  | l :: ls, u => if l.uuid = u then 0 else position ls u + 1

/-- One item of the response — src/sink/elasticsearch.rs:198-268; `none` is a panic (an id that
does not parse or is not in the buffer).  The `u8` wraps as in a release build. -/
def onItem (limit : Nat) (buffer : List Line) (item : Item) : Option (List Line) :=
  match item.id with
  | none => none
  | some u =>
    let idx := position buffer u
    match buffer[idx]? with
    | none => none
    | some l =>
      if item.ok then some (buffer.eraseIdx idx)
      else
        let attempts := (l.attempts + 1) % 256
        let buffer := buffer.set idx { l with attempts := attempts }
        some (if attempts > limit then buffer.eraseIdx idx else buffer)

/-- The loop over the items of a response — in src/sink/elasticsearch.rs:180-335. -/
def onItems (limit : Nat) : List Line → List Item → Option (List Line)
  | buffer, [] => some buffer
  | buffer, it :: its => match onItem limit buffer it with
    | none => none
    | some b => onItems limit b its

/-- `flush` — src/sink/elasticsearch.rs:180-336: the new state and the request made, if any;
`none` is a panic. -/
def flush (ext : Ext) (s : State) (resp : Response) : Option (State × Option (List Doc)) :=
  if s.buffer = [] then some (s, none)
  else match bulkBody ext s with
    | none => none
    | some docs => match resp with
      | .sendError => some (s, some docs)
      | .error => some (s, some docs)
      | .bulk items => match onItems s.limit s.buffer items with
        | none => none
        | some b => some ({ s with buffer := b }, some docs)

/-- `deliver_line` — src/sink/elasticsearch.rs:341-348; `uuid` is what `new_v4` returns. -/
def deliverLine (s : State) (uuid : Nat) (l : LogLine) : State :=
  { s with buffer := s.buffer ++ [⟨0, uuid, l⟩] }

/-- `valve_state` — src/sink/elasticsearch.rs:350-356: is the valve open? -/
def valveOpen (s : State) : Bool := !decide (s.buffer.length > 10000)

/-- `init` — src/sink/elasticsearch.rs:161-173. -/
def init (limit : Nat) (pfx : Option Str) (type : Str) (tags : TagMap) : State :=
  { buffer := [], limit := limit, indexPrefix := pfx, indexType := type, tags := tags }

end Elastic
end Verif
