import Verif.Model.Avro
import Verif.Spec.Wire
/-! # The documented Avro wire format (diagram in src/source/avro.rs:35-79) -/
namespace Verif.Avro
open Wire

/-- A frame as a client means it. -/
structure Frame where
  version : Nat
  control : Nat
  id : Nat
  orderBy : Nat
  kvs : List (Bytes × Bytes)
  body : Bytes

/-- Key length (1 byte), key, value length (2 bytes), value. -/
def encodeKv (kv : Bytes × Bytes) : Bytes :=
  be 1 kv.1.length ++ kv.1 ++ be 2 kv.2.length ++ kv.2

/-- Version 2 and up: the number of pairs and the pairs.  Version 1: nothing. -/
def encodeKvs (f : Frame) : Bytes :=
  if f.version < 2 then [] else be 1 f.kvs.length ++ f.kvs.flatMap encodeKv

/-- The bytes of a frame (without the 4-byte length in front). -/
def Frame.encode (f : Frame) : Bytes :=
  be 4 f.version ++ be 4 f.control ++ be 8 f.id ++ be 8 f.orderBy ++ encodeKvs f ++ f.body

/-- The limits of the format. -/
structure Frame.Fits (f : Frame) : Prop where
  version : f.version < 2 ^ 32
  control : f.control < 2 ^ 32
  id : f.id < 2 ^ 64
  orderBy : f.orderBy < 2 ^ 64
  kvs : f.kvs.length ≤ 255
  key : ∀ kv ∈ f.kvs, kv.1.length ≤ 255
  value : ∀ kv ∈ f.kvs, kv.2.length ≤ 65535

/-- Lookup in a list of pairs where a later pair replaces an earlier one. -/
def lastValue (kvs : List (Bytes × Bytes)) (k : Bytes) : Option Bytes :=
  (kvs.reverse.find? (fun kv => kv.1 = k)).map Prod.snd

/-- The metadata a frame carries: none for version 1 and for no pairs. -/
def Frame.hasMetadata (f : Frame) : Prop := 2 ≤ f.version ∧ f.kvs ≠ []

instance (f : Frame) : Decidable f.hasMetadata := by unfold Frame.hasMetadata; infer_instance

/-- Synchronous: the lowest control bit. -/
def Frame.isSync (f : Frame) : Bool := f.control % 2 = 1

end Verif.Avro

namespace Verif.Avro

/-- The turn found nothing to read. -/
def Item.idle : Item → Bool
  | .read (.error .wouldBlock) => true
  | _ => false

/-- A payload was read. -/
def Item.isPayload : Item → Bool
  | .read (.ok _) => true
  | _ => false

/-- The read failed; the end of the stream is no failure. -/
def Item.isFailure : Item → Bool
  | .read (.error .io) | .read (.error .protocol) | .read (.error .lengthTooLarge) => true
  | _ => false

/-- The sequence of things that happened on the connection, without the idle turns. -/
def quiet (items : List Item) : List Item := items.filter fun i => !i.idle

/-- The turns reading the given frames. -/
def readsOf (fs : List Frame) : List Item := fs.map fun f => .read (.ok f.encode)

/-- `md` is the metadata the frame carries: absent, or a map from exactly the keys sent,
each once, to the value sent last. -/
def Frame.CarriesMetadata (f : Frame) (md : Option Metadata) : Prop :=
  (¬ f.hasMetadata → md = none) ∧
  (f.hasMetadata → ∃ m, md = some m ∧ (m.map Prod.fst).Nodup ∧
    ∀ k, (m.find? (fun kv => kv.1 = k)).map Prod.snd = lastValue f.kvs k)

/-- The raw event that publishes a frame received on connection `cid`. -/
structure Frame.PublishedAs (f : Frame) (cid : Nat) (r : RawEvent) : Prop where
  orderBy : r.orderBy = f.orderBy
  encoding : r.encoding = .avro
  bytes : r.bytes = f.body
  metadata : f.CarriesMetadata r.metadata
  connectionId : r.connectionId = some cid

/-- One event per frame, in order. -/
inductive AllPublished (cid : Nat) : List Frame → List RawEvent → Prop
  | nil : AllPublished cid [] []
  | cons {f r fs rs} : f.PublishedAs cid r → AllPublished cid fs rs →
      AllPublished cid (f :: fs) (r :: rs)

end Verif.Avro
