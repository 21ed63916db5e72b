import Verif.Spec.Avro
import Verif.Lemmas.Wire
/-!
# C32, C33, C67 — the Avro source
-/
namespace Verif
open Wire Avro

private theorem takeN_append (a r : Bytes) : takeN a.length (a ++ r) = some (a, r) := by
  simp [takeN]

private theorem readUInt_be (n v : Nat) (r : Bytes) (hv : v < 256 ^ n) :
    readUInt n (be n v ++ r) = some (v, r) := by
  have := takeN_append (be n v) r
  rw [be_length] at this
  simp [readUInt, this, beNat_be, Nat.mod_eq_of_lt hv]

private theorem readKvs_encode (kvs : List (Bytes × Bytes)) (r : Bytes) (m : Metadata)
    (hk : ∀ kv ∈ kvs, kv.1.length ≤ 255) (hv : ∀ kv ∈ kvs, kv.2.length ≤ 65535) :
    readKvs kvs.length (kvs.flatMap encodeKv ++ r) m = some (kvs.foldl Kafka.insertMeta m, r) := by
  induction kvs generalizing m with
  | nil => simp [readKvs]
  | cons kv kvs ih =>
    have h1 := hk kv (by simp)
    have h2 := hv kv (by simp)
    simp only [List.length_cons, readKvs, List.flatMap_cons, encodeKv, List.append_assoc,
      List.foldl_cons]
    rw [readUInt_be 1 _ _ (by omega)]
    simp only [Option.bind_some]
    rw [takeN_append]
    simp only [Option.bind_some]
    rw [readUInt_be 2 _ _ (by omega)]
    simp only [Option.bind_some]
    rw [takeN_append]
    simp only [Option.bind_some]
    exact ih _ (fun x hx => hk x (by simp [hx])) (fun x hx => hv x (by simp [hx]))

private def lookup (m : Metadata) (k : Bytes) : Option Bytes :=
  (m.find? (fun kv => kv.1 = k)).map Prod.snd

private theorem insertMeta_keys (m : Metadata) (kv : Bytes × Bytes) (h : (m.map Prod.fst).Nodup) :
    ((Kafka.insertMeta m kv).map Prod.fst).Nodup ∧
      ∀ k, k ∈ (Kafka.insertMeta m kv).map Prod.fst ↔ k = kv.1 ∨ k ∈ m.map Prod.fst := by
  induction m with
  | nil => simp [Kafka.insertMeta]
  | cons x m ih =>
    simp only [List.map_cons, List.nodup_cons] at h
    obtain ⟨i1, i2⟩ := ih h.2
    simp only [Kafka.insertMeta]
    split
    · next he =>
      simp only [List.map_cons, List.nodup_cons, List.mem_cons]
      refine ⟨⟨by rw [← he]; exact h.1, h.2⟩, ?_⟩
      intro k; rw [he]; simp
    · next he =>
      simp only [List.map_cons, List.nodup_cons, List.mem_cons]
      refine ⟨⟨?_, i1⟩, ?_⟩
      · rw [i2]; simp only [not_or]; exact ⟨he, h.1⟩
      · intro k; rw [i2]; simp only [or_left_comm]

private theorem insertMeta_lookup (m : Metadata) (kv : Bytes × Bytes) (k : Bytes) :
    lookup (Kafka.insertMeta m kv) k = if kv.1 = k then some kv.2 else lookup m k := by
  induction m with
  | nil => by_cases h : kv.1 = k <;> simp [Kafka.insertMeta, lookup, h]
  | cons x m ih =>
    simp only [Kafka.insertMeta]
    split
    · next he =>
      simp only [lookup, List.find?_cons]
      by_cases h : kv.1 = k
      · simp [h]
      · simp [h, he]
    · next he =>
      simp only [lookup, List.find?_cons] at ih ⊢
      by_cases h : x.1 = k
      · have : kv.1 ≠ k := fun h' => he (by rw [h, h'])
        simp [h, this]
      · simp only [h, decide_false]
        exact ih

private theorem foldl_insertMeta (kvs : List (Bytes × Bytes)) (m : Metadata)
    (h : (m.map Prod.fst).Nodup) :
    ((kvs.foldl Kafka.insertMeta m).map Prod.fst).Nodup ∧
      ∀ k, lookup (kvs.foldl Kafka.insertMeta m) k = (lastValue kvs k).or (lookup m k) := by
  induction kvs generalizing m with
  | nil => exact ⟨h, fun k => rfl⟩
  | cons kv kvs ih =>
    obtain ⟨h1, h2⟩ := ih (Kafka.insertMeta m kv) (insertMeta_keys m kv h).1
    refine ⟨h1, fun k => ?_⟩
    rw [List.foldl_cons, h2, insertMeta_lookup]
    simp only [lastValue, List.reverse_cons, List.find?_append, List.find?_cons, List.find?_nil]
    cases hf : List.find? (fun kv => decide (kv.1 = k)) kvs.reverse with
    | some x => simp
    | none =>
      by_cases h : kv.1 = k <;> simp [h]

/-- **C32.** Parsing the documented encoding of a frame gives back its version, control
bits, id, ordering key and body; the metadata is absent for version-1 frames and frames
without pairs, and otherwise maps exactly the keys sent, each once, to the value sent
(the last one if a key was repeated). -/
theorem C32_frame_round_trip (avroOk : Bytes → Bool) (f : Frame) (hf : f.Fits)
    (hv : avroOk f.body = true) :
    ∃ md : Option Metadata,
      Payload.parse avroOk f.encode = some (.valid ⟨f.version, f.control, f.id, f.orderBy⟩ md f.body) ∧
      f.CarriesMetadata md := by
  have hh : Header.parse f.encode = some (⟨f.version, f.control, f.id, f.orderBy⟩, encodeKvs f ++ f.body) := by
    simp only [Header.parse, Frame.encode, List.append_assoc]
    rw [readUInt_be 4 _ _ (by simpa using hf.version)]
    simp only [Option.bind_some]
    rw [readUInt_be 4 _ _ (by simpa using hf.control)]
    simp only [Option.bind_some]
    rw [readUInt_be 8 _ _ (by simpa using hf.id)]
    simp only [Option.bind_some]
    rw [readUInt_be 8 _ _ (by simpa using hf.orderBy)]
    rfl
  by_cases hver : f.version < 2
  · refine ⟨none, ?_, fun _ => rfl, fun h => absurd h.1 (by omega)⟩
    simp only [Payload.parse, hh, Option.bind_some, readMetadata, hver, if_true, Option.map_some,
      encodeKvs, List.nil_append, hv]
  · have hn := hf.kvs
    have hmd : readMetadata f.version (encodeKvs f ++ f.body) =
        if f.kvs = [] then some (none, f.body)
        else some (some (f.kvs.foldl Kafka.insertMeta []), f.body) := by
      simp only [readMetadata, hver, if_false, encodeKvs, List.append_assoc]
      rw [readUInt_be 1 _ _ (by omega)]
      simp only [Option.bind_some]
      by_cases he : f.kvs = []
      · simp [he]
      · have := List.length_pos_iff.2 he
        rw [if_neg (by omega), if_neg he, readKvs_encode _ _ _ hf.key hf.value]
        rfl
    by_cases he : f.kvs = []
    · refine ⟨none, ?_, fun _ => rfl, fun h => absurd he h.2⟩
      simp only [Payload.parse, hh, Option.bind_some, hmd, he, if_true, Option.map_some, hv]
    · refine ⟨some (f.kvs.foldl Kafka.insertMeta []), ?_, fun h => absurd ⟨by omega, he⟩ h, fun _ => ?_⟩
      · simp only [Payload.parse, hh, Option.bind_some, hmd, he, if_false, Option.map_some, hv, if_true]
      · obtain ⟨h1, h2⟩ := foldl_insertMeta f.kvs [] (by simp)
        refine ⟨_, rfl, h1, fun k => ?_⟩
        have := h2 k
        simp only [lookup, List.find?_nil, Option.map_none, Option.or_none] at this
        exact this

/-- A frame with two pairs. -/
def avroDemo : Frame :=
  { version := 2, control := 1, id := 258, orderBy := 3, kvs := [([1], [2, 3]), ([4, 5], [])], body := [9, 9] }

example : avroDemo.Fits ∧ avroDemo.hasMetadata :=
  ⟨⟨by decide, by decide, by decide, by decide, by decide, by decide, by decide⟩, by decide⟩
example : Payload.parse (fun _ => true) avroDemo.encode =
    some (.valid ⟨2, 1, 258, 3⟩ (some [([1], [2, 3]), ([4, 5], [])]) [9, 9]) := by decide

private theorem sync_iff (h : Header) : h.sync = decide (h.control % 2 = 1) := by
  simp only [Header.sync, Nat.and_one_is_mod]
  have : h.control % 2 < 2 := Nat.mod_lt _ (by decide)
  by_cases h1 : h.control % 2 = 1 <;> simp <;> omega

private theorem u64Bytes_be (n : Nat) : u64Bytes n = be 8 n := rfl

/-- What a connection publishes for a frame. -/
private def rawOf (cid : Nat) (f : Frame) (md : Option Metadata) : RawEvent :=
  ⟨f.orderBy, .avro, f.body, md, some cid⟩

private theorem run_idle (avroOk : Bytes → Bool) (c : Conn) (items : List Item) :
    c.run avroOk items = c.run avroOk (quiet items) := by
  induction items generalizing c with
  | nil => rfl
  | cons i is ih =>
    cases he : c.ending with
    | streaming =>
      by_cases hi : i.idle = true
      · have hq : quiet (i :: is) = quiet is := by simp [quiet, hi]
        rw [hq, ← ih]
        have : c.step avroOk i = c := by
          match i, hi with
          | .read (.error .wouldBlock), _ => rfl
        simp only [Conn.run, he, this]
      · have hq : quiet (i :: is) = i :: quiet is := by simp [quiet, hi]
        rw [hq]
        simp only [Conn.run, he]
        exact ih _
    | closed =>
      have : ∀ l, c.run avroOk l = c := by intro l; cases l <;> simp [Conn.run, he]
      rw [this, this]
    | panicked =>
      have : ∀ l, c.run avroOk l = c := by intro l; cases l <;> simp [Conn.run, he]
      rw [this, this]

private theorem run_ended (avroOk : Bytes → Bool) (c : Conn) (items : List Item)
    (h : c.ending ≠ .streaming) : c.run avroOk items = c := by
  cases items with
  | nil => rfl
  | cons i is => cases he : c.ending <;> simp_all [Conn.run]

private theorem run_frames (avroOk : Bytes → Bool) (c : Conn) (fs : List Frame) (rest : List Item)
    (hc : c.ending = .streaming) (hf : ∀ f ∈ fs, f.Fits ∧ avroOk f.body = true) :
    ∃ pub, AllPublished c.connectionId fs pub ∧
      c.run avroOk (readsOf fs ++ rest) =
        Conn.run avroOk { c with published := c.published ++ pub, written := c.written ++ (fs.filter Frame.isSync).flatMap (fun f => be 8 f.id), successSum := c.successSum + fs.length } rest := by
  induction fs generalizing c with
  | nil => exact ⟨[], .nil, by simp [readsOf]⟩
  | cons f fs ih =>
    obtain ⟨h1, h2⟩ := hf f (by simp)
    obtain ⟨md, e1, e2⟩ := C32_frame_round_trip avroOk f h1 h2
    have hstep : c.step avroOk (.read (.ok f.encode)) =
        { c with published := c.published ++ [rawOf c.connectionId f md], written := c.written ++ ([f].filter Frame.isSync).flatMap (fun f => be 8 f.id), successSum := c.successSum + 1 } := by
      simp only [Conn.step, Conn.payload, e1, sync_iff, rawOf, u64Bytes_be, Frame.isSync,
        List.filter_cons, List.filter_nil]
      by_cases hs : f.control % 2 = 1 <;> simp [hs]
    obtain ⟨pub, p1, p2⟩ := ih (c.step avroOk (.read (.ok f.encode))) (by rw [hstep]; exact hc)
      (fun g hg => hf g (by simp [hg]))
    refine ⟨rawOf c.connectionId f md :: pub, ?_, ?_⟩
    · rw [hstep] at p1
      exact .cons ⟨rfl, rfl, rfl, e2, rfl⟩ p1
    · have : c.run avroOk (readsOf (f :: fs) ++ rest)
          = (c.step avroOk (.read (.ok f.encode))).run avroOk (readsOf fs ++ rest) := by
        simp only [readsOf, List.map_cons, List.cons_append, Conn.run, hc]
      rw [this, p2, hstep]
      congr 1
      simp only [List.append_assoc, List.length_cons, Conn.mk.injEq, true_and, and_true,
        List.singleton_append]
      refine ⟨?_, by omega⟩
      simp only [List.filter_cons]
      by_cases hs : f.isSync = true <;> simp [hs]

/-- **C33 (valid frames).** While the frames are valid, the connection publishes one raw
event per frame, in order, with the frame's ordering key, metadata and body and the
connection's id, and writes back the 8-byte ids of exactly the frames whose sync bit is set, in order. -/
theorem C33_answers_sync_frames (avroOk : Bytes → Bool) (cid : Nat) (fs : List Frame)
    (items : List Item) (hi : quiet items = readsOf fs)
    (hf : ∀ f ∈ fs, f.Fits ∧ avroOk f.body = true) :
    let c := Conn.run avroOk { connectionId := cid } items
    AllPublished cid fs c.published ∧
    c.written = (fs.filter Frame.isSync).flatMap (fun f => be 8 f.id) ∧
    c.successSum = fs.length ∧ c.ending = .streaming ∧ c.parseFailureSum = 0 ∧ c.ioFailureSum = 0 := by
  obtain ⟨pub, p1, p2⟩ := run_frames avroOk { connectionId := cid } fs [] rfl hf
  simp only [run_idle avroOk _ items, hi]
  rw [List.append_nil] at p2
  rw [p2]
  exact ⟨by simpa [Conn.run] using p1, by simp [Conn.run], by simp [Conn.run], rfl, rfl, rfl⟩

/-- **C33 (the end of a connection).** After any number of valid frames, a frame with an
invalid body, an end of stream, a read error or the shutdown token ends the connection:
neither it nor anything after it is published or answered, and it is counted as a parse failure, a read
failure or neither. -/
theorem C33_stops_at_invalid (avroOk : Bytes → Bool) (cid : Nat) (fs : List Frame)
    (items post : List Item) (stop : Item) (hi : quiet items = readsOf fs ++ stop :: post)
    (hf : ∀ f ∈ fs, f.Fits ∧ avroOk f.body = true)
    (hstop : stop = .system ∨ (∃ e, e ≠ .wouldBlock ∧ stop = .read (.error e)) ∨
      (∃ g : Frame, g.Fits ∧ avroOk g.body = false ∧ stop = .read (.ok g.encode))) :
    let c := Conn.run avroOk { connectionId := cid } items
    AllPublished cid fs c.published ∧
    c.written = (fs.filter Frame.isSync).flatMap (fun f => be 8 f.id) ∧
    c.successSum = fs.length ∧ c.ending = .closed ∧
    c.parseFailureSum = (if stop.isPayload then 1 else 0) ∧
    c.ioFailureSum = (if stop.isFailure then 1 else 0) := by
  obtain ⟨pub, p1, p2⟩ := run_frames avroOk { connectionId := cid } fs (stop :: post) rfl hf
  simp only [run_idle avroOk _ items, hi]
  rw [p2]
  generalize hd : ({ connectionId := cid, published := ([] : List RawEvent) ++ pub, written := ([] : Bytes) ++ (fs.filter Frame.isSync).flatMap (fun f => be 8 f.id), successSum := 0 + fs.length } : Conn) = d
  have hend : d.ending = .streaming := by rw [← hd]
  have hstep : (d.step avroOk stop).ending = .closed ∧ (d.step avroOk stop).published = d.published ∧
      (d.step avroOk stop).written = d.written ∧ (d.step avroOk stop).successSum = d.successSum ∧
      (d.step avroOk stop).parseFailureSum = (if stop.isPayload then 1 else 0) ∧
      (d.step avroOk stop).ioFailureSum =
        (if stop.isFailure then 1 else 0) := by
    have d1 : d.parseFailureSum = 0 := by rw [← hd]
    have d2 : d.ioFailureSum = 0 := by rw [← hd]
    rcases hstop with rfl | ⟨e, he, rfl⟩ | ⟨g, g1, g2, rfl⟩
    · exact ⟨rfl, rfl, rfl, rfl, by simp [Conn.step, d1, Item.isPayload], by simp [Conn.step, d2, Item.isFailure]⟩
    · cases e
      · exact ⟨rfl, rfl, rfl, rfl, by simp [Conn.step, d1, Item.isPayload], by simp [Conn.step, d2, Item.isFailure]⟩
      · exact absurd rfl he
      · exact ⟨rfl, rfl, rfl, rfl, by simp [Conn.step, d1, Item.isPayload], by simp [Conn.step, d2, Item.isFailure]⟩
      · exact ⟨rfl, rfl, rfl, rfl, by simp [Conn.step, d1, Item.isPayload], by simp [Conn.step, d2, Item.isFailure]⟩
      · exact ⟨rfl, rfl, rfl, rfl, by simp [Conn.step, d1, Item.isPayload], by simp [Conn.step, d2, Item.isFailure]⟩
    · obtain ⟨md, e1, -⟩ := C32_frame_round_trip (fun _ => true) g g1 rfl
      have hp : Payload.parse avroOk g.encode = some .invalid := by
        simp only [Payload.parse, Option.bind_eq_some_iff, Option.map_eq_some_iff] at e1 ⊢
        obtain ⟨⟨h, b⟩, q1, ⟨m, b'⟩, q2, q3⟩ := e1
        simp only [if_true, Payload.valid.injEq] at q3
        refine ⟨(h, b), q1, (m, b'), q2, ?_⟩
        simp [q3.2.2, g2]
      simp only [Conn.step, Conn.payload, hp]
      exact ⟨trivial, trivial, trivial, trivial, by simp [d1, Item.isPayload], by simp [d2, Item.isFailure]⟩
  have hrun : d.run avroOk (stop :: post) = d.step avroOk stop := by
    simp only [Conn.run, hend]
    exact run_ended _ _ _ (by rw [hstep.1]; simp)
  obtain ⟨s1, s2, s3, s4, s5, s6⟩ := hstep
  rw [hrun, s1, s2, s3, s4, s5, s6, ← hd]
  exact ⟨by simpa using p1, by simp, by simp, rfl, rfl, rfl⟩

example : let ok : Bytes → Bool := fun b => b ≠ []
    let bad : Frame := { avroDemo with body := [] }
    let c := Conn.run ok { connectionId := 7 }
      [.read (.ok avroDemo.encode), .read (.error .wouldBlock), .read (.ok bad.encode),
       .read (.ok avroDemo.encode)]
    (c.published.length, c.written, c.ending) = (1, [0, 0, 0, 0, 0, 0, 1, 2], .closed) := by decide

private theorem socketItems_quiet (fuel : Nat) (r : Reader) (ps : List Bytes) (e : PayloadErr)
    (he : e ≠ .wouldBlock) (h : r.drain fuel = (ps, e)) :
    quiet (socketItems fuel r) = ps.map (fun p => .read (.ok p)) ++ [.read (.error e)] := by
  induction fuel generalizing r ps with
  | zero => simp only [Reader.drain, Prod.mk.injEq] at h; exact absurd h.2.symm he
  | succ fuel ih =>
    simp only [Reader.drain] at h
    simp only [socketItems]
    split at h
    · next p r' hr =>
      simp only [hr]
      cases hd : r'.drain fuel with
      | mk ps' e' =>
        rw [hd] at h
        simp only [Prod.mk.injEq] at h
        obtain ⟨rfl, rfl⟩ := h
        have hq : quiet (.read (.ok p) :: socketItems fuel r')
            = .read (.ok p) :: quiet (socketItems fuel r') := rfl
        rw [hq, ih r' ps' hd]; rfl
    · next r' hr =>
      simp only [hr, quiet, List.filter_cons, Item.idle, Bool.not_true, Bool.false_eq_true, if_false]
      exact ih r' ps h
    · next e' r' hne hr =>
      simp only [Prod.mk.injEq] at h
      obtain ⟨rfl, rfl⟩ := h
      simp only [hr]
      cases e' <;> simp [quiet, Item.idle] at he ⊢

/-- **C33 (from the socket).** Whatever the chunking of the byte stream (blocking anywhere
but inside length prefixes): a client that sends valid frames and closes has every frame
published once, in order, and is answered for exactly the synchronous ones, in order. -/
theorem C33_from_socket (avroOk : Bytes → Bool) (cid : Nat) (fs : List Frame) (net : List NetItem)
    (hn : NonEmptyReads net) (hs : Framed (fs.map Frame.encode) (symsOf net))
    (hf : ∀ f ∈ fs, f.Fits ∧ avroOk f.body = true ∧ f.encode.length ≤ 1048576) (fuel : Nat)
    (hfuel : (symsOf net).length < fuel) :
    let c := Conn.run avroOk { connectionId := cid }
      (socketItems fuel { maxPayloadSize := 1048576, buffer := { stream := net } })
    AllPublished cid fs c.published ∧
    c.written = (fs.filter Frame.isSync).flatMap (fun f => be 8 f.id) ∧
    c.successSum = fs.length ∧ c.ending = .closed ∧ c.parseFailureSum = 0 ∧ c.ioFailureSum = 0 := by
  have hd : Reader.drain fuel { maxPayloadSize := 1048576, buffer := { stream := net } }
      = (fs.map Frame.encode, .eof) := by
    refine (drain_ok fuel).1 _ _ (symsOf net) ⟨rfl, rfl, rfl, by simp [BufReader.syms], hn⟩ hs ?_ hfuel
    intro p hp
    obtain ⟨f, hf', rfl⟩ := List.mem_map.1 hp
    obtain ⟨-, -, h⟩ := hf f hf'
    refine ⟨?_, h, by omega⟩
    intro h0
    have := congrArg List.length h0
    simp [Frame.encode, be_length] at this
  have hq := socketItems_quiet fuel _ _ _ (by simp) hd
  rw [List.map_map] at hq
  exact C33_stops_at_invalid avroOk cid fs _ [] (.read (.error .eof)) hq
    (fun f h => ⟨(hf f h).1, (hf f h).2.1⟩) (Or.inr (Or.inl ⟨.eof, by simp, rfl⟩))

example : Framed [avroDemo.encode] (symsOf [.data (frame avroDemo.encode)]) :=
  .frame avroDemo.encode (avroDemo.encode.map .byte) (by decide) (by simp) .done

/-! ### C67 — malformed frames -/

/-- **C67 is false of the code**: a payload too short for the header panics the handler
thread instead of being rejected as invalid. -/
theorem C67_malformed_frame_panics_false (avroOk : Bytes → Bool) (c : Conn) (p : Bytes)
    (hp : p.length < 24) : (c.payload avroOk p).ending = .panicked := by
  have : Header.parse p = none := by
    simp only [Header.parse, readUInt, takeN]
    by_cases h1 : 4 ≤ p.length
    · by_cases h2 : 4 ≤ p.length - 4
      · by_cases h3 : 8 ≤ p.length - 8
        · have h4 : ¬ 8 ≤ p.length - 16 := by omega
          simp [h1, h2, h3, h4]
        · simp [h1, h2, h3]
      · simp [h1, h2]
    · simp [h1]
  simp [Conn.payload, Payload.parse, this]

/-- **C67 (partial).** A version-1 payload that has a complete 24-byte header never panics
the handler: it is either published or rejected.  Missing: shorter payloads, and
version-2 payloads whose declared metadata runs past the end. -/
theorem C67_complete_header_no_panic_partial (avroOk : Bytes → Bool) (c : Conn) (p : Bytes)
    (hc : c.ending = .streaming) (hp : 24 ≤ p.length) (hv : beNat (p.take 4) < 2) :
    (c.payload avroOk p).ending ≠ .panicked ∧
      ((c.payload avroOk p).ending = .streaming ↔ avroOk (p.drop 24) = true) := by
  have hh : ∃ ct id ob, Header.parse p = some (⟨beNat (p.take 4), ct, id, ob⟩, p.drop 24) := by
    refine ⟨beNat ((p.drop 4).take 4), beNat ((p.drop 8).take 8), beNat ((p.drop 16).take 8), ?_⟩
    have h1 : 4 ≤ p.length := by omega
    have h2 : 4 ≤ p.length - 4 := by omega
    have h3 : 8 ≤ p.length - 4 - 4 := by omega
    have h4 : 8 ≤ p.length - 4 - 4 - 8 := by omega
    have h5 : 8 ≤ p.length - 8 := by omega
    have h6 : 8 ≤ p.length - 16 := by omega
    simp [Header.parse, readUInt, takeN, h1, h2, h5, h6, List.drop_drop]
  obtain ⟨ct, id, ob, hh⟩ := hh
  simp only [Conn.payload, Payload.parse, hh, Option.bind_some, readMetadata, hv, if_true,
    Option.map_some]
  cases hb : avroOk (p.drop 24) <;> simp [hc]

example : (Conn.payload (fun _ => true) { connectionId := 1 } (List.replicate 25 0)).ending = .streaming ∧
    (Conn.payload (fun _ => true) { connectionId := 1 } [1, 2, 3]).ending = .panicked := by decide

private theorem beNat_lt (a : Bytes) : beNat a < 256 ^ a.length := by
  induction a with
  | nil => simp [beNat]
  | cons x a ih =>
    rw [beNat_cons, List.length_cons, Nat.pow_succ]
    have hx := x.toNat_lt
    have : x.toNat * 256 ^ a.length + 256 ^ a.length ≤ 256 ^ a.length * 256 := by
      rw [← Nat.succ_mul, Nat.mul_comm]
      exact Nat.mul_le_mul_left _ hx
    omega

private theorem beNat_inj : ∀ (a b : Bytes), a.length = b.length → beNat a = beNat b → a = b
  | [], [], _, _ => rfl
  | x :: a, y :: b, hl, h => by
    have hl' : a.length = b.length := by simpa using hl
    rw [beNat_cons, beNat_cons, ← hl'] at h
    have ha := beNat_lt a
    have hb := beNat_lt b
    rw [← hl'] at hb
    have hp : 0 < 256 ^ a.length := Nat.pow_pos (by decide)
    have hx : x.toNat = y.toNat := by
      have h1 := congrArg (· / 256 ^ a.length) h
      simp only [Nat.add_comm (_ * _), Nat.add_mul_div_right _ _ hp, Nat.div_eq_of_lt ha,
        Nat.div_eq_of_lt hb, Nat.zero_add] at h1
      exact h1
    rw [hx] at h
    rw [beNat_inj a b hl' (by omega), UInt8.toNat_inj.1 hx]

private theorem be_beNat (a : Bytes) : be a.length (beNat a) = a := by
  refine beNat_inj _ _ (be_length _ _) ?_
  rw [beNat_be, Nat.mod_eq_of_lt (beNat_lt a)]

private theorem takeN_inv {n : Nat} {bs a r : Bytes} (h : takeN n bs = some (a, r)) :
    a.length = n ∧ bs = a ++ r := by
  simp only [takeN] at h
  split at h
  · next hn =>
    simp only [Option.some.injEq, Prod.mk.injEq] at h
    obtain ⟨rfl, rfl⟩ := h
    exact ⟨by simp [hn], (List.take_append_drop _ _).symm⟩
  · cases h

private theorem readUInt_inv {n v : Nat} {bs r : Bytes} (h : readUInt n bs = some (v, r)) :
    v < 256 ^ n ∧ bs = be n v ++ r := by
  simp only [readUInt, Option.map_eq_some_iff] at h
  obtain ⟨⟨a, r'⟩, h1, h2⟩ := h
  simp only [Prod.mk.injEq] at h2
  obtain ⟨rfl, rfl⟩ := h2
  obtain ⟨h3, h4⟩ := takeN_inv h1
  refine ⟨by rw [← h3]; exact beNat_lt a, ?_⟩
  have := be_beNat a
  rw [h3] at this
  rw [this, h4]

private theorem readKvs_inv (n : Nat) (bs : Bytes) (m m' : Metadata) (r : Bytes)
    (h : readKvs n bs m = some (m', r)) :
    ∃ kvs : List (Bytes × Bytes), kvs.length = n ∧ bs = kvs.flatMap encodeKv ++ r ∧
      (∀ kv ∈ kvs, kv.1.length ≤ 255) ∧ (∀ kv ∈ kvs, kv.2.length ≤ 65535) := by
  induction n generalizing bs m with
  | zero =>
    simp only [readKvs, Option.some.injEq, Prod.mk.injEq] at h
    exact ⟨[], rfl, by simp [h.2], by simp, by simp⟩
  | succ n ih =>
    simp only [readKvs, Option.bind_eq_some_iff] at h
    obtain ⟨⟨kl, b1⟩, h1, ⟨k, b2⟩, h2, ⟨vl, b3⟩, h3, ⟨v, b4⟩, h4, h5⟩ := h
    obtain ⟨l1, e1⟩ := readUInt_inv h1
    obtain ⟨l2, e2⟩ := takeN_inv h2
    obtain ⟨l3, e3⟩ := readUInt_inv h3
    obtain ⟨l4, e4⟩ := takeN_inv h4
    obtain ⟨kvs, k1, k2, k3, k4⟩ := ih _ _ h5
    simp only at l2 l4 e1 e2 e3 e4 k2
    refine ⟨(k, v) :: kvs, by simp [k1], ?_, ?_, ?_⟩
    · subst l2 l4
      simp only [List.flatMap_cons, encodeKv, List.append_assoc]
      rw [e1, e2, e3, e4, k2]
    · intro kv hkv
      rcases List.mem_cons.1 hkv with rfl | hkv
      · simp only; omega
      · exact k3 kv hkv
    · intro kv hkv
      rcases List.mem_cons.1 hkv with rfl | hkv
      · simp only; omega
      · exact k4 kv hkv

/-- Whatever is parsed is a frame of the format. -/
private theorem parse_inv (avroOk : Bytes → Bool) (p : Bytes) (q : Payload)
    (h : Payload.parse avroOk p = some q) : ∃ f : Frame, f.Fits ∧ p = f.encode := by
  simp only [Payload.parse, Option.bind_eq_some_iff, Option.map_eq_some_iff] at h
  obtain ⟨⟨hd, b⟩, h1, ⟨md, b'⟩, h2, -⟩ := h
  simp only [Header.parse, Option.bind_eq_some_iff, Option.map_eq_some_iff] at h1
  obtain ⟨⟨v, b1⟩, p1, ⟨ct, b2⟩, p2, ⟨id, b3⟩, p3, ⟨ob, b4⟩, p4, p5⟩ := h1
  simp only [Prod.mk.injEq] at p5
  obtain ⟨rfl, rfl⟩ := p5
  obtain ⟨l1, e1⟩ := readUInt_inv p1
  obtain ⟨l2, e2⟩ := readUInt_inv p2
  obtain ⟨l3, e3⟩ := readUInt_inv p3
  obtain ⟨l4, e4⟩ := readUInt_inv p4
  simp only at e1 e2 e3 e4 h2
  simp only [readMetadata] at h2
  by_cases hv : v < 2
  · simp only [hv, if_true, Option.some.injEq, Prod.mk.injEq] at h2
    refine ⟨⟨v, ct, id, ob, [], b4⟩, ⟨by simpa using l1, by simpa using l2, by simpa using l3, by simpa using l4, by simp, by simp, by simp⟩, ?_⟩
    simp only [Frame.encode, encodeKvs, hv, if_true, List.append_assoc, List.nil_append]
    rw [e1, e2, e3, e4]
  · simp only [hv, if_false, Option.bind_eq_some_iff] at h2
    obtain ⟨⟨n, b5⟩, q1, q2⟩ := h2
    obtain ⟨l5, e5⟩ := readUInt_inv q1
    simp only at e5 q2
    have hk : ∃ kvs : List (Bytes × Bytes), kvs.length = n ∧ b5 = kvs.flatMap encodeKv ++ b' ∧
        (∀ kv ∈ kvs, kv.1.length ≤ 255) ∧ (∀ kv ∈ kvs, kv.2.length ≤ 65535) := by
      by_cases hn : n < 1
      · simp only [hn, if_true, Option.some.injEq, Prod.mk.injEq] at q2
        exact ⟨[], by simp; omega, by simp [q2.2], by simp, by simp⟩
      · simp only [hn, if_false, Option.map_eq_some_iff] at q2
        obtain ⟨⟨m', b6⟩, q3, q4⟩ := q2
        simp only [Prod.mk.injEq] at q4
        obtain ⟨-, rfl⟩ := q4
        exact readKvs_inv _ _ _ _ _ q3
    obtain ⟨kvs, k1, k2, k3, k4⟩ := hk
    refine ⟨⟨v, ct, id, ob, kvs, b'⟩, ⟨by simpa using l1, by simpa using l2, by simpa using l3, by simpa using l4, by simp only; omega, k3, k4⟩, ?_⟩
    simp only [Frame.encode, encodeKvs, hv, if_false, List.append_assoc, k1]
    rw [e1, e2, e3, e4, e5, k2]

/-- The frame's body decides between the two results. -/
private theorem parse_encode (avroOk : Bytes → Bool) (f : Frame) (hf : f.Fits) :
    ∃ q, Payload.parse avroOk f.encode = some q ∧ (avroOk f.body = false → q = .invalid) := by
  obtain ⟨md, e1, -⟩ := C32_frame_round_trip (fun _ => true) f hf rfl
  simp only [Payload.parse, Option.bind_eq_some_iff, Option.map_eq_some_iff] at e1
  obtain ⟨⟨h, b⟩, q1, ⟨m, b'⟩, q2, q3⟩ := e1
  simp only [if_true, Payload.valid.injEq] at q3
  refine ⟨if avroOk b' then .valid h m b' else .invalid, ?_, ?_⟩
  · simp only [Payload.parse, q1, Option.bind_some, q2, Option.map_some]
  · intro hb; simp [q3.2.2, hb]

/-- **C67 (exact).** The handler thread panics on exactly the payloads that are no frame of
the documented format: a payload is a frame, or the thread dies of it.  The property asks
for no panic at all; what is missing is the rejection of those payloads. -/
theorem C67_exact_partial (avroOk : Bytes → Bool) (c : Conn) (p : Bytes)
    (hc : c.ending = .streaming) :
    (c.payload avroOk p).ending = .panicked ↔ ¬ ∃ f : Frame, f.Fits ∧ p = f.encode := by
  constructor
  · rintro h ⟨f, hf, rfl⟩
    obtain ⟨q, hq, -⟩ := parse_encode avroOk f hf
    rw [Conn.payload, hq] at h
    cases q <;> simp [hc] at h
  · intro h
    cases hp : Payload.parse avroOk p with
    | none => simp [Conn.payload, hp]
    | some q => exact absurd (parse_inv _ _ _ hp) h

example : ∃ f : Frame, f.Fits ∧ List.replicate 24 (0 : UInt8) = f.encode :=
  ⟨⟨0, 0, 0, 0, [], []⟩, ⟨by decide, by decide, by decide, by decide, by decide, by decide, by decide⟩, by decide⟩

/-- **C33, C67 (every connection).** Whatever a connection reads, it publishes and answers
the valid frames in front, in order, and then one of three things holds: there was nothing
more; something ended it in an orderly way, once counted; or a payload that is no frame
killed the thread. -/
theorem C67_every_connection_partial (avroOk : Bytes → Bool) (cid : Nat) (items : List Item) :
    ∃ (fs : List Frame) (rest : List Item), quiet items = readsOf fs ++ rest ∧
      (∀ f ∈ fs, f.Fits ∧ avroOk f.body = true) ∧
      let c := Conn.run avroOk { connectionId := cid } items
      AllPublished cid fs c.published ∧
      c.written = (fs.filter Frame.isSync).flatMap (fun f => be 8 f.id) ∧
      c.successSum = fs.length ∧
      ((rest = [] ∧ c.ending = .streaming) ∨
       (∃ stop post, rest = stop :: post ∧ c.ending = .closed ∧
          (stop = .system ∨ (∃ e, e ≠ .wouldBlock ∧ stop = .read (.error e)) ∨
            (∃ g : Frame, g.Fits ∧ avroOk g.body = false ∧ stop = .read (.ok g.encode))) ∧
          c.parseFailureSum = (if stop.isPayload then 1 else 0) ∧
          c.ioFailureSum = (if stop.isFailure then 1 else 0)) ∨
       (∃ p post, rest = .read (.ok p) :: post ∧ c.ending = .panicked ∧
          ¬ ∃ f : Frame, f.Fits ∧ p = f.encode)) := by
  have hsplit : ∀ l : List Item, (∀ i ∈ l, i.idle = false) → ∃ (fs : List Frame) (rest : List Item),
      l = readsOf fs ++ rest ∧ (∀ f ∈ fs, f.Fits ∧ avroOk f.body = true) ∧
      (rest = [] ∨
       (∃ stop post, rest = stop :: post ∧
          (stop = .system ∨ (∃ e, e ≠ .wouldBlock ∧ stop = .read (.error e)) ∨
            (∃ g : Frame, g.Fits ∧ avroOk g.body = false ∧ stop = .read (.ok g.encode)))) ∨
       (∃ p post, rest = .read (.ok p) :: post ∧ ¬ ∃ f : Frame, f.Fits ∧ p = f.encode)) := by
    intro l
    induction l with
    | nil => intro _; exact ⟨[], [], rfl, by simp, Or.inl rfl⟩
    | cons i l ih =>
      intro hl
      have hi := hl i (by simp)
      match i, hi with
      | .system, _ => exact ⟨[], _, rfl, by simp, Or.inr (Or.inl ⟨_, _, rfl, Or.inl rfl⟩)⟩
      | .read (.error e), hi =>
        refine ⟨[], _, rfl, by simp, Or.inr (Or.inl ⟨_, _, rfl, Or.inr (Or.inl ⟨e, ?_, rfl⟩)⟩)⟩
        rintro rfl
        simp [Item.idle] at hi
      | .read (.ok p), _ =>
        by_cases hp : ∃ f : Frame, f.Fits ∧ p = f.encode
        · obtain ⟨f, hf, rfl⟩ := hp
          cases hb : avroOk f.body with
          | false =>
            exact ⟨[], _, rfl, by simp, Or.inr (Or.inl ⟨_, _, rfl, Or.inr (Or.inr ⟨f, hf, hb, rfl⟩)⟩)⟩
          | true =>
            obtain ⟨fs, rest, e1, e2, e3⟩ := ih (fun j hj => hl j (by simp [hj]))
            refine ⟨f :: fs, rest, ?_, ?_, e3⟩
            · rw [e1]; rfl
            · intro g hg
              rcases List.mem_cons.1 hg with rfl | hg
              · exact ⟨hf, hb⟩
              · exact e2 g hg
        · exact ⟨[], _, rfl, by simp, Or.inr (Or.inr ⟨p, _, rfl, hp⟩)⟩
  obtain ⟨fs, rest, e1, e2, e3⟩ := hsplit (quiet items) (by
    intro i hi
    simpa [quiet] using (List.mem_filter.1 hi).2)
  refine ⟨fs, rest, e1, e2, ?_⟩
  rcases e3 with rfl | ⟨stop, post, rfl, hstop⟩ | ⟨p, post, rfl, hp⟩
  · obtain ⟨a1, a2, a3, a4, -⟩ := C33_answers_sync_frames avroOk cid fs items (by simpa using e1) e2
    exact ⟨a1, a2, a3, Or.inl ⟨rfl, a4⟩⟩
  · obtain ⟨a1, a2, a3, a4, a5, a6⟩ := C33_stops_at_invalid avroOk cid fs items post stop e1 e2 hstop
    exact ⟨a1, a2, a3, Or.inr (Or.inl ⟨stop, post, rfl, a4, hstop, a5, a6⟩)⟩
  · obtain ⟨pub, p1, p2⟩ := run_frames avroOk { connectionId := cid } fs (.read (.ok p) :: post) rfl e2
    simp only [run_idle avroOk _ items, e1]
    rw [p2]
    have hnone : Payload.parse avroOk p = none := by
      cases hq : Payload.parse avroOk p with
      | none => rfl
      | some q => exact absurd (parse_inv _ _ _ hq) hp
    simp only [Conn.run, Conn.step, Conn.payload, hnone]
    rw [run_ended _ _ _ (by simp)]
    exact ⟨by simpa using p1, by simp, by simp, Or.inr (Or.inr ⟨p, post, rfl, rfl, hp⟩)⟩

example :
    let c := Conn.run (fun _ => true) { connectionId := 7 }
      [.read (.ok avroDemo.encode), .read (.ok (avroDemo.encode.take 30)), .read (.ok avroDemo.encode)]
    (c.published.length, c.ending) = (1, .panicked) := by decide

end Verif
