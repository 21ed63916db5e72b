import Verif.Lemmas.WireExact
/-!
# C34-C36 — length-prefixed framing and `write_all`
-/
namespace Verif
open Wire

/-- **C34 (partial).** Whatever the grouping of bytes into socket reads and wherever the
stream would block outside length prefixes: reading a stream of non-empty payloads within
the size limit returns exactly those payloads, in order, and then end of stream.
Missing: a stream that blocks inside a length prefix, and empty payloads
(`C34_split_prefix_false`, `C34_empty_payload_false`). -/
theorem C34_chunking_independent_partial (max : Nat) (net : List NetItem) (ps : List Bytes)
    (hn : NonEmptyReads net) (hs : Framed ps (symsOf net))
    (hp : ∀ p ∈ ps, p ≠ [] ∧ p.length ≤ max ∧ p.length < 2 ^ 32) (fuel : Nat)
    (hf : (symsOf net).length < fuel) :
    Reader.drain fuel { maxPayloadSize := max, buffer := { stream := net } } = (ps, .eof) :=
  (drain_ok fuel).1 _ ps (symsOf net) ⟨rfl, rfl, rfl, by simp [BufReader.syms], hn⟩ hs
    (by simpa using hp) hf

/-- Two payloads; the first is split over reads, blocks inside it and shares a read with
the prefix of the second. -/
def framingDemo : List NetItem :=
  [.wouldBlock, .data [0, 0], .data [0, 3, 7], .wouldBlock, .data [8, 9, 0, 0, 0, 1], .data [5]]

example : Reader.drain 20 { maxPayloadSize := 16, buffer := { stream := framingDemo } } =
    ([[7, 8, 9], [5]], .eof) := by decide

example : NonEmptyReads framingDemo ∧ Framed [[7, 8, 9], [5]] (symsOf framingDemo) ∧
    (symsOf framingDemo).length < 20 := by
  refine ⟨by simp [NonEmptyReads, framingDemo], ?_, by decide⟩
  have h : Framed [[5]] ((be 4 [5].length).map .byte ++ [.byte 5] ++ []) :=
    .frame [5] _ rfl (by simp) .done
  exact .block (.frame [7, 8, 9] [.byte 7, .block, .byte 8, .byte 9] rfl (by simp) h)

/-- **C34 (exactly what is read).**  For every stream, whatever its bytes and wherever it blocks, is interrupted, fails or ends: what is read
is determined by the sequence of bytes and those places, as `decode` says, and not by how the bytes are grouped into reads. -/
theorem C34_exact_partial (max : Nat) (net : List NetItem) (hn : NonEmptyReads net) (fuel : Nat) (hf : (symsOf net).length < fuel) :
    Reader.drain fuel { maxPayloadSize := max, buffer := { stream := net } } = decode max none [] (symsOf net) :=
  (drain_exact fuel).1 _ (symsOf net) ⟨rfl, rfl, rfl, by simp [BufReader.syms], hn⟩ hf

/-- **C34 (grouping).**  Two streams with the same bytes that block, are interrupted, fail and end at the same places are read alike. -/
theorem C34_grouping (max : Nat) (net net' : List NetItem) (hn : NonEmptyReads net) (hn' : NonEmptyReads net')
    (h : symsOf net = symsOf net') (fuel fuel' : Nat) (hf : (symsOf net).length < fuel) (hf' : (symsOf net').length < fuel') :
    Reader.drain fuel { maxPayloadSize := max, buffer := { stream := net } } =
      Reader.drain fuel' { maxPayloadSize := max, buffer := { stream := net' } } := by
  rw [C34_exact_partial max net hn fuel hf, C34_exact_partial max net' hn' fuel' hf', h]

/-- A length cut in two, an interrupted length, and a payload cut in two. -/
def brokenDemo : List NetItem :=
  [.data [0, 0], .wouldBlock, .data [0, 0], .interrupted, .data [0, 2, 7], .wouldBlock, .data [8, 0, 0, 0, 9]]

example : NonEmptyReads brokenDemo ∧ decode 16 none [] (symsOf brokenDemo) = ([[7, 8]], .eof) ∧
    decode 8 none [] (symsOf brokenDemo ++ [.byte 9]) = ([[7, 8]], .lengthTooLarge) := by
  refine ⟨by simp [NonEmptyReads, brokenDemo], by decide, by decide⟩

/-- **C34 is false of the code when a length prefix is split**: if the stream blocks after
two bytes of the prefix, those bytes are lost and the payload is misread. -/
theorem C34_split_prefix_false :
    ∃ (p : Bytes) (net : List NetItem), NonEmptyReads net ∧ p ≠ [] ∧ p.length ≤ 16 ∧
      (symsOf net).filterMap Sym.byte? = frame p ∧ (∀ x ∈ net, x ≠ .interrupted ∧ x ≠ .failed) ∧
      ∀ fuel, (Reader.drain fuel { maxPayloadSize := 16, buffer := { stream := net } }).1 = [] := by
  refine ⟨[0, 7], [.data [0, 0], .wouldBlock, .data [0, 2, 0, 7]], by simp [NonEmptyReads],
    by simp, by decide, by decide, by simp, ?_⟩
  intro fuel
  match fuel with
  | 0 => rfl
  | 1 => rfl
  | fuel + 2 =>
    have h1 : Reader.read { maxPayloadSize := 16, buffer := { stream := [.data [0, 0], .wouldBlock, .data [0, 2, 0, 7]] } }
        = (.error .wouldBlock, { maxPayloadSize := 16, buffer := { stream := [.data [0, 2, 0, 7]] } }) := by
      decide
    have h2 : Reader.read { maxPayloadSize := 16, buffer := { stream := [.data [0, 2, 0, 7]] } }
        = (.error .lengthTooLarge, { maxPayloadSize := 16, payloadSize := some 131079 }) := by
      decide
    simp only [Reader.drain, h1, h2]

/-- **C34 is false of the code for an empty payload**: it is reported as end of stream, and
the payloads after it are not returned. -/
theorem C34_empty_payload_false (fuel : Nat) :
    (Reader.drain fuel { maxPayloadSize := 16
                         buffer := { stream := [.data (frame [] ++ frame [7])] } }).1 = [] := by
  match fuel with
  | 0 => rfl
  | fuel + 1 =>
    have h1 : Reader.read { maxPayloadSize := 16, buffer := { stream := [.data (frame [] ++ frame [7])] } }
        = (.error .eof, { maxPayloadSize := 16, payloadSize := some 0, buffer := { buf := frame [7] } }) := by
      decide
    simp only [Reader.drain, h1]

/-- **C35 (rejection).** If the next frame declares more than the maximum, reading reports
it as too large, takes nothing beyond the length prefix from the stream, and keeps
reporting it without touching the stream. -/
theorem C35_oversized_rejected (r : Reader) (n : Nat) (s : List Sym)
    (hsize : r.payloadSize = none) (hn : n < 2 ^ 32) (hok : NonEmptyReads r.buffer.stream)
    (hs : r.buffer.buf.map .byte ++ symsOf r.buffer.stream = (be 4 n).map .byte ++ s)
    (hmax : r.maxPayloadSize < n) :
    ∃ r', r.read = (.error .lengthTooLarge, r') ∧
      r'.buffer.buf.map .byte ++ symsOf r'.buffer.stream = s ∧
      r'.read = (.error .lengthTooLarge, r') := by
  obtain ⟨b', e1, e2, e3⟩ := readExact_ok (r.buffer.stream.length + 5) r.buffer (be 4 n) [] s
    (by rw [be_length]; omega) hok hs
  rw [be_length] at e1
  have hl : r.readLength = (.ok (), { r with buffer := b', payloadSize := some n }) := by
    simp only [Reader.readLength, hsize, e1, List.nil_append, beNat_be]
    rw [Nat.mod_eq_of_lt (by simpa using hn)]
  refine ⟨{ r with buffer := b', payloadSize := some n }, ?_, e2, ?_⟩
  · simp only [Reader.read, hl, if_pos hmax]
  · simp only [Reader.read, Reader.readLength, if_pos hmax]

example : Reader.read { maxPayloadSize := 2, buffer := { stream := [.data [0, 0, 0, 3, 7, 8, 9]] } } =
    (.error .lengthTooLarge,
      { maxPayloadSize := 2, payloadSize := some 3, buffer := { buf := [7, 8, 9] } }) := by decide

private theorem readLoop_not_large (size fuel : Nat) (r r' : Reader) (e : PayloadErr)
    (h : r.readLoop size fuel = (.error e, r')) : e ≠ .lengthTooLarge := by
  induction fuel generalizing r with
  | zero => simp only [Reader.readLoop, Prod.mk.injEq, Except.error.injEq] at h; rw [← h.1]; simp
  | succ fuel ih =>
    simp only [Reader.readLoop] at h
    split at h
    · split at h
      · simp only [Prod.mk.injEq, Except.error.injEq] at h; rw [← h.1]; simp
      · split at h
        · simp at h
        · exact ih _ h
    · next e' b he =>
      simp only [Prod.mk.injEq, Except.error.injEq] at h
      rw [← h.1]; cases e' <;> simp [PayloadErr.ofIo]

/-- **C35 (no false rejection).** A frame that declares at most the maximum — whether its
length prefix is next on the stream or has already been read — is never reported as too
large. -/
theorem C35_within_limit_not_rejected (r : Reader) (n : Nat) (s : List Sym) (hn : n < 2 ^ 32)
    (hok : NonEmptyReads r.buffer.stream)
    (h : r.payloadSize = some n ∨ (r.payloadSize = none ∧
      r.buffer.buf.map .byte ++ symsOf r.buffer.stream = (be 4 n).map .byte ++ s))
    (hmax : n ≤ r.maxPayloadSize) : r.read.1 ≠ .error .lengthTooLarge := by
  have key : ∀ r1 : Reader, r.readLength = (.ok (), r1) → r1.payloadSize = some n →
      r1.maxPayloadSize = r.maxPayloadSize → r.read.1 ≠ .error .lengthTooLarge := by
    intro r1 hl hs hm
    simp only [Reader.read, hl, hs, hm, if_neg (Nat.not_lt.2 hmax)]
    split
    · next e r2 he =>
      intro h0
      simp only [Except.error.injEq] at h0
      rw [h0] at he
      exact readLoop_not_large _ _ _ _ _ he rfl
    · simp
  rcases h with h | ⟨h, hs⟩
  · exact key r (by simp [Reader.readLength, h]) h rfl
  · obtain ⟨b', e1, e2, e3⟩ := readExact_ok (r.buffer.stream.length + 5) r.buffer (be 4 n) [] s
      (by rw [be_length]; omega) hok hs
    rw [be_length] at e1
    refine key { r with buffer := b', payloadSize := some n } ?_ rfl rfl
    simp only [Reader.readLength, h, e1, List.nil_append, beNat_be]
    rw [Nat.mod_eq_of_lt (by simpa using hn)]

example : (Reader.read { maxPayloadSize := 3, buffer := { stream := [.data [0, 0, 0, 3, 7, 8, 9]] } }).1 =
    .ok [7, 8, 9] := by decide

private theorem writeLoop_spec (bytes : Bytes) (sched : List WriteItem) (w : Nat) (acc : Bytes)
    (hw : w ≤ bytes.length) (ha : acc = bytes.take w) :
    ∃ w', w ≤ w' ∧ w' ≤ bytes.length ∧ (writeLoop bytes sched w acc).2 = bytes.take w' ∧
      ((writeLoop bytes sched w acc).1 = .ok ↔ w' = bytes.length) := by
  induction sched generalizing w acc with
  | nil =>
    unfold writeLoop
    split
    · exact ⟨w, Nat.le_refl _, hw, ha, by simp; omega⟩
    · exact ⟨w, Nat.le_refl _, hw, ha, by simp; omega⟩
  | cons x sched ih =>
    unfold writeLoop
    split
    · cases x with
      | accept n =>
        obtain ⟨w', h1, h2, h3, h4⟩ := ih (w + min n (bytes.length - w))
          (acc ++ (bytes.drop w).take (min n (bytes.length - w))) (by omega) (by
            rw [ha, List.take_add])
        exact ⟨w', by omega, h2, h3, h4⟩
      | wouldBlock => exact ih w acc hw ha
      | interrupted => exact ih w acc hw ha
      | failed => exact ⟨w, Nat.le_refl _, hw, ha, by simp; omega⟩
    · exact ⟨w, Nat.le_refl _, hw, ha, by simp; omega⟩

/-- **C36.** For every schedule of partial writes and errors, what the stream accepted is a
prefix of the buffer — nothing duplicated, reordered or skipped — and the call reports
success exactly when the stream has accepted the whole buffer. -/
theorem C36_write_all (bytes : Bytes) (sched : List WriteItem) :
    (writeAll bytes sched).2 <+: bytes ∧
      ((writeAll bytes sched).1 = .ok ↔ (writeAll bytes sched).2 = bytes) := by
  obtain ⟨w, -, h2, h3, h4⟩ := writeLoop_spec bytes sched 0 [] (Nat.zero_le _) (by simp)
  simp only [writeAll, h3]
  refine ⟨List.take_prefix _ _, ?_⟩
  rw [h4]
  constructor
  · rintro rfl; simp
  · intro h
    have := congrArg List.length h
    simp only [List.length_take] at this
    omega

example : writeAll [1, 2, 3] [.accept 1, .wouldBlock, .interrupted, .accept 0, .accept 9] =
    (.ok, [1, 2, 3]) := by simp [writeAll, writeLoop]
example : writeAll [1, 2, 3] [.accept 2, .failed] = (.err, [1, 2]) := by simp [writeAll, writeLoop]

/-- **C36 (progress).** The call fails only if a write failed with an error other than
would-block and interrupted, and it ends once the stream has accepted everything: a
schedule whose accepted amounts reach the buffer's length without a failure succeeds. -/
theorem C36_write_all_ends (bytes : Bytes) (sched : List WriteItem)
    (hf : .failed ∉ sched)
    (hs : bytes.length ≤ (sched.map fun | .accept n => n | _ => 0).sum) :
    (writeAll bytes sched).1 = .ok := by
  have key : ∀ (sched : List WriteItem) (w : Nat) (acc : Bytes), .failed ∉ sched →
      bytes.length ≤ w + (sched.map fun | .accept n => n | _ => 0).sum →
      (writeLoop bytes sched w acc).1 = .ok := by
    intro sched
    induction sched with
    | nil =>
      intro w acc _ h
      unfold writeLoop
      rw [if_neg (by simpa using h)]
    | cons x sched ih =>
      intro w acc hf h
      unfold writeLoop
      split
      · simp only [List.mem_cons, not_or] at hf
        cases x with
        | accept n =>
          simp only [List.map_cons, List.sum_cons] at h
          by_cases hn : n ≤ bytes.length - w
          · exact ih _ _ hf.2 (by rw [Nat.min_eq_left hn]; omega)
          · exact ih _ _ hf.2 (by omega)
        | wouldBlock => exact ih _ _ hf.2 (by simpa using h)
        | interrupted => exact ih _ _ hf.2 (by simpa using h)
        | failed => exact absurd rfl hf.1
      · rfl
  exact key sched 0 [] hf (by simpa using hs)

example : .failed ∉ ([.accept 2, .wouldBlock, .accept 1] : List WriteItem) ∧
    (writeAll [1, 2, 3] [.accept 2, .wouldBlock, .accept 1]).1 = .ok := by
  simp [writeAll, writeLoop]

end Verif
