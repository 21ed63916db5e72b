import Verif.Lemmas.Wire
/-! # Lemmas about buffered, length-prefixed reading of any stream -/
namespace Verif.Wire

/-- what reading a length makes of the stream -/
def scanPrefix : Bytes → List Sym → Except IoErr Bytes × List Sym
  | _, [] => (.error .unexpectedEof, [])
  | _, .failed :: s => (.error .other, s)
  | _, .block :: s => (.error .wouldBlock, s)
  | got, .interrupted :: s => scanPrefix got s
  | got, .byte b :: s => if got.length + 1 = 4 then (.ok (got ++ [b]), s) else scanPrefix (got ++ [b]) s

/-- what reading a payload makes of the stream -/
def scanBody (n : Nat) : Bytes → List Sym → Except PayloadErr Unit × Bytes × List Sym
  | got, [] => (.error .eof, got, [])
  | got, .failed :: s => (.error .io, got, s)
  | got, .block :: s => (.error .wouldBlock, got, s)
  | got, .interrupted :: s => (.error .io, got, s)
  | got, .byte b :: s =>
    if n = 0 then (.error .eof, got, s)
    else if got.length + 1 = n then (.ok (), got ++ [b], s) else scanBody n (got ++ [b]) s

theorem scanPrefix_length (got : Bytes) (s : List Sym) : (scanPrefix got s).2.length ≤ s.length ∧
    (s ≠ [] → (scanPrefix got s).2.length < s.length) := by
  induction s generalizing got with
  | nil => simp [scanPrefix]
  | cons x s ih =>
    cases x with
    | byte b =>
      simp only [scanPrefix]
      split
      · simp
      · have := (ih (got ++ [b])).1; simp only [List.length_cons]; exact ⟨by omega, fun _ => by omega⟩
    | block => simp [scanPrefix]
    | interrupted => have := (ih got).1; simp only [scanPrefix, List.length_cons]; exact ⟨by omega, fun _ => by omega⟩
    | failed => simp [scanPrefix]

theorem scanBody_length (n : Nat) (got : Bytes) (s : List Sym) : (scanBody n got s).2.2.length ≤ s.length ∧
    (s ≠ [] → (scanBody n got s).2.2.length < s.length) := by
  induction s generalizing got with
  | nil => simp [scanBody]
  | cons x s ih =>
    cases x with
    | byte b =>
      simp only [scanBody]
      split
      · simp
      · split
        · simp
        · have := (ih (got ++ [b])).1; simp only [List.length_cons]; exact ⟨by omega, fun _ => by omega⟩
    | block => simp [scanBody]
    | interrupted => simp [scanBody]
    | failed => simp [scanBody]

theorem decode_none (max : Nat) (got : Bytes) (s : List Sym) : decode max none got s = match scanPrefix got s with
    | (.ok bs, s') => if max < beNat bs then ([], .lengthTooLarge) else decode max (some (beNat bs)) [] s'
    | (.error .wouldBlock, s') => decode max none [] s'
    | (.error e, _) => ([], .ofIo e) := by
  induction s generalizing got with
  | nil => simp [decode, scanPrefix, PayloadErr.ofIo]
  | cons x s ih =>
    cases x with
    | byte b =>
      simp only [decode, scanPrefix]
      split
      · rfl
      · exact ih _
    | block => simp [decode, scanPrefix]
    | interrupted => simp only [decode, scanPrefix]; exact ih _
    | failed => simp [decode, scanPrefix, PayloadErr.ofIo]

theorem decode_some (max n : Nat) (got : Bytes) (s : List Sym) : decode max (some n) got s = match scanBody n got s with
    | (.ok (), p, s') => (p :: (decode max none [] s').1, (decode max none [] s').2)
    | (.error .wouldBlock, got', s') => decode max (some n) got' s'
    | (.error e, _, _) => ([], e) := by
  induction s generalizing got with
  | nil => simp [decode, scanBody]
  | cons x s ih =>
    cases x with
    | byte b =>
      simp only [decode, scanBody]
      split
      · rfl
      · split
        · rfl
        · exact ih _
    | block => simp [decode, scanBody]
    | interrupted => simp [decode, scanBody]
    | failed => simp [decode, scanBody]

/-- the errors of a read -/
def Sym.err? : Sym → Option IoErr
  | .byte _ => none
  | .block => some .wouldBlock
  | .interrupted => some .interrupted
  | .failed => some .other

theorem read_err (n : Nat) (r : BufReader) (hr : r.Ok) (x : Sym) (t : List Sym) (e : IoErr) (he : x.err? = some e)
    (hs : r.syms = x :: t) : ∃ r', r.read n = (.error e, r') ∧ r'.syms = t ∧ r'.Ok := by
  obtain ⟨buf, stream⟩ := r
  cases buf with
  | cons c cs =>
    simp only [BufReader.syms, List.map_cons, List.cons_append, List.cons.injEq] at hs
    rw [← hs.1] at he; simp [Sym.err?] at he
  | nil =>
    have hsy : symsOf stream = x :: t := by simpa [BufReader.syms] using hs
    cases stream with
    | nil => simp [symsOf] at hsy
    | cons y s =>
      have ht : NonEmptyReads s := NonEmptyReads.tail hr
      have main : ∀ k, netRead k (y :: s) = (.error e, s) ∧ symsOf s = t := by
        intro k
        rw [symsOf_cons] at hsy
        cases y with
        | data bs =>
          cases bs with
          | nil => exact absurd rfl (hr [] (by simp))
          | cons c cs =>
            simp only [NetItem.syms, List.map_cons, List.cons_append, List.cons.injEq] at hsy
            rw [← hsy.1] at he; simp [Sym.err?] at he
        | wouldBlock =>
          simp only [NetItem.syms, List.cons_append, List.nil_append, List.cons.injEq] at hsy
          rw [← hsy.1] at he
          simp only [Sym.err?, Option.some.injEq] at he
          exact ⟨by rw [← he]; rfl, hsy.2⟩
        | interrupted =>
          simp only [NetItem.syms, List.cons_append, List.nil_append, List.cons.injEq] at hsy
          rw [← hsy.1] at he
          simp only [Sym.err?, Option.some.injEq] at he
          exact ⟨by rw [← he]; rfl, hsy.2⟩
        | failed =>
          simp only [NetItem.syms, List.cons_append, List.nil_append, List.cons.injEq] at hsy
          rw [← hsy.1] at he
          simp only [Sym.err?, Option.some.injEq] at he
          exact ⟨by rw [← he]; rfl, hsy.2⟩
      refine ⟨⟨[], s⟩, ?_, by simpa [BufReader.syms] using (main 0).2, ht⟩
      simp only [BufReader.read]
      by_cases hc : capacity ≤ n
      · rw [if_pos hc, (main n).1]
      · rw [if_neg hc, (main capacity).1]

theorem read_zero (r : BufReader) (hr : r.Ok) (h : ∀ x t, r.syms = x :: t → ∃ b, x = .byte b) :
    ∃ r', r.read 0 = (.ok [], r') := by
  obtain ⟨buf, stream⟩ := r
  cases buf with
  | cons c cs => exact ⟨_, rfl⟩
  | nil =>
    have hsy : (⟨[], stream⟩ : BufReader).syms = symsOf stream := by simp [BufReader.syms]
    rw [hsy] at h
    simp only [BufReader.read, if_neg (show ¬ capacity ≤ 0 by decide)]
    obtain ⟨a1, a2, -⟩ := netRead_spec capacity stream (by decide) hr
    cases hst : symsOf stream with
    | nil => rw [a1 hst]; exact ⟨_, rfl⟩
    | cons x t =>
      obtain ⟨b, rfl⟩ := h x t hst
      obtain ⟨bs, s', e, -⟩ := a2 b t hst
      rw [e]; exact ⟨_, rfl⟩

theorem scanPrefix_bytes (bs got : Bytes) (s : List Sym) (h : got.length + bs.length < 4) :
    scanPrefix got (bs.map .byte ++ s) = scanPrefix (got ++ bs) s := by
  induction bs generalizing got with
  | nil => simp
  | cons b bs ih =>
    simp only [List.length_cons] at h
    simp only [List.map_cons, List.cons_append, scanPrefix]
    rw [if_neg (by omega), ih _ (by simp only [List.length_append, List.length_cons, List.length_nil]; omega)]
    simp

theorem scanPrefix_done (bs got : Bytes) (s : List Sym) (h : got.length + bs.length = 4) (hb : bs ≠ []) :
    scanPrefix got (bs.map .byte ++ s) = (.ok (got ++ bs), s) := by
  have h1 : bs = bs.dropLast ++ [bs.getLast hb] := (List.dropLast_concat_getLast hb).symm
  have hl : bs.length = bs.dropLast.length + 1 := by
    have := congrArg List.length h1; simpa using this
  rw [h1, List.map_append, List.append_assoc, scanPrefix_bytes _ _ _ (by omega)]
  simp only [List.map_cons, List.map_nil, List.singleton_append, scanPrefix]
  rw [if_pos (by simp only [List.length_append]; omega)]
  simp

theorem readExact_scan (fuel : Nat) (r : BufReader) (got : Bytes) (hg : got.length < 4) (hr : r.Ok)
    (hf : 4 - got.length + r.syms.count .interrupted < fuel) :
    ∃ r', r.readExact fuel (4 - got.length) got = ((scanPrefix got r.syms).1, r') ∧ r'.syms = (scanPrefix got r.syms).2 ∧ r'.Ok := by
  induction fuel generalizing r got with
  | zero => omega
  | succ fuel ih =>
    have hn : 4 - got.length ≠ 0 := by omega
    simp only [BufReader.readExact, if_neg hn]
    cases hs : r.syms with
    | nil =>
      obtain ⟨r', e1, e2, e3⟩ := (read_spec (4 - got.length) r (by omega) hr).1 hs
      rw [e1]
      exact ⟨r', by simp [scanPrefix], by simpa [scanPrefix] using e2, e3⟩
    | cons x t =>
      cases x with
      | byte b =>
        obtain ⟨bs, r1, e1, e2, e3, e4⟩ := (read_spec (4 - got.length) r (by omega) hr).2.1 b t hs
        rw [e1]
        simp only [List.isEmpty_cons, Bool.false_eq_true, if_false]
        have hcount : r.syms.count .interrupted = r1.syms.count .interrupted := by
          rw [e3, List.count_append]
          have : ((b :: bs).map Sym.byte).count .interrupted = 0 := by
            rw [List.count_eq_zero]; simp
          omega
        by_cases hd : got.length + (b :: bs).length = 4
        · have hz : 4 - got.length - (b :: bs).length = 0 := by omega
          refine ⟨r1, ?_, ?_, e4⟩
          · rw [hz, ← hs, e3, scanPrefix_done _ _ _ hd (by simp)]
            cases fuel with
            | zero => omega
            | succ fuel => simp [BufReader.readExact]
          · rw [← hs, e3, scanPrefix_done _ _ _ hd (by simp)]
        · have hlt : got.length + (b :: bs).length < 4 := by omega
          have hl : (got ++ b :: bs).length = got.length + (b :: bs).length := by simp
          have hp : 0 < (b :: bs).length := by simp
          obtain ⟨r', f1, f2, f3⟩ := ih r1 (got ++ b :: bs) (by omega) e4 (by omega)
          have hz : 4 - got.length - (b :: bs).length = 4 - (got ++ b :: bs).length := by omega
          rw [← hs, e3, scanPrefix_bytes _ _ _ hlt, hz]
          exact ⟨r', f1, f2, f3⟩
      | block =>
        obtain ⟨r', e1, e2, e3⟩ := read_err (4 - got.length) r hr _ _ .wouldBlock rfl hs
        rw [e1]; exact ⟨r', rfl, e2, e3⟩
      | failed =>
        obtain ⟨r', e1, e2, e3⟩ := read_err (4 - got.length) r hr _ _ .other rfl hs
        rw [e1]; exact ⟨r', rfl, e2, e3⟩
      | interrupted =>
        obtain ⟨r1, e1, e2, e3⟩ := read_err (4 - got.length) r hr _ _ .interrupted rfl hs
        rw [e1]
        obtain ⟨r', f1, f2, f3⟩ := ih r1 got hg e3 (by
          rw [hs] at hf
          simp only [List.count_cons_self] at hf
          rw [e2]; omega)
        refine ⟨r', ?_, ?_, f3⟩
        · simp only [f1, e2, scanPrefix]
        · rw [f2, e2]; rfl

theorem count_interrupted (s : List NetItem) : (symsOf s).count .interrupted ≤ s.length := by
  induction s with
  | nil => simp [symsOf]
  | cons x s ih =>
    rw [symsOf_cons, List.count_append, List.length_cons]
    have : x.syms.count .interrupted ≤ 1 := by
      cases x with
      | data bs =>
        have : (bs.map Sym.byte).count .interrupted = 0 := by rw [List.count_eq_zero]; simp
        simp [NetItem.syms, this]
      | _ => simp [NetItem.syms]
    omega

/-- inside a payload -/
structure Inside (r : Reader) (n : Nat) (got : Bytes) : Prop where
  size : r.payloadSize = some n
  pos : r.payloadPos = got.length
  lt : got.length < n ∨ n = 0 ∧ got = []
  payload : r.payload.length = n ∨ (r.payload = [] ∧ got = [])
  gotEq : r.payload.take got.length = got
  ok : r.buffer.Ok

theorem scanBody_bytes (n : Nat) (bs got : Bytes) (s : List Sym) (h : got.length + bs.length < n) :
    scanBody n got (bs.map .byte ++ s) = scanBody n (got ++ bs) s := by
  induction bs generalizing got with
  | nil => simp
  | cons b bs ih =>
    simp only [List.length_cons] at h
    simp only [List.map_cons, List.cons_append, scanBody]
    rw [if_neg (by omega), if_neg (by omega), ih _ (by simp only [List.length_append, List.length_cons, List.length_nil]; omega)]
    simp

theorem scanBody_done (n : Nat) (bs got : Bytes) (s : List Sym) (h : got.length + bs.length = n) (hb : bs ≠ []) :
    scanBody n got (bs.map .byte ++ s) = (.ok (), got ++ bs, s) := by
  have h1 : bs = bs.dropLast ++ [bs.getLast hb] := (List.dropLast_concat_getLast hb).symm
  have hl : bs.length = bs.dropLast.length + 1 := by
    have := congrArg List.length h1; simpa using this
  rw [h1, List.map_append, List.append_assoc, scanBody_bytes _ _ _ _ (by omega)]
  simp only [List.map_cons, List.map_nil, List.singleton_append, scanBody]
  rw [if_neg (by omega), if_pos (by simp only [List.length_append]; omega)]
  simp

theorem readLoop_scan (fuel : Nat) (r : Reader) (n : Nat) (got : Bytes) (h : Inside r n got) (hp : r.payload.length = n)
    (hf : n - got.length < fuel) :
    ∃ r', r.readLoop n fuel = ((scanBody n got r.buffer.syms).1, r') ∧
      ((scanBody n got r.buffer.syms).1 = .ok () → r'.payload = (scanBody n got r.buffer.syms).2.1 ∧ r'.payloadSize = none ∧
        r'.payloadPos = 0 ∧ r'.maxPayloadSize = r.maxPayloadSize ∧ r'.buffer.Ok ∧ r'.buffer.syms = (scanBody n got r.buffer.syms).2.2) ∧
      ((scanBody n got r.buffer.syms).1 = .error .wouldBlock → Inside r' n (scanBody n got r.buffer.syms).2.1 ∧
        r'.maxPayloadSize = r.maxPayloadSize ∧ r'.buffer.syms = (scanBody n got r.buffer.syms).2.2) := by
  induction fuel generalizing r got with
  | zero => omega
  | succ fuel ih =>
    have hpos := h.pos
    cases hs : r.buffer.syms with
    | nil =>
      have : ∃ b', r.buffer.read (n - r.payloadPos) = (.ok [], b') := by
        by_cases h0 : n - r.payloadPos = 0
        · rw [h0]; exact read_zero _ h.ok (by rw [hs]; simp)
        · obtain ⟨b', e, -⟩ := (read_spec (n - r.payloadPos) r.buffer (by omega) h.ok).1 hs
          exact ⟨b', e⟩
      obtain ⟨b', e⟩ := this
      simp only [Reader.readLoop, e, List.isEmpty_nil, if_true, scanBody]
      exact ⟨_, rfl, by simp, by simp⟩
    | cons x t =>
      cases x with
      | block =>
        obtain ⟨b', e1, e2, e3⟩ := read_err (n - r.payloadPos) r.buffer h.ok _ _ .wouldBlock rfl hs
        simp only [Reader.readLoop, e1, scanBody]
        exact ⟨_, rfl, by simp, fun _ => ⟨⟨h.size, h.pos, h.lt, h.payload, h.gotEq, e3⟩, rfl, e2⟩⟩
      | failed =>
        obtain ⟨b', e1, e2, e3⟩ := read_err (n - r.payloadPos) r.buffer h.ok _ _ .other rfl hs
        simp only [Reader.readLoop, e1, scanBody]
        exact ⟨_, rfl, by simp, by simp⟩
      | interrupted =>
        obtain ⟨b', e1, e2, e3⟩ := read_err (n - r.payloadPos) r.buffer h.ok _ _ .interrupted rfl hs
        simp only [Reader.readLoop, e1, scanBody]
        exact ⟨_, rfl, by simp, by simp⟩
      | byte b =>
        rcases h.lt with hlt | ⟨rfl, rfl⟩
        · obtain ⟨bs, b', e1, e2, e3, e4⟩ := (read_spec (n - r.payloadPos) r.buffer (by omega) h.ok).2.1 b t hs
          rw [← hs, e3]
          simp only [Reader.readLoop, e1, List.isEmpty_cons, Bool.false_eq_true, if_false]
          have hwt : (writeAt r.payload r.payloadPos (b :: bs)).take (got.length + (b :: bs).length) = got ++ (b :: bs) := by
            rw [writeAt, h.pos, h.gotEq, List.take_append_of_le_length (by simp), List.take_of_length_le (by simp)]
          have hwl : (writeAt r.payload r.payloadPos (b :: bs)).length = n := by
            rw [writeAt, h.pos, h.gotEq]
            simp only [List.length_append, List.length_drop, hp]
            omega
          by_cases hd : r.payloadPos + (b :: bs).length = n
          · rw [if_pos hd, scanBody_done n (b :: bs) got _ (by omega) (by simp)]
            refine ⟨_, rfl, fun _ => ⟨?_, rfl, rfl, rfl, e4, rfl⟩, by simp⟩
            show writeAt r.payload r.payloadPos (b :: bs) = got ++ b :: bs
            rw [← hwt, List.take_of_length_le (by omega)]
          · rw [if_neg hd, scanBody_bytes n (b :: bs) got _ (by omega)]
            have hl : (got ++ b :: bs).length = got.length + (b :: bs).length := by simp
            have hp0 : 0 < (b :: bs).length := by simp
            have hin : Inside { r with buffer := b', payload := writeAt r.payload r.payloadPos (b :: bs), payloadPos := r.payloadPos + (b :: bs).length } n (got ++ b :: bs) :=
              ⟨h.size, by rw [hl, ← hpos], Or.inl (by omega), Or.inl hwl, by rw [hl]; exact hwt, e4⟩
            exact ih _ _ hin hwl (by omega)
        · obtain ⟨b', e⟩ := read_zero r.buffer h.ok (by
            rw [hs]; intro x t hxt; simp only [List.cons.injEq] at hxt; exact ⟨b, hxt.1.symm⟩)
          simp only [Reader.readLoop, Nat.zero_sub, e, List.isEmpty_nil, if_true, scanBody]
          exact ⟨_, rfl, by simp, by simp⟩

theorem readPayload_scan (r : Reader) (n : Nat) (got : Bytes) (h : Inside r n got) :
    ∃ r', r.readPayload n = ((scanBody n got r.buffer.syms).1, r') ∧
      ((scanBody n got r.buffer.syms).1 = .ok () → r'.payload = (scanBody n got r.buffer.syms).2.1 ∧ r'.payloadSize = none ∧
        r'.payloadPos = 0 ∧ r'.maxPayloadSize = r.maxPayloadSize ∧ r'.buffer.Ok ∧ r'.buffer.syms = (scanBody n got r.buffer.syms).2.2) ∧
      ((scanBody n got r.buffer.syms).1 = .error .wouldBlock → Inside r' n (scanBody n got r.buffer.syms).2.1 ∧
        r'.maxPayloadSize = r.maxPayloadSize ∧ r'.buffer.syms = (scanBody n got r.buffer.syms).2.2) := by
  simp only [Reader.readPayload]
  by_cases hne : r.payload.length ≠ n
  · rw [if_pos hne]
    rcases h.payload with hp | ⟨hp, rfl⟩
    · exact absurd hp hne
    · have hl : (resize r.payload n).length = n := by simp [resize, hp]
      exact readLoop_scan (n + 1) { r with payload := resize r.payload n } n []
        ⟨h.size, h.pos, h.lt, Or.inl hl, rfl, h.ok⟩ hl (by simp)
  · rw [if_neg hne]
    exact readLoop_scan (n + 1) r n got h (by simpa using hne) (by omega)

theorem read_inside (r : Reader) (n : Nat) (got : Bytes) (h : Inside r n got) (hm : n ≤ r.maxPayloadSize) :
    ∃ r', r.read = ((scanBody n got r.buffer.syms).1.map fun _ => (scanBody n got r.buffer.syms).2.1, r') ∧
      ((scanBody n got r.buffer.syms).1 = .ok () → Between r' (scanBody n got r.buffer.syms).2.2 ∧ r'.maxPayloadSize = r.maxPayloadSize) ∧
      ((scanBody n got r.buffer.syms).1 = .error .wouldBlock → Inside r' n (scanBody n got r.buffer.syms).2.1 ∧
        r'.maxPayloadSize = r.maxPayloadSize ∧ r'.buffer.syms = (scanBody n got r.buffer.syms).2.2) := by
  obtain ⟨r', e1, e2, e3⟩ := readPayload_scan r n got h
  have hl : r.readLength = (.ok (), r) := by simp [Reader.readLength, h.size]
  simp only [Reader.read, hl, h.size, if_neg (Nat.not_lt.2 hm), e1]
  rcases hsc : scanBody n got r.buffer.syms with ⟨res, p, s'⟩
  rw [hsc] at e2 e3
  cases res with
  | error e => exact ⟨r', rfl, by simp, e3⟩
  | ok u =>
    obtain ⟨q1, q2, q3, q4, q5, q6⟩ := e2 rfl
    refine ⟨{ r' with payload := [] }, ?_, fun _ => ⟨⟨q2, q3, rfl, q6, q5⟩, q4⟩, by simp⟩
    simp only [q1, Except.map]

theorem read_between (r : Reader) (s : List Sym) (h : Between r s) :
    (∃ e s' r', scanPrefix [] s = (.error e, s') ∧ r.read = (.error (.ofIo e), r') ∧ Between r' s' ∧ r'.maxPayloadSize = r.maxPayloadSize) ∨
    (∃ bs s' r1, scanPrefix [] s = (.ok bs, s') ∧ r1.maxPayloadSize = r.maxPayloadSize ∧ r1.buffer.syms = s' ∧
      r.read = r1.read ∧ r1.payloadSize = some (beNat bs) ∧ Inside r1 (beNat bs) []) := by
  obtain ⟨b', e1, e2, e3⟩ := readExact_scan (r.buffer.stream.length + 5) r.buffer [] (by simp) h.ok (by
    have h1 := count_interrupted r.buffer.stream
    have : r.buffer.syms.count .interrupted = (symsOf r.buffer.stream).count .interrupted := by
      rw [BufReader.syms, List.count_append]
      have : (r.buffer.buf.map Sym.byte).count .interrupted = 0 := by rw [List.count_eq_zero]; simp
      omega
    simp only [List.length_nil]; omega)
  rw [h.syms] at e1 e2
  simp only [List.length_nil, Nat.sub_zero] at e1
  rcases hsc : scanPrefix [] s with ⟨res, s'⟩
  rw [hsc] at e1 e2
  cases res with
  | error e =>
    left
    refine ⟨e, s', { r with buffer := b' }, rfl, ?_, ⟨h.size, h.pos, h.payload, e2, e3⟩, rfl⟩
    simp [Reader.read, Reader.readLength, h.size, e1]
  | ok bs =>
    right
    refine ⟨bs, s', { r with buffer := b', payloadSize := some (beNat bs) }, rfl, rfl, e2, ?_, rfl, ?_⟩
    · have hl : r.readLength = (.ok (), { r with buffer := b', payloadSize := some (beNat bs) }) := by
        simp only [Reader.readLength, h.size, e1]
      simp only [Reader.read, hl]
      rfl
    · exact ⟨rfl, h.pos, by simp; omega, Or.inr ⟨h.payload, rfl⟩, rfl, e3⟩

theorem drain_exact (fuel : Nat) :
    (∀ (r : Reader) (s : List Sym), Between r s → s.length < fuel → r.drain fuel = decode r.maxPayloadSize none [] s) ∧
    (∀ (r : Reader) (n : Nat) (got : Bytes), Inside r n got → n ≤ r.maxPayloadSize → r.buffer.syms.length < fuel →
      r.drain fuel = decode r.maxPayloadSize (some n) got r.buffer.syms) := by
  induction fuel with
  | zero => exact ⟨fun _ _ _ h => absurd h (by omega), fun _ _ _ _ _ h => absurd h (by omega)⟩
  | succ fuel ih =>
    have inside : ∀ (r : Reader) (n : Nat) (got : Bytes), Inside r n got → n ≤ r.maxPayloadSize → r.buffer.syms.length < fuel + 1 →
        r.drain (fuel + 1) = decode r.maxPayloadSize (some n) got r.buffer.syms := by
      intro r n got h hm hl
      obtain ⟨r', e1, e2, e3⟩ := read_inside r n got h hm
      have hlen := scanBody_length n got r.buffer.syms
      rw [decode_some]
      rcases hsc : scanBody n got r.buffer.syms with ⟨res, p, s'⟩
      rw [hsc] at e1 e2 e3 hlen
      simp only at hlen
      have hne : (res = .ok () ∨ res = .error .wouldBlock) → s'.length < r.buffer.syms.length := by
        intro hres
        apply hlen.2
        intro h0
        rw [h0] at hsc
        simp only [scanBody, Prod.mk.injEq] at hsc
        rw [← hsc.1] at hres
        simp at hres
      cases res with
      | ok u =>
        obtain ⟨q1, q2⟩ := e2 rfl
        have := hne (Or.inl rfl)
        simp only [Reader.drain, e1, Except.map]
        rw [ih.1 r' s' q1 (by omega), q2]
      | error e =>
        cases e with
        | wouldBlock =>
          obtain ⟨q1, q2, q3⟩ := e3 rfl
          have := hne (Or.inr rfl)
          simp only [Reader.drain, e1, Except.map]
          rw [ih.2 r' n p q1 (by omega) (by rw [q3]; show s'.length < fuel; omega), q2, q3]
        | eof => simp only [Reader.drain, e1, Except.map]
        | io => simp only [Reader.drain, e1, Except.map]
        | protocol => simp only [Reader.drain, e1, Except.map]
        | lengthTooLarge => simp only [Reader.drain, e1, Except.map]
    refine ⟨?_, inside⟩
    intro r s h hl
    have hlen := scanPrefix_length [] s
    rw [decode_none]
    rcases read_between r s h with ⟨e, s', r', h1, h2, h3, h4⟩ | ⟨bs, s', r1, h1, h2, h3, h4, h5, h6⟩
    · rw [h1] at hlen ⊢
      simp only [Reader.drain, h2]
      cases e with
      | wouldBlock =>
        have hne : s'.length < s.length := hlen.2 (by
          intro h0; rw [h0] at h1; simp [scanPrefix] at h1)
        simp only [PayloadErr.ofIo]
        rw [ih.1 r' s' h3 (by omega), h4]
      | interrupted => rfl
      | unexpectedEof => rfl
      | other => rfl
    · rw [h1] at hlen ⊢
      simp only
      have hd : r.drain (fuel + 1) = r1.drain (fuel + 1) := by simp only [Reader.drain, h4]
      rw [hd]
      by_cases hm : r.maxPayloadSize < beNat bs
      · rw [if_pos hm]
        have : r1.read = (.error .lengthTooLarge, r1) := by
          simp only [Reader.read, Reader.readLength, h5, h2, if_pos hm]
        simp only [Reader.drain, this]
      · rw [if_neg hm, inside r1 _ [] h6 (by omega) (by rw [h3]; have := hlen.1; simp only at this; omega), h2, h3]

/-! ## Streams of frames, some of them empty -/

theorem decode_zero (max : Nat) : ∀ s : List Sym, (∀ x ∈ s, x = .block ∨ ∃ b, x = .byte b) → decode max (some 0) [] s = ([], .eof)
  | [], _ => rfl
  | x :: s, h => by
    rcases h x (by simp) with rfl | ⟨b, rfl⟩
    · simp only [decode]
      exact decode_zero max s fun y hy => h y (by simp [hy])
    · simp [decode]

theorem decode_blocks (max : Nat) (t : List Sym) : ∀ s : List Sym, (∀ x ∈ s, x = .block ∨ ∃ b, x = .byte b) → s.filterMap Sym.byte? = [] →
    decode max none [] (s ++ t) = decode max none [] t ∧ decode max (some 0) [] (s ++ t) = decode max (some 0) [] t
  | [], _, _ => ⟨rfl, rfl⟩
  | x :: s, h, h0 => by
    rcases h x (by simp) with rfl | ⟨b, rfl⟩
    · simp only [List.cons_append, decode]
      exact decode_blocks max t s (fun y hy => h y (by simp [hy])) (by simpa [Sym.byte?] using h0)
    · simp [Sym.byte?] at h0

theorem decode_body (max n : Nat) (t : List Sym) : ∀ (body : List Sym) (got : Bytes), (∀ x ∈ body, x = .block ∨ ∃ b, x = .byte b) → got.length < n →
    got.length + (body.filterMap Sym.byte?).length = n →
    decode max (some n) got (body ++ t) = ((got ++ body.filterMap Sym.byte?) :: (decode max none [] t).1, (decode max none [] t).2)
  | [], got, _, h1, h2 => by simp at h2; omega
  | x :: body, got, h, h1, h2 => by
    have hb : ∀ y ∈ body, y = .block ∨ ∃ b, y = .byte b := fun y hy => h y (by simp [hy])
    rcases h x (by simp) with rfl | ⟨b, rfl⟩
    · simp only [List.cons_append, decode]
      exact decode_body max n t body got hb h1 h2
    · have h2 : got.length + ((body.filterMap Sym.byte?).length + 1) = n := by simpa [Sym.byte?] using h2
      simp only [List.cons_append, decode, if_neg (show ¬ n = 0 by omega)]
      by_cases he : got.length + 1 = n
      · have hnil : body.filterMap Sym.byte? = [] := List.length_eq_zero_iff.1 (by omega)
        rw [if_pos he, (decode_blocks max t body hb hnil).1]
        simp [Sym.byte?, hnil]
      · rw [if_neg he, decode_body max n t body (got ++ [b]) hb (by simp; omega) (by simp; omega)]
        simp [Sym.byte?]

theorem framed_plain {ps : List Bytes} {s : List Sym} (h : Framed ps s) : ∀ x ∈ s, x = .block ∨ ∃ b, x = .byte b := by
  induction h with
  | done => simp
  | block _ ih => intro x hx; rcases List.mem_cons.1 hx with rfl | hx; exact .inl rfl; exact ih x hx
  | frame p body _ hb _ ih =>
    intro x hx
    simp only [List.mem_append, List.mem_map] at hx
    rcases hx with (⟨b, -, rfl⟩ | hx) | hx
    · exact .inr ⟨b, rfl⟩
    · exact hb x hx
    · exact ih x hx

/-- Frames are read up to the first empty one. -/
theorem decode_framed (max : Nat) {ps : List Bytes} {s : List Sym} (h : Framed ps s) (hp : ∀ p ∈ ps, p.length ≤ max ∧ p.length < 2 ^ 32) :
    decode max none [] s = (ps.takeWhile (fun p => !p.isEmpty), .eof) := by
  induction h with
  | done => rfl
  | block _ ih => simp only [decode]; exact ih hp
  | @frame ps s p body hpb hb hs ih =>
    have ih := ih fun q hq => hp q (by simp [hq])
    obtain ⟨h1, h2⟩ := hp p (by simp)
    have hlen : ∀ t, decode max none [] ((be 4 p.length).map .byte ++ t) = decode max (some p.length) [] t := by
      intro t
      have hbe : beNat (be 4 p.length) = p.length := by rw [beNat_be]; exact Nat.mod_eq_of_lt (by simpa using h2)
      have hl : (be 4 p.length).length = 4 := by simp [be]
      match hbs : be 4 p.length, hl with
      | [a, b, c, d], _ =>
        rw [hbs] at hbe
        simp [decode, hbe, Nat.not_lt.2 h1]
    rw [List.append_assoc, hlen]
    by_cases he : p = []
    · subst he
      simp only [List.length_nil, List.takeWhile_cons, List.isEmpty_nil, Bool.not_true, Bool.false_eq_true, if_false]
      rw [(decode_blocks max s body hb hpb).2, decode_zero max s (framed_plain hs)]
    · rw [decode_body max _ s body [] hb (by simpa using List.length_pos_iff.2 he) (by simp [hpb]), ih, hpb]
      have : p.isEmpty = false := by simpa using he
      simp [List.takeWhile_cons, this]

end Verif.Wire
