import Verif.Lemmas.Stream
import Verif.Lemmas.Wire
import Verif.Spec.StreamFrames
/-! # Lemmas about frames on a polled socket -/
namespace Verif.Stream
open Wire

theorem read_avail (e : Ending) (n : Nat) (r : BufReader) (hn : 0 < n) (h : Left e r.stream) :
    (total r = [] → ∃ r', total r' = [] ∧ (e = .none ∧ r.read n = (.error .wouldBlock, r') ∨
      e = .fin ∧ r.read n = (.ok [], r') ∨ e = .reset ∧ r.read n = (.error .other, r'))) ∧
    (total r ≠ [] → ∃ bs r', r.read n = (.ok bs, r') ∧ bs ≠ [] ∧ bs.length ≤ n ∧ total r = bs ++ total r' ∧
      Left e r'.stream) := by
  obtain ⟨buf, stream⟩ := r
  cases buf with
  | cons c cs =>
    refine ⟨by simp [total], fun _ => ⟨(c :: cs).take n, ⟨(c :: cs).drop n, stream⟩, rfl, ?_, by simp; omega, ?_, h⟩⟩
    · cases n with
      | zero => omega
      | succ n => simp
    · simp only [total]; rw [← List.append_assoc, List.take_append_drop]
  | nil =>
    rcases h with rfl | ⟨b, bs, rfl⟩
    · refine ⟨fun _ => ?_, by simp [total, dataOf_tail]⟩
      by_cases hc : capacity ≤ n
      · cases e with
        | none => exact ⟨⟨[], []⟩, rfl, .inl ⟨rfl, by simp [BufReader.read, hc, tail, netRead]⟩⟩
        | fin => exact ⟨⟨[], []⟩, rfl, .inr (.inl ⟨rfl, by simp [BufReader.read, hc, tail, netRead]⟩)⟩
        | reset => exact ⟨⟨[], []⟩, rfl, .inr (.inr ⟨rfl, by simp [BufReader.read, hc, tail, netRead]⟩)⟩
      · cases e with
        | none => exact ⟨⟨[], []⟩, rfl, .inl ⟨rfl, by simp [BufReader.read, hc, tail, netRead]⟩⟩
        | fin => exact ⟨⟨[], []⟩, rfl, .inr (.inl ⟨rfl, by simp [BufReader.read, hc, tail, netRead]⟩)⟩
        | reset => exact ⟨⟨[], []⟩, rfl, .inr (.inr ⟨rfl, by simp [BufReader.read, hc, tail, netRead]⟩)⟩
    · refine ⟨by simp [total, dataOf], fun _ => ?_⟩
      have hL : Left e (.data (b :: bs) :: tail e) := Or.inr ⟨b, bs, rfl⟩
      have hcap : 0 < capacity := by decide
      by_cases hc : capacity ≤ n
      · obtain ⟨g1, g2⟩ := (netRead_left e n _ hL).1 _ _ rfl
        refine ⟨(b :: bs).take n, ⟨[], if (b :: bs).length ≤ n then tail e else .data ((b :: bs).drop n) :: tail e⟩,
          by simp only [BufReader.read, if_pos hc, netRead], ?_, by simp; omega, ?_, g2⟩
        · cases n with
          | zero => omega
          | succ n => simp
        · simpa [total] using g1
      · obtain ⟨g1, g2⟩ := (netRead_left e capacity _ hL).1 _ _ rfl
        refine ⟨((b :: bs).take capacity).take n, ⟨((b :: bs).take capacity).drop n,
            if (b :: bs).length ≤ capacity then tail e else .data ((b :: bs).drop capacity) :: tail e⟩,
          by simp only [BufReader.read, if_neg hc, netRead], ?_, by simp; omega, ?_, g2⟩
        · cases n with
          | zero => omega
          | succ n =>
            obtain ⟨c, hc'⟩ : ∃ c, capacity = c + 1 := ⟨capacity - 1, by omega⟩
            rw [hc']; simp
        · simp only [total, List.nil_append]
          rw [← List.append_assoc, List.take_append_drop, g1]

theorem readExact_avail (e : Ending) : ∀ (fuel : Nat) (r : BufReader) (n : Nat) (acc : Bytes), Left e r.stream →
    n < fuel → n ≤ (total r).length →
    ∃ r', r.readExact fuel n acc = (.ok (acc ++ (total r).take n), r') ∧ total r' = (total r).drop n ∧ Left e r'.stream := by
  intro fuel
  induction fuel with
  | zero => intro r n acc _ h; omega
  | succ fuel ih =>
    intro r n acc hl hf hn
    by_cases h0 : n = 0
    · subst h0; exact ⟨r, by simp [BufReader.readExact], by simp, hl⟩
    · have hne : total r ≠ [] := by intro h; rw [h] at hn; simp at hn; omega
      obtain ⟨bs, r1, e1, e2, e3, e4, e5⟩ := (read_avail e n r (by omega) hl).2 hne
      have hpos : 0 < bs.length := List.length_pos_iff.2 e2
      obtain ⟨r2, f1, f2, f3⟩ := ih r1 (n - bs.length) (acc ++ bs) e5 (by omega) (by
        have := congrArg List.length e4; simp only [List.length_append] at this; omega)
      refine ⟨r2, ?_, ?_, f3⟩
      · simp only [BufReader.readExact, h0, if_false, e1, List.isEmpty_iff, e2]
        rw [f1, e4, List.take_append, List.take_of_length_le e3]
        simp
      · rw [f2, e4, List.drop_append, List.drop_of_length_le e3]; simp

/-- the reader is inside the payload `p`, of which it has `got` -/
structure Partway (r : Reader) (p got : Bytes) : Prop where
  size : r.payloadSize = some p.length
  pos : r.payloadPos = got.length
  len : r.payload.length = p.length ∨ (r.payload = [] ∧ got = [])
  gotEq : r.payload.take got.length = got
  pre : got <+: p
  lt : got.length < p.length

/-- the reader is between payloads -/
structure Fresh (r : Reader) : Prop where
  size : r.payloadSize = none
  pos : r.payloadPos = 0
  payload : r.payload = []

theorem readLoop_avail (e : Ending) (p : Bytes) : ∀ (fuel : Nat) (r : Reader) (got : Bytes), Left e r.buffer.stream →
    Partway r p got → r.payload.length = p.length → p.length - got.length < fuel →
    (∀ more, total r.buffer = p.drop got.length ++ more → ∃ r', Reader.readLoop p.length fuel r = (.ok (), r') ∧
      r'.payloadSize = none ∧ r'.payloadPos = 0 ∧ r'.payload = p ∧ r'.maxPayloadSize = r.maxPayloadSize ∧
      total r'.buffer = more ∧ Left e r'.buffer.stream) ∧
    (got ++ total r.buffer <+: p → (got ++ total r.buffer).length < p.length →
      ∃ x r', Reader.readLoop p.length fuel r = (.error x, r') ∧ total r'.buffer = [] ∧
        r'.maxPayloadSize = r.maxPayloadSize ∧
        (e = .none ∧ x = .wouldBlock ∧ Partway r' p (got ++ total r.buffer) ∨ e ≠ .none ∧ x ≠ .wouldBlock)) := by
  intro fuel
  induction fuel with
  | zero => intro r got _ _ _ h; omega
  | succ fuel ih =>
    intro r got hl hp hlen hf
    have hlt := hp.lt
    have hsz : 0 < p.length - r.payloadPos := by rw [hp.pos]; omega
    obtain ⟨a1, a2⟩ := read_avail e (p.length - r.payloadPos) r.buffer hsz hl
    -- one successful read
    have key : ∀ bs b', r.buffer.read (p.length - r.payloadPos) = (.ok bs, b') → bs ≠ [] →
        bs.length ≤ p.length - r.payloadPos → got ++ bs <+: p →
        (writeAt r.payload r.payloadPos bs).length = p.length ∧
        (writeAt r.payload r.payloadPos bs).take (got ++ bs).length = got ++ bs := by
      intro bs b' _ _ hb _
      rw [hp.pos] at hb ⊢
      have hw : writeAt r.payload got.length bs = (got ++ bs) ++ r.payload.drop (got.length + bs.length) := by
        rw [writeAt, hp.gotEq]
      refine ⟨?_, by rw [hw, List.take_append_of_le_length (Nat.le_refl _), List.take_of_length_le (Nat.le_refl _)]⟩
      rw [hw]
      simp only [List.length_append, List.length_drop, hlen]
      omega
    refine ⟨?_, ?_⟩
    · intro more hm
      have hne : total r.buffer ≠ [] := by
        intro h; rw [h] at hm
        have := congrArg List.length hm
        simp only [List.length_nil, List.length_append, List.length_drop] at this; omega
      obtain ⟨bs, b', e1, e2, e3, e4, e5⟩ := a2 hne
      have e3' := e3
      rw [hp.pos] at e3'
      have hbs : bs = (p.drop got.length).take bs.length := by
        have h1 := congrArg (List.take bs.length) (e4.symm.trans hm)
        rw [List.take_append_of_le_length (Nat.le_refl _), List.take_of_length_le (Nat.le_refl _),
          List.take_append_of_le_length (by rw [List.length_drop]; exact e3')] at h1
        exact h1
      have hrest : total b' = (p.drop got.length).drop bs.length ++ more := by
        have h1 := congrArg (List.drop bs.length) (e4.symm.trans hm)
        rw [List.drop_append_of_le_length (Nat.le_refl _), List.drop_of_length_le (Nat.le_refl _), List.nil_append,
          List.drop_append_of_le_length (by rw [List.length_drop]; exact e3')] at h1
        exact h1
      have hgp : got = p.take got.length := by
        obtain ⟨t, rfl⟩ := hp.pre; simp
      have hpre : got ++ bs <+: p := by
        refine ⟨(p.drop got.length).drop bs.length, ?_⟩
        rw [List.append_assoc]
        conv => lhs; arg 2; arg 1; rw [hbs]
        rw [List.take_append_drop]
        conv => lhs; arg 1; rw [hgp]
        rw [List.take_append_drop]
      obtain ⟨k1, k2⟩ := key bs b' e1 e2 e3 hpre
      have hbp := List.length_pos_iff.2 e2
      simp only [Reader.readLoop, e1, List.isEmpty_iff, e2, if_false]
      by_cases hd : r.payloadPos + bs.length = p.length
      · refine ⟨{ r with buffer := b', payload := writeAt r.payload r.payloadPos bs, payloadSize := none, payloadPos := 0 },
          by rw [if_pos hd], rfl, rfl, ?_, rfl, ?_, e5⟩
        · have h2 : (got ++ bs).length = p.length := by rw [List.length_append, ← hp.pos]; exact hd
          rw [List.take_of_length_le (by rw [h2, k1]; exact Nat.le_refl _)] at k2
          show writeAt r.payload r.payloadPos bs = p
          rw [k2]; exact List.IsPrefix.eq_of_length hpre h2
        · show total b' = more
          rw [hrest, List.drop_drop, List.drop_of_length_le (by rw [← hp.pos]; omega), List.nil_append]
      · rw [if_neg hd]
        have hpos' : r.payloadPos + bs.length = (got ++ bs).length := by rw [List.length_append, hp.pos]
        have hpw : Partway { r with buffer := b', payload := writeAt r.payload r.payloadPos bs, payloadPos := r.payloadPos + bs.length } p (got ++ bs) :=
          ⟨hp.size, hpos', .inl k1, k2, hpre, by rw [← hpos']; omega⟩
        obtain ⟨r', f1, f2, f3, f4, f5, f6, f7⟩ := (ih _ (got ++ bs) e5 hpw k1 (by rw [← hpos']; rw [hp.pos]; omega)).1 more (by
          show total b' = _
          rw [hrest, List.drop_drop, List.length_append])
        exact ⟨r', f1, f2, f3, f4, f5, f6, f7⟩
    · intro hpre hlt2
      by_cases hne : total r.buffer = []
      · obtain ⟨b', t0, hcase⟩ := a1 hne
        rcases hcase with ⟨he, hr⟩ | ⟨he, hr⟩ | ⟨he, hr⟩
        · refine ⟨.wouldBlock, { r with buffer := b' }, by simp only [Reader.readLoop, hr, PayloadErr.ofIo], t0, rfl, .inl ⟨he, rfl, ?_⟩⟩
          rw [hne, List.append_nil]
          exact ⟨hp.size, hp.pos, hp.len, hp.gotEq, hp.pre, hp.lt⟩
        · exact ⟨.eof, { r with buffer := b' }, by simp [Reader.readLoop, hr], t0, rfl, .inr ⟨by simp [he], by simp⟩⟩
        · exact ⟨.io, { r with buffer := b' }, by simp only [Reader.readLoop, hr, PayloadErr.ofIo], t0, rfl, .inr ⟨by simp [he], by simp⟩⟩
      · obtain ⟨bs, b', e1, e2, e3, e4, e5⟩ := a2 hne
        have hpre' : got ++ bs <+: p := by
          rw [e4, ← List.append_assoc] at hpre
          exact List.IsPrefix.trans (List.prefix_append _ _) hpre
        obtain ⟨k1, k2⟩ := key bs b' e1 e2 e3 hpre'
        have hbp := List.length_pos_iff.2 e2
        have hpos' : r.payloadPos + bs.length = (got ++ bs).length := by rw [List.length_append, hp.pos]
        have hlt3 : (got ++ bs).length < p.length := by
          rw [e4] at hlt2; simp only [List.length_append] at hlt2 ⊢; omega
        have hpw : Partway { r with buffer := b', payload := writeAt r.payload r.payloadPos bs, payloadPos := r.payloadPos + bs.length } p (got ++ bs) :=
          ⟨hp.size, hpos', .inl k1, k2, hpre', hlt3⟩
        have heq : got ++ total r.buffer = (got ++ bs) ++ total b' := by rw [e4, List.append_assoc]
        obtain ⟨x, r', f1, f2, f3, f4⟩ := (ih _ (got ++ bs) e5 hpw k1 (by rw [← hpos']; rw [hp.pos]; omega)).2
          (by show got ++ bs ++ total b' <+: p; rw [← heq]; exact hpre)
          (by show (got ++ bs ++ total b').length < _; rw [← heq]; exact hlt2)
        refine ⟨x, r', ?_, f2, f3, ?_⟩
        · simp only [Reader.readLoop, e1, List.isEmpty_iff, e2, if_false]
          rw [if_neg (by rw [hpos']; omega)]
          exact f1
        · rw [heq]; exact f4

/-- one call of the reader inside a payload -/
theorem partway_read (e : Ending) (p got : Bytes) (r : Reader) (hl : Left e r.buffer.stream) (hp : Partway r p got)
    (hmax : p.length ≤ r.maxPayloadSize) :
    (∀ more, total r.buffer = p.drop got.length ++ more → ∃ r', r.read = (.ok p, r') ∧ Fresh r' ∧
      r'.maxPayloadSize = r.maxPayloadSize ∧ total r'.buffer = more) ∧
    (got ++ total r.buffer <+: p → (got ++ total r.buffer).length < p.length →
      ∃ x r', r.read = (.error x, r') ∧ total r'.buffer = [] ∧ r'.maxPayloadSize = r.maxPayloadSize ∧
        (e = .none ∧ x = .wouldBlock ∧ Partway r' p (got ++ total r.buffer) ∨ e ≠ .none ∧ x ≠ .wouldBlock)) := by
  have hlen : r.readLength = (.ok (), r) := by simp [Reader.readLength, hp.size]
  have hr0 : ∃ r0 : Reader, r0 = (if r.payload.length ≠ p.length then { r with payload := resize r.payload p.length } else r) ∧
      Partway r0 p got ∧ r0.payload.length = p.length ∧ r0.buffer = r.buffer ∧ r0.maxPayloadSize = r.maxPayloadSize := by
    refine ⟨_, rfl, ?_⟩
    split
    · next hne =>
      rcases hp.len with h | ⟨h, rfl⟩
      · exact absurd h hne
      · have : (resize r.payload p.length).length = p.length := by simp [resize, h]
        exact ⟨⟨hp.size, hp.pos, .inl this, rfl, hp.pre, hp.lt⟩, this, rfl, rfl⟩
    · next hne => exact ⟨hp, by simpa using hne, rfl, rfl⟩
  obtain ⟨r0, d0, d1, d2, d3, d4⟩ := hr0
  have hread : ∀ res r', r0.readLoop p.length (p.length + 1) = (res, r') →
      r.read = match (res, r') with
        | (.error e, r2) => (.error e, r2)
        | (.ok (), r2) => (.ok r2.payload, { r2 with payload := [] }) := by
    intro res r' hx
    have hrp : r.readPayload p.length = (res, r') := by rw [← hx, d0, Reader.readPayload]
    simp only [Reader.read, hlen, hp.size, if_neg (Nat.not_lt.2 hmax), hrp]
    cases res <;> rfl
  obtain ⟨l1, l2⟩ := readLoop_avail e p (p.length + 1) r0 got (by rw [d3]; exact hl) d1 d2 (by omega)
  rw [d3] at l1 l2
  refine ⟨?_, ?_⟩
  · intro more hm
    obtain ⟨r', f1, f2, f3, f4, f5, f6, -⟩ := l1 more hm
    refine ⟨{ r' with payload := [] }, ?_, ⟨f2, f3, rfl⟩, f5.trans d4, f6⟩
    rw [hread _ _ f1, ← f4]
  · intro h1 h2
    obtain ⟨x, r', f1, f2, f3, f4⟩ := l2 h1 h2
    exact ⟨x, r', by rw [hread _ _ f1], f2, f3.trans d4, f4⟩

/-- between payloads, with a whole length prefix there -/
theorem fresh_length (e : Ending) (r : Reader) (n : Nat) (s : Bytes) (hl : Left e r.buffer.stream) (hf : Fresh r)
    (ht : total r.buffer = be 4 n ++ s) (hn : n < 2 ^ 32) :
    ∃ b', r.readLength = (.ok (), { r with buffer := b', payloadSize := some n }) ∧ total b' = s ∧ Left e b'.stream := by
  obtain ⟨b', e1, e2, e3⟩ := readExact_avail e (r.buffer.stream.length + 5) r.buffer 4 [] hl (by omega) (by
    rw [ht, List.length_append, be_length]; omega)
  refine ⟨b', ?_, ?_, e3⟩
  · rw [ht, List.take_append_of_le_length (by rw [be_length]; omega), List.take_of_length_le (by rw [be_length]; omega),
      List.nil_append] at e1
    simp only [Reader.readLength, hf.size, e1, beNat_be]
    rw [Nat.mod_eq_of_lt (by simpa using hn)]
  · rw [e2, ht, List.drop_append, be_length, List.drop_of_length_le (by rw [be_length]; omega)]; simp

theorem fresh_read (r : Reader) (b' : BufReader) (n : Nat)
    (h : r.readLength = (.ok (), { r with buffer := b', payloadSize := some n })) :
    r.read = Reader.read { r with buffer := b', payloadSize := some n } := by
  have h2 : Reader.readLength { r with buffer := b', payloadSize := some n } = (.ok (), { r with buffer := b', payloadSize := some n }) := rfl
  simp only [Reader.read, h, h2]

theorem fresh_empty (e : Ending) (r : Reader) (hl : Left e r.buffer.stream) (hf : Fresh r) (ht : total r.buffer = []) :
    ∃ x b', r.read = (.error x, { r with buffer := b' }) ∧ total b' = [] ∧
      (e = .none ∧ x = .wouldBlock ∨ e ≠ .none ∧ x ≠ .wouldBlock) := by
  obtain ⟨b', t0, hc⟩ := (read_avail e 4 r.buffer (by omega) hl).1 ht
  have hx : ∀ {res}, r.buffer.read 4 = (res, b') → r.buffer.readExact (r.buffer.stream.length + 5) 4 [] =
      match res with
      | .ok bs => if bs.isEmpty then (.error .unexpectedEof, b') else BufReader.readExact (r.buffer.stream.length + 4) b' (4 - bs.length) ([] ++ bs)
      | .error .interrupted => BufReader.readExact (r.buffer.stream.length + 4) b' 4 []
      | .error y => (.error y, b') := by
    intro res h
    rw [BufReader.readExact]
    rw [if_neg (by omega), h]
    cases res with
    | ok bs => rfl
    | error y => cases y <;> rfl
  rcases hc with ⟨he, hr⟩ | ⟨he, hr⟩ | ⟨he, hr⟩
  · refine ⟨.wouldBlock, b', ?_, t0, .inl ⟨he, rfl⟩⟩
    simp only [Reader.read, Reader.readLength, hf.size, hx hr, PayloadErr.ofIo]
  · refine ⟨.eof, b', ?_, t0, .inr ⟨by simp [he], by simp⟩⟩
    simp only [Reader.read, Reader.readLength, hf.size, hx hr, PayloadErr.ofIo, List.isEmpty_nil, if_true]
  · refine ⟨.io, b', ?_, t0, .inr ⟨by simp [he], by simp⟩⟩
    simp only [Reader.read, Reader.readLength, hf.size, hx hr, PayloadErr.ofIo]

end Verif.Stream
