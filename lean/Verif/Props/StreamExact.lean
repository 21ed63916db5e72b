import Verif.Lemmas.WireExact
import Verif.Props.Stream
/-!
# C102: exactly which payloads the native and Avro handlers take
-/
namespace Verif
open Stream Wire

private def bytesIn (s : List Sym) : Bytes := s.filterMap Sym.byte?

private theorem bytesIn_append (a b : List Sym) : bytesIn (a ++ b) = bytesIn a ++ bytesIn b := by simp [bytesIn]

private theorem bytesIn_map (bs : Bytes) : bytesIn (bs.map .byte) = bs := by
  induction bs with
  | nil => rfl
  | cons b bs ih => simp only [List.map_cons, bytesIn, List.filterMap_cons]; exact congrArg _ ih

/-- What follows the bytes that arrived. -/
private def tailOf : Ending → List Sym
  | .none => [.block]
  | .fin => []
  | .reset => [.failed]

private theorem bytesIn_tail (e : Ending) : bytesIn (tailOf e) = [] := by cases e <;> rfl

private theorem syms_items (k : Sock) : symsOf k.items = k.kernel.map .byte ++ tailOf k.ending ∧ NonEmptyReads k.items := by
  obtain ⟨kernel, ending⟩ := k
  cases kernel <;> cases ending <;> simp [Sock.items, symsOf, NetItem.syms, tailOf, NonEmptyReads]

private theorem bytesIn_symsOf (s : List NetItem) : bytesIn (symsOf s) = dataOf s := by
  induction s with
  | nil => rfl
  | cons x s ih =>
    rw [symsOf_cons, bytesIn_append, ih]
    cases x with
    | data bs => simp only [NetItem.syms, bytesIn_map, dataOf]
    | _ => rfl

private theorem bytesIn_syms (b : BufReader) : bytesIn b.syms = b.buf ++ dataOf b.stream := by
  rw [BufReader.syms, bytesIn_append, bytesIn_map, bytesIn_symsOf]

private theorem scanPrefix_used : ∀ (s : List Sym) (got : Bytes) (res : Except IoErr Bytes) (s' : List Sym), scanPrefix got s = (res, s') →
    ∃ used, s = used ++ s' ∧ ((∀ more, scanPrefix got (used ++ more) = (res, more)) ∨ res = .error .unexpectedEof ∧ s' = []) ∧
      (res = .error .wouldBlock → .block ∈ used) ∧ (res = .error .interrupted → False) ∧ (res = .error .unexpectedEof → ∀ x ∈ used, x ≠ .block ∧ x ≠ .failed) := by
  intro s
  induction s with
  | nil =>
    intro got res s' h
    simp only [scanPrefix, Prod.mk.injEq] at h
    obtain ⟨rfl, rfl⟩ := h
    exact ⟨[], rfl, .inr ⟨rfl, rfl⟩, by simp, by simp, by simp⟩
  | cons x s ih =>
    intro got res s' h
    cases x with
    | byte b =>
      simp only [scanPrefix] at h
      by_cases h4 : got.length + 1 = 4
      · rw [if_pos h4, Prod.mk.injEq] at h
        obtain ⟨rfl, rfl⟩ := h
        exact ⟨[.byte b], rfl, .inl fun more => by simp [scanPrefix, h4], by simp, by simp, by simp⟩
      · rw [if_neg h4] at h
        obtain ⟨used, rfl, h2, h3, h5, h6⟩ := ih _ _ _ h
        refine ⟨.byte b :: used, rfl, ?_, fun e => List.mem_cons_of_mem _ (h3 e), h5, fun e x hx => ?_⟩
        · rcases h2 with h2 | h2
          · exact .inl fun more => by simp only [List.cons_append, scanPrefix, if_neg h4]; exact h2 more
          · exact .inr h2
        · rcases List.mem_cons.mp hx with rfl | hx
          · simp
          · exact h6 e x hx
    | block =>
      simp only [scanPrefix, Prod.mk.injEq] at h
      obtain ⟨rfl, rfl⟩ := h
      exact ⟨[.block], rfl, .inl fun more => rfl, by simp, by simp, by simp⟩
    | failed =>
      simp only [scanPrefix, Prod.mk.injEq] at h
      obtain ⟨rfl, rfl⟩ := h
      exact ⟨[.failed], rfl, .inl fun more => rfl, by simp, by simp, by simp⟩
    | interrupted =>
      simp only [scanPrefix] at h
      obtain ⟨used, rfl, h2, h3, h5, h6⟩ := ih _ _ _ h
      refine ⟨.interrupted :: used, rfl, ?_, fun e => List.mem_cons_of_mem _ (h3 e), h5, fun e x hx => ?_⟩
      · rcases h2 with h2 | h2
        · exact .inl fun more => by simp only [List.cons_append, scanPrefix]; exact h2 more
        · exact .inr h2
      · rcases List.mem_cons.mp hx with rfl | hx
        · simp
        · exact h6 e x hx

private theorem scanBody_used (n : Nat) : ∀ (s : List Sym) (got : Bytes) (res : Except PayloadErr Unit) (p : Bytes) (s' : List Sym),
    scanBody n got s = (res, p, s') →
    ∃ used, s = used ++ s' ∧
      ((∀ more, scanBody n got (used ++ more) = (res, p, more)) ∨
        res = .error .eof ∧ s' = [] ∧ ∀ x ∈ used, x ≠ .block ∧ x ≠ .failed) ∧
      (res = .error .wouldBlock → .block ∈ used) := by
  intro s
  induction s with
  | nil =>
    intro got res p s' h
    simp only [scanBody, Prod.mk.injEq] at h
    obtain ⟨rfl, rfl, rfl⟩ := h
    exact ⟨[], rfl, .inr ⟨rfl, rfl, by simp⟩, by simp⟩
  | cons x s ih =>
    intro got res p s' h
    cases x with
    | byte b =>
      simp only [scanBody] at h
      by_cases h0 : n = 0
      · rw [if_pos h0] at h
        simp only [Prod.mk.injEq] at h
        obtain ⟨rfl, rfl, rfl⟩ := h
        exact ⟨[.byte b], rfl, .inl fun more => by simp [scanBody, h0], by simp⟩
      · rw [if_neg h0] at h
        by_cases h4 : got.length + 1 = n
        · rw [if_pos h4] at h
          simp only [Prod.mk.injEq] at h
          obtain ⟨rfl, rfl, rfl⟩ := h
          exact ⟨[.byte b], rfl, .inl fun more => by simp [scanBody, h0, h4], by simp⟩
        · rw [if_neg h4] at h
          obtain ⟨used, rfl, h2, h3⟩ := ih _ _ _ _ h
          refine ⟨.byte b :: used, rfl, ?_, fun e => List.mem_cons_of_mem _ (h3 e)⟩
          rcases h2 with h2 | ⟨h2, h5, h6⟩
          · exact .inl fun more => by simp only [List.cons_append, scanBody, if_neg h0, if_neg h4]; exact h2 more
          · refine .inr ⟨h2, h5, fun x hx => ?_⟩
            rcases List.mem_cons.mp hx with rfl | hx
            · simp
            · exact h6 x hx
    | block =>
      simp only [scanBody, Prod.mk.injEq] at h
      obtain ⟨rfl, rfl, rfl⟩ := h
      exact ⟨[.block], rfl, .inl fun more => rfl, by simp⟩
    | failed =>
      simp only [scanBody, Prod.mk.injEq] at h
      obtain ⟨rfl, rfl, rfl⟩ := h
      exact ⟨[.failed], rfl, .inl fun more => rfl, by simp⟩
    | interrupted =>
      simp only [scanBody, Prod.mk.injEq] at h
      obtain ⟨rfl, rfl, rfl⟩ := h
      exact ⟨[.interrupted], rfl, .inl fun more => rfl, by simp⟩

/-- Where the reader is: between payloads, or inside one. -/
private abbrev Cont := Option (Nat × Bytes)

private def Cont.go (max : Nat) : Cont → List Sym → List Bytes × PayloadErr
  | none, s => decode max none [] s
  | some (n, got), s => decode max (some n) got s

private def Own (r : Reader) : Cont → Prop
  | none => r.payloadSize = none ∧ r.payloadPos = 0 ∧ r.payload = []
  | some (n, got) => n ≤ r.maxPayloadSize ∧ r.payloadSize = some n ∧ r.payloadPos = got.length ∧ (got.length < n ∨ n = 0 ∧ got = []) ∧
      (r.payload.length = n ∨ r.payload = [] ∧ got = []) ∧ r.payload.take got.length = got

/-- One call of the reader. -/
private def Out (max : Nat) (c : Cont) (syms used rest : List Sym) (res : Except PayloadErr Bytes) (r' : Reader) : Prop :=
  syms = used ++ rest ∧ match res with
  | .ok p => (∀ more, c.go max (used ++ more) = (p :: (decode max none [] more).1, (decode max none [] more).2)) ∧ Own r' none ∧
      r'.buffer.syms = rest ∧ r'.maxPayloadSize = max
  | .error .wouldBlock => ∃ c', (∀ more, c.go max (used ++ more) = Cont.go max c' more) ∧ Own r' c' ∧ r'.buffer.syms = rest ∧
      r'.maxPayloadSize = max ∧ .block ∈ used
  | .error _ => (∀ more, (c.go max (used ++ more)).1 = []) ∨ (c.go max used).1 = [] ∧ rest = [] ∧ ∀ x ∈ used, x ≠ .block ∧ x ≠ .failed

private theorem out_inside (r : Reader) (n : Nat) (got : Bytes) (h : Inside r n got) (hm : n ≤ r.maxPayloadSize) :
    ∃ used rest, Out r.maxPayloadSize (some (n, got)) r.buffer.syms used rest r.read.1 r.read.2 := by
  obtain ⟨r', e1, e2, e3⟩ := read_inside r n got h hm
  rcases hsc : scanBody n got r.buffer.syms with ⟨res, p, s'⟩
  rw [hsc] at e1 e2 e3
  obtain ⟨used, u1, u2, u3⟩ := scanBody_used n _ _ _ _ _ hsc
  refine ⟨used, s', u1, ?_⟩
  rw [e1]
  cases res with
  | ok u =>
    obtain ⟨q1, q2⟩ := e2 rfl
    rcases u2 with u2 | ⟨u2, _⟩
    · simp only [Except.map]
      refine ⟨fun more => ?_, ⟨q1.size, q1.pos, q1.payload⟩, q1.syms, q2⟩
      simp only [Cont.go]
      rw [decode_some, u2 more]
    · simp at u2
  | error e =>
    have hgo : ∀ more, scanBody n got (used ++ more) = (.error e, p, more) →
        Cont.go r.maxPayloadSize (some (n, got)) (used ++ more) = match (Except.error e : Except PayloadErr Unit) with
          | .ok () => (p :: (decode r.maxPayloadSize none [] more).1, (decode r.maxPayloadSize none [] more).2)
          | .error .wouldBlock => decode r.maxPayloadSize (some n) p more
          | .error e => ([], e) := by
      intro more h
      simp only [Cont.go]
      rw [decode_some, h]
      cases e <;> rfl
    have hstop : e ≠ .wouldBlock → (∀ more, (Cont.go r.maxPayloadSize (some (n, got)) (used ++ more)).1 = []) ∨
        (Cont.go r.maxPayloadSize (some (n, got)) used).1 = [] ∧ s' = [] ∧ ∀ x ∈ used, x ≠ .block ∧ x ≠ .failed := by
      intro hne
      rcases u2 with u2 | ⟨u2, u4, u5⟩
      · left
        intro more
        rw [hgo more (u2 more)]
        cases e <;> simp at hne ⊢
      · right
        refine ⟨?_, u4, u5⟩
        subst u4
        rw [List.append_nil] at u1
        simp only [Cont.go]
        rw [decode_some, ← u1, hsc, u2]
    simp only [Except.map]
    cases e with
    | wouldBlock =>
      obtain ⟨q1, q2, q3⟩ := e3 rfl
      rcases u2 with u2 | ⟨u2, _⟩
      · refine ⟨some (n, p), fun more => ?_, ⟨by rw [q2]; exact hm, q1.size, q1.pos, q1.lt, q1.payload, q1.gotEq⟩, q3, q2, u3 rfl⟩
        rw [hgo more (u2 more)]; rfl
      · simp at u2
    | eof => exact hstop (by simp)
    | io => exact hstop (by simp)
    | protocol => exact hstop (by simp)
    | lengthTooLarge => exact hstop (by simp)

private theorem out_between (r : Reader) (s : List Sym) (h : Between r s) :
    ∃ used rest, Out r.maxPayloadSize none s used rest r.read.1 r.read.2 := by
  rcases read_between r s h with ⟨e, s', r', h1, h2, h3, h4⟩ | ⟨bs, s', r1, h1, h2, h3, h4, h5, h6⟩
  · obtain ⟨used, u1, u2, u3, u4, u5⟩ := scanPrefix_used _ _ _ _ h1
    refine ⟨used, s', u1, ?_⟩
    rw [h2]
    cases e with
    | wouldBlock =>
      rcases u2 with u2 | ⟨u2, _⟩
      · exact ⟨none, fun more => by simp only [Cont.go]; rw [decode_none, u2 more], ⟨h3.size, h3.pos, h3.payload⟩, h3.syms, h4, u3 rfl⟩
      · simp at u2
    | interrupted => exact (u4 rfl).elim
    | unexpectedEof =>
      simp only [PayloadErr.ofIo]
      rcases u2 with u2 | ⟨_, rfl⟩
      · exact .inl fun more => by simp only [Cont.go]; rw [decode_none, u2 more]
      · refine .inr ⟨?_, rfl, u5 rfl⟩
        rw [List.append_nil] at u1
        simp only [Cont.go]
        rw [decode_none, ← u1, h1]
    | other =>
      simp only [PayloadErr.ofIo]
      rcases u2 with u2 | ⟨u2, _⟩
      · exact .inl fun more => by simp only [Cont.go]; rw [decode_none, u2 more]
      · simp at u2
  · obtain ⟨used, u1, u2, u3, u4, u5⟩ := scanPrefix_used _ _ _ _ h1
    have u2 : ∀ more, scanPrefix [] (used ++ more) = (.ok bs, more) := by
      rcases u2 with u2 | ⟨u2, _⟩
      · exact u2
      · simp at u2
    rw [h4]
    by_cases hm : r.maxPayloadSize < beNat bs
    · have : r1.read = (.error .lengthTooLarge, r1) := by
        simp only [Reader.read, Reader.readLength, h5, h2, if_pos hm]
      rw [this]
      refine ⟨used, s', u1, .inl fun more => ?_⟩
      simp only [Cont.go]
      rw [decode_none, u2 more]
      simp only [if_pos hm]
    · have hgo : ∀ more, Cont.go r.maxPayloadSize none (used ++ more) = Cont.go r.maxPayloadSize (some (beNat bs, [])) more := by
        intro more
        simp only [Cont.go]
        rw [decode_none, u2 more]
        simp only [if_neg hm]
      obtain ⟨used2, rest, v1, v2⟩ := out_inside r1 _ [] h6 (by omega)
      rw [h2] at v2
      rw [h3] at v1
      refine ⟨used ++ used2, rest, by rw [u1, v1, List.append_assoc], ?_⟩
      have hgo2 : ∀ more, Cont.go r.maxPayloadSize none (used ++ used2 ++ more) = Cont.go r.maxPayloadSize (some (beNat bs, [])) (used2 ++ more) := by
        intro more; rw [List.append_assoc]; exact hgo _
      have hnb : ∀ x ∈ used, x ≠ Sym.block ∧ x ≠ .failed := by
        have : ∀ (s : List Sym) (got bs : Bytes), (∀ more, scanPrefix got (s ++ more) = (.ok bs, more)) → ∀ x ∈ s, x ≠ Sym.block ∧ x ≠ .failed := by
          intro s
          induction s with
          | nil => intro _ _ _ x hx; simp at hx
          | cons y s ih =>
            intro got bs h x hx
            have hall := h
            cases y with
            | byte b =>
              by_cases h4 : got.length + 1 = 4
              · have h0 := h []
                simp only [List.append_nil, scanPrefix, if_pos h4, Prod.mk.injEq] at h0
                rw [h0.2, List.mem_singleton] at hx
                rw [hx]; simp
              · rcases List.mem_cons.mp hx with rfl | hx
                · simp
                · refine ih (got ++ [b]) bs (fun more => ?_) x hx
                  have := h more
                  simpa only [List.cons_append, scanPrefix, if_neg h4] using this
            | block => have := h []; simp [scanPrefix] at this
            | failed => have := h []; simp [scanPrefix] at this
            | interrupted =>
              rcases List.mem_cons.mp hx with rfl | hx
              · simp
              · refine ih got bs (fun more => ?_) x hx
                have := h more
                simpa only [List.cons_append, scanPrefix] using this
        exact this used [] bs u2
      have hstop : ((∀ more, (Cont.go r.maxPayloadSize (some (beNat bs, [])) (used2 ++ more)).1 = []) ∨
            (Cont.go r.maxPayloadSize (some (beNat bs, [])) used2).1 = [] ∧ rest = [] ∧ ∀ x ∈ used2, x ≠ .block ∧ x ≠ .failed) →
          ((∀ more, (Cont.go r.maxPayloadSize none (used ++ used2 ++ more)).1 = []) ∨
            (Cont.go r.maxPayloadSize none (used ++ used2)).1 = [] ∧ rest = [] ∧ ∀ x ∈ used ++ used2, x ≠ .block ∧ x ≠ .failed) := by
        rintro (h | ⟨h1, h2, h3⟩)
        · exact .inl fun more => by rw [hgo2]; exact h more
        · refine .inr ⟨by rw [hgo]; exact h1, h2, fun x hx => ?_⟩
          rcases List.mem_append.mp hx with hx | hx
          · exact hnb x hx
          · exact h3 x hx
      cases hres : r1.read.1 with
      | ok p =>
        rw [hres] at v2
        exact ⟨fun more => by rw [hgo2]; exact v2.1 more, v2.2⟩
      | error e =>
        rw [hres] at v2
        cases e with
        | wouldBlock =>
          obtain ⟨c', w1, w2, w3, w4, w5⟩ := v2
          exact ⟨c', fun more => by rw [hgo2]; exact w1 more, w2, w3, w4, List.mem_append_right _ w5⟩
        | eof => exact hstop v2
        | io => exact hstop v2
        | protocol => exact hstop v2
        | lengthTooLarge => exact hstop v2

private theorem out_read (max : Nat) (r : Reader) (hmax : r.maxPayloadSize = max) (c : Cont) (k : Sock) (h : Own r c)
    (res : Except PayloadErr Bytes) (r' : Reader)
    (hrd : Reader.read { r with buffer := { r.buffer with stream := k.items } } = (res, r')) :
    ∃ used rest, Out max c ((r.buffer.buf ++ k.kernel).map .byte ++ tailOf k.ending) used rest res r' := by
  subst hmax
  have e1 : res = (Reader.read { r with buffer := { r.buffer with stream := k.items } }).1 := by rw [hrd]
  have e2 : r' = (Reader.read { r with buffer := { r.buffer with stream := k.items } }).2 := by rw [hrd]
  rw [e1, e2]
  obtain ⟨hs, hn⟩ := syms_items k
  have hsy : ({ r.buffer with stream := k.items } : BufReader).syms = (r.buffer.buf ++ k.kernel).map .byte ++ tailOf k.ending := by
    simp only [BufReader.syms, hs, List.map_append, List.append_assoc]
  rw [← hsy]
  cases c with
  | none => exact out_between { r with buffer := { r.buffer with stream := k.items } } _ ⟨h.1, h.2.1, h.2.2, rfl, hn⟩
  | some ng =>
    obtain ⟨n, got⟩ := ng
    obtain ⟨h1, h2, h3, h4, h5, h6⟩ := h
    exact out_inside { r with buffer := { r.buffer with stream := k.items } } n got ⟨h2, h3, h4, h5, h6, hn⟩ h1

private abbrev M : Nat := 1048576

private def Why (accepts : Bytes → Bool) (all : Bytes) (s : State Reader) (ms : List Sym) : Prop :=
  ∃ rest, all = bytesIn ms ++ rest ∧
    (s.system = true ∧ (decode M none [] ms).1 = s.taken ∨
     (∃ p, accepts p = false ∧ (decode M none [] ms).1 = s.taken ++ [p]) ∨
     (∀ more, (decode M none [] (ms ++ more)).1 = s.taken) ∨
     ((decode M none [] ms).1 = s.taken ∧ rest = [] ∧ s.sock.ending ≠ .none))

private structure Inv (accepts : Bytes → Bool) (all : Bytes) (s : State Reader) (ms : List Sym) : Prop where
  acc : ∀ p ∈ s.taken, accepts p = true
  fail : Sym.failed ∈ ms → s.sock.ending = .reset
  noint : Sym.interrupted ∉ ms
  live : s.phase ≠ .ended → s.own.maxPayloadSize = M ∧ all = bytesIn ms ++ (s.own.buffer.buf ++ s.sock.kernel) ∧
    ∃ c, Own s.own c ∧ ∀ more, decode M none [] (ms ++ more) = (s.taken ++ (Cont.go M c more).1, (Cont.go M c more).2)
  idle : s.phase = .polling → s.edge = false → s.own.buffer.buf ++ s.sock.kernel = []
  ended : s.phase = .ended → Why accepts all s ms
  sys : s.phase = .reading true → s.system = true

private theorem go_nil (c : Cont) : (Cont.go M c []).1 = [] := by
  cases c with
  | none => simp [Cont.go, decode]
  | some ng => simp [Cont.go, decode]

private theorem taken_of_live {accepts : Bytes → Bool} {all : Bytes} {s : State Reader} {ms : List Sym} (hi : Inv accepts all s ms)
    (h : s.phase ≠ .ended) : (decode M none [] ms).1 = s.taken := by
  obtain ⟨_, _, c, _, h⟩ := hi.live h
  have := h []
  rw [List.append_nil] at this
  rw [this, go_nil, List.append_nil]

private theorem inv_read (accepts : Bytes → Bool) (all : Bytes) (s s' : State Reader) (ms : List Sym) (hi : Inv accepts all s ms)
    (h : step (framed accepts) s .read = some s') : ∃ ms', Inv accepts all s' ms' := by
  cases hp : s.phase with
  | polling => simp [step, hp] at h
  | ended => simp [step, hp] at h
  | reading stop =>
    obtain ⟨hmax, hall, c, hown, hdec⟩ := hi.live (by rw [hp]; simp)
    rcases hrd : Reader.read { s.own with buffer := { s.own.buffer with stream := s.sock.items } } with ⟨res, r'⟩
    obtain ⟨used, rest, hsy, hout⟩ := out_read M s.own hmax c s.sock hown res r' hrd
    have hb : s.own.buffer.buf ++ s.sock.kernel = bytesIn used ++ bytesIn rest := by
      have := congrArg bytesIn hsy
      rw [bytesIn_append, bytesIn_append, bytesIn_map, bytesIn_tail, List.append_nil] at this
      exact this
    have hall' : all = bytesIn (ms ++ used) ++ bytesIn rest := by rw [hall, hb, bytesIn_append, List.append_assoc]
    have hmem : ∀ x ∈ used, x ∈ (s.own.buffer.buf ++ s.sock.kernel).map Sym.byte ++ tailOf s.sock.ending := by
      intro x hx; rw [hsy]; exact List.mem_append_left _ hx
    have hfail : Sym.failed ∈ ms ++ used → s.sock.ending = .reset := by
      intro hx
      rcases List.mem_append.mp hx with hx | hx
      · exact hi.fail hx
      · have := hmem _ hx
        cases he : s.sock.ending <;> rw [he] at this <;> simp [tailOf] at this
    have hnoint : Sym.interrupted ∉ ms ++ used := by
      intro hx
      rcases List.mem_append.mp hx with hx | hx
      · exact hi.noint hx
      · have := hmem _ hx
        cases he : s.sock.ending <;> rw [he] at this <;> simp [tailOf] at this
    have hdec' : ∀ more, decode M none [] (ms ++ used ++ more) = (s.taken ++ (Cont.go M c (used ++ more)).1, (Cont.go M c (used ++ more)).2) := by
      intro more; rw [List.append_assoc]; exact hdec _
    have hdec0 : decode M none [] (ms ++ used) = (s.taken ++ (Cont.go M c used).1, (Cont.go M c used).2) := hdec _
    simp only [step, hp, framed, hrd] at h
    have hstop : ((∀ more, (Cont.go M c (used ++ more)).1 = []) ∨
        (Cont.go M c used).1 = [] ∧ rest = [] ∧ ∀ x ∈ used, x ≠ .block ∧ x ≠ .failed) →
        s' = { s with own := r', sock := s.sock.after r'.buffer.stream, phase := .ended } → ∃ ms', Inv accepts all s' ms' := by
      intro hh he
      subst he
      refine ⟨ms ++ used, hi.acc, hfail, hnoint, by simp, by simp, fun _ => ?_, by simp⟩
      refine ⟨bytesIn rest, hall', ?_⟩
      rcases hh with hh | ⟨h1, h2, h3⟩
      · exact .inr (.inr (.inl fun more => by rw [hdec', hh more, List.append_nil]))
      · refine .inr (.inr (.inr ⟨by rw [hdec0, h1, List.append_nil], by rw [h2]; rfl, ?_⟩))
        show s.sock.ending ≠ .none
        intro he
        rw [h2, List.append_nil, he] at hsy
        exact (h3 .block (by rw [← hsy]; simp [tailOf])).1 rfl
    cases res with
    | ok p =>
      obtain ⟨o1, o2, o3, o4⟩ := hout
      have hrest : r'.buffer.buf ++ dataOf r'.buffer.stream = bytesIn rest := by rw [← o3, bytesIn_syms]
      by_cases ha : accepts p = true
      · simp only [ha, if_true, Option.some.injEq] at h
        subst h
        refine ⟨ms ++ used, fun q hq => ?_, hfail, hnoint, fun _ => ⟨o4, ?_, none, o2, fun more => ?_⟩, ?_, ?_, ?_⟩
        · rcases List.mem_append.mp hq with hq | hq
          · exact hi.acc q hq
          · rw [List.mem_singleton.mp hq]; exact ha
        · show all = _ ++ (r'.buffer.buf ++ dataOf r'.buffer.stream)
          rw [hrest]; exact hall'
        · rw [hdec', o1 more]; simp [Cont.go]
        · intro h; simp at h
        · intro h; simp at h
        · intro h; exact hi.sys (hp.trans h)
      · simp only [ha, Bool.false_eq_true, if_false, Option.some.injEq] at h
        subst h
        refine ⟨ms ++ used, hi.acc, hfail, hnoint, by simp, by simp, fun _ => ?_, by simp⟩
        refine ⟨bytesIn rest, hall', .inr (.inl ⟨p, by simpa using ha, ?_⟩)⟩
        have := o1 []
        rw [List.append_nil] at this
        rw [hdec0, this]
        simp [decode]
    | error e =>
      cases e with
      | wouldBlock =>
        obtain ⟨c', o1, o2, o3, o4, o5⟩ := hout
        have hrest : r'.buffer.buf ++ dataOf r'.buffer.stream = bytesIn rest := by rw [← o3, bytesIn_syms]
        have hnil : rest = [] := by
          have hend : s.sock.ending = .none := by
            have := hmem _ o5
            cases he : s.sock.ending <;> rw [he] at this <;> simp [tailOf] at this <;> rfl
          rw [hend] at hsy
          obtain ⟨u1, u2, rfl⟩ := List.append_of_mem o5
          have hl : ∀ (xs : Bytes) (a b : List Sym), xs.map Sym.byte ++ [.block] = a ++ .block :: b → b = [] := by
            intro xs
            induction xs with
            | nil =>
              intro a b h
              cases a with
              | nil => simpa using h.symm
              | cons x a => simp at h
            | cons x xs ih =>
              intro a b h
              cases a with
              | nil => simp at h
              | cons y a =>
                simp only [List.map_cons, List.cons_append, List.cons.injEq] at h
                exact ih a b h.2
          have := hl _ u1 (u2 ++ rest) (by rw [show u1 ++ Sym.block :: (u2 ++ rest) = u1 ++ Sym.block :: u2 ++ rest by simp]; exact hsy)
          exact (List.append_eq_nil_iff.mp this).2
        have hz : r'.buffer.buf ++ dataOf r'.buffer.stream = [] := by rw [hrest, hnil]; rfl
        have hdc : ∀ more, decode M none [] (ms ++ used ++ more) = (s.taken ++ (Cont.go M c' more).1, (Cont.go M c' more).2) := by
          intro more; rw [hdec', o1 more]
        simp only [Option.some.injEq] at h
        subst h
        refine ⟨ms ++ used, hi.acc, hfail, hnoint, fun _ => ⟨o4, ?_, c', o2, hdc⟩, fun _ _ => hz, fun he => ?_, ?_⟩
        · show all = _ ++ (r'.buffer.buf ++ dataOf r'.buffer.stream)
          rw [hrest]; exact hall'
        · refine ⟨bytesIn rest, hall', .inl ⟨?_, ?_⟩⟩
          · cases hst : stop with
            | false => rw [hst] at he; simp at he
            | true => exact hi.sys (by rw [hp, hst])
          · have := hdc []
            rw [List.append_nil] at this
            rw [this, go_nil, List.append_nil]
        · intro he
          cases stop <;> simp at he
      | eof => simp only [Option.some.injEq] at h; exact hstop hout h.symm
      | io => simp only [Option.some.injEq] at h; exact hstop hout h.symm
      | protocol => simp only [Option.some.injEq] at h; exact hstop hout h.symm
      | lengthTooLarge => simp only [Option.some.injEq] at h; exact hstop hout h.symm

private theorem inv_step (accepts : Bytes → Bool) (all : Bytes) (s s' : State Reader) (l : Label) (ms : List Sym) (hi : Inv accepts all s ms)
    (h : step (framed accepts) s l = some s') : ∃ ms', Inv accepts (all ++ sent [l]) s' ms' := by
  cases l with
  | read => simpa [sent] using inv_read accepts all s s' ms hi h
  | arrive bs =>
    simp only [step] at h
    by_cases hc : s.sock.ending = .none ∧ bs ≠ []
    · rw [if_pos hc, Option.some.injEq] at h
      subst h
      refine ⟨ms, hi.acc, hi.fail, hi.noint, fun hl => ?_, by simp, fun he => ?_, hi.sys⟩
      · obtain ⟨h1, h2, h3⟩ := hi.live hl
        exact ⟨h1, by rw [h2]; simp [sent], h3⟩
      · obtain ⟨rest, h1, h2⟩ := hi.ended he
        refine ⟨rest ++ bs, by rw [h1]; simp [sent], ?_⟩
        rcases h2 with h2 | h2 | h2 | ⟨_, _, h2⟩
        · exact .inl h2
        · exact .inr (.inl h2)
        · exact .inr (.inr (.inl h2))
        · exact absurd hc.1 h2
    · rw [if_neg hc] at h; simp at h
  | close =>
    simp only [step] at h
    by_cases hc : s.sock.ending = .none
    · rw [if_pos hc, Option.some.injEq] at h
      subst h
      refine ⟨ms, hi.acc, fun hf => by rw [hi.fail hf] at hc; simp at hc, hi.noint, fun hl => by simpa [sent] using hi.live hl, by simp, fun he => ?_, hi.sys⟩
      obtain ⟨rest, h1, h2⟩ := hi.ended he
      refine ⟨rest, by simpa [sent] using h1, ?_⟩
      rcases h2 with h2 | h2 | h2 | ⟨h2, h3, h4⟩
      · exact .inl h2
      · exact .inr (.inl h2)
      · exact .inr (.inr (.inl h2))
      · exact absurd hc h4
    · rw [if_neg hc] at h; simp at h
  | reset =>
    simp only [step] at h
    by_cases hc : s.sock.ending = .none
    · rw [if_pos hc, Option.some.injEq] at h
      subst h
      refine ⟨ms, hi.acc, fun hf => rfl, hi.noint, fun hl => by simpa [sent] using hi.live hl, by simp, fun he => ?_, hi.sys⟩
      obtain ⟨rest, h1, h2⟩ := hi.ended he
      refine ⟨rest, by simpa [sent] using h1, ?_⟩
      rcases h2 with h2 | h2 | h2 | ⟨h2, h3, h4⟩
      · exact .inl h2
      · exact .inr (.inl h2)
      · exact .inr (.inr (.inl h2))
      · exact absurd hc h4
    · rw [if_neg hc] at h; simp at h
  | spurious =>
    simp only [step, Option.some.injEq] at h
    subst h
    exact ⟨ms, hi.acc, hi.fail, hi.noint, fun hl => by simpa [sent] using hi.live hl, by simp, fun he => by simpa [sent, Why] using hi.ended he, hi.sys⟩
  | system =>
    simp only [step, Option.some.injEq] at h
    subst h
    refine ⟨ms, hi.acc, hi.fail, hi.noint, fun hl => by simpa [sent] using hi.live hl, hi.idle, fun he => ?_, fun _ => rfl⟩
    obtain ⟨rest, h1, h2⟩ := hi.ended he
    refine ⟨rest, by simpa [sent] using h1, ?_⟩
    rcases h2 with h2 | h2
    · exact .inl ⟨rfl, h2.2⟩
    · exact .inr h2
  | poll systemFirst =>
    cases hp : s.phase with
    | polling =>
      have hlive := hi.live (by rw [hp]; simp)
      have htk := taken_of_live hi (by rw [hp]; simp)
      simp only [step, hp] at h
      by_cases he : s.edge = true
      · rw [if_pos he] at h
        by_cases hs : (s.system && systemFirst) = true
        · rw [if_pos hs, Option.some.injEq] at h
          subst h
          refine ⟨ms, hi.acc, hi.fail, hi.noint, by simp, by simp, fun _ => ⟨_, by simpa [sent] using hlive.2.1, .inl ⟨?_, htk⟩⟩, by simp⟩
          simp only [Bool.and_eq_true] at hs; exact hs.1
        · rw [if_neg hs, Option.some.injEq] at h
          subst h
          exact ⟨ms, hi.acc, hi.fail, hi.noint, fun _ => by simpa [sent] using hlive, by simp, by simp, by simp⟩
      · rw [if_neg he] at h
        by_cases hs : s.system = true
        · rw [if_pos hs, Option.some.injEq] at h
          subst h
          exact ⟨ms, hi.acc, hi.fail, hi.noint, by simp, by simp, fun _ => ⟨_, by simpa [sent] using hlive.2.1, .inl ⟨hs, htk⟩⟩, by simp⟩
        · rw [if_neg hs] at h; simp at h
    | reading b => simp [step, hp] at h
    | ended => simp [step, hp] at h

private theorem inv_run (accepts : Bytes → Bool) (ls : List Label) : ∀ (all : Bytes) (s s' : State Reader) (ms : List Sym), Inv accepts all s ms →
    run (framed accepts) s ls = some s' → ∃ ms', Inv accepts (all ++ sent ls) s' ms' := by
  induction ls with
  | nil => intro all s s' ms hi hr; simp only [run, Option.some.injEq] at hr; subst hr; exact ⟨ms, by simpa [sent] using hi⟩
  | cons l ls ih =>
    intro all s s' ms hi hr
    have hsp : sent (l :: ls) = sent [l] ++ sent ls := by cases l <;> simp [sent]
    simp only [run] at hr
    cases hst : step (framed accepts) s l with
    | none => rw [hst] at hr; simp at hr
    | some s1 =>
      rw [hst] at hr
      obtain ⟨ms1, h1⟩ := inv_step accepts all s s1 l ms hi hst
      obtain ⟨ms2, h2⟩ := ih _ s1 s' ms1 h1 hr
      exact ⟨ms2, by rw [hsp, ← List.append_assoc]; exact h2⟩

/-- **C102 (part), native and Avro, exactly.**  Under every schedule, for any bytes cut anywhere: the payloads the handler has taken are those that `decode` (C34)
makes of the bytes it has read, which are the first that arrived, with a mark where its reads blocked and where the connection was reset; up to the first payload it
refuses.  If it waits with nothing to wake it, everything that arrived has been read.  If it ended, then because of a shutdown, of a payload it refused, because
nothing that could follow would be a payload (a length that is too large, an empty payload, a reset), or everything was read and the connection is closed.  Partial: a
length that is cut by a block is misread (`C102_split_prefix_false`). -/
theorem C102_payloads_exact_partial (accepts : Bytes → Bool) (k : Sock) (ls : List Label) (s : State Reader)
    (hr : run (framed accepts) (init (framed accepts) k) ls = some s) :
    ∃ read unread marks, k.kernel ++ sent ls = read ++ unread ∧ marks.filterMap Sym.byte? = read ∧
      (Sym.failed ∈ marks → s.sock.ending = .reset) ∧ Sym.interrupted ∉ marks ∧
      s.taken = (decode 1048576 none [] marks).1.takeWhile accepts ∧
      (Asleep s → unread = []) ∧
      (s.phase = .ended → s.system = true ∨ (∃ p, accepts p = false ∧ (decode 1048576 none [] marks).1 = s.taken ++ [p]) ∨
        (∀ more, (decode 1048576 none [] (marks ++ more)).1 = s.taken) ∨ (unread = [] ∧ s.sock.ending ≠ .none)) := by
  have h0 : Inv accepts k.kernel (init (framed accepts) k) [] := by
    refine ⟨by simp [init], by simp, by simp, fun _ => ⟨rfl, by simp [init, framed, bytesIn], none, ⟨rfl, rfl, rfl⟩, fun more => by simp [init, Cont.go]⟩,
      fun _ he => ?_, by simp [init], by simp [init]⟩
    obtain ⟨kernel, ending⟩ := k
    cases kernel <;> simp [init, framed] at he ⊢
  obtain ⟨ms, hi⟩ := inv_run accepts ls k.kernel _ s [] h0 hr
  have htw : ∀ l : List Bytes, (∀ p ∈ l, accepts p = true) → l.takeWhile accepts = l := by
    intro l
    induction l with
    | nil => intro _; rfl
    | cons p l ih =>
      intro h
      rw [List.takeWhile_cons, h p (List.mem_cons_self ..), if_pos rfl, ih fun q hq => h q (List.mem_cons_of_mem _ hq)]
  by_cases hp : s.phase = .ended
  · obtain ⟨rest, h1, h2⟩ := hi.ended hp
    have htk : s.taken = (decode M none [] ms).1.takeWhile accepts := by
      rcases h2 with ⟨_, h2⟩ | ⟨p, hp, h2⟩ | h2 | ⟨h2, _⟩
      · rw [h2, htw _ hi.acc]
      · rw [h2, List.takeWhile_append_of_pos hi.acc, List.takeWhile_cons, hp]; simp
      · have := h2 []
        rw [List.append_nil] at this
        rw [this, htw _ hi.acc]
      · rw [h2, htw _ hi.acc]
    refine ⟨bytesIn ms, rest, ms, h1, rfl, hi.fail, hi.noint, htk, fun ha => ?_, fun _ => ?_⟩
    · rw [Asleep, hp] at ha; simp at ha
    · rcases h2 with ⟨h2, _⟩ | h2 | h2 | ⟨_, h2⟩
      · exact .inl h2
      · exact .inr (.inl h2)
      · exact .inr (.inr (.inl h2))
      · exact .inr (.inr (.inr h2))
  · obtain ⟨_, h1, _⟩ := hi.live hp
    refine ⟨bytesIn ms, _, ms, h1, rfl, hi.fail, hi.noint, ?_, fun ha => hi.idle ha.1 ha.2.1, fun h => absurd h hp⟩
    rw [show decode 1048576 none [] ms = decode M none [] ms from rfl, taken_of_live hi hp, htw _ hi.acc]

/-- Two bytes of the length of a payload arrive, then the rest of it: it is misread, and the handler waits for a payload of 67328 bytes. -/
example : (run (framed fun _ => true) (init (framed fun _ => true) { kernel := [0, 0] })
      [.poll false, .read, .arrive [0, 1, 7, 0, 0, 0, 1, 8], .poll false, .read]).map (fun s => (s.taken, s.phase, s.own.payloadSize)) =
      some ([], .polling, some 67328) ∧
    (decode 1048576 none [] ([0, 0].map Sym.byte ++ [.block] ++ [0, 1, 7, 0, 0, 0, 1, 8].map Sym.byte ++ [.block])).1 = [] ∧
    (run (framed fun _ => true) (init (framed fun _ => true) { kernel := [0, 0, 0, 1, 7] })
      [.poll false, .read, .read, .close, .poll false, .read]).map (fun s => (s.taken, s.phase)) = some ([[7]], .ended) := by
  refine ⟨by decide, by decide, by decide⟩

end Verif
