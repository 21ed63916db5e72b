import Verif.Spec.Stream
import Verif.Lemmas.Graphite
/-! # Lemmas about reading from a polled socket -/
namespace Verif.Stream
open Wire Graphite

/-- what the socket does when its bytes are used up -/
def tail : Ending → List NetItem
  | .none => [.wouldBlock]
  | .fin => []
  | .reset => [.failed]

/-- what is left of the reads -/
def Left (e : Ending) (s : List NetItem) : Prop := s = tail e ∨ ∃ b bs, s = .data (b :: bs) :: tail e

theorem items_left (k : Sock) : Left k.ending k.items ∧ dataOf k.items = k.kernel := by
  obtain ⟨kernel, ending⟩ := k
  cases kernel <;> cases ending <;> simp [Sock.items, Left, tail, dataOf]

theorem netRead_left (e : Ending) (n : Nat) (s : List NetItem) (h : Left e s) :
    (∀ bs s', netRead n s = (.ok bs, s') → dataOf s = bs ++ dataOf s' ∧ Left e s') ∧
    (∀ x s', netRead n s = (.error x, s') → dataOf s = [] ∧ dataOf s' = [] ∧
      (x = .wouldBlock ∧ e = .none ∨ x = .other ∧ e = .reset)) := by
  rcases h with rfl | ⟨b, bs, rfl⟩
  · cases e <;> simp [tail, netRead, dataOf, Left] <;> rintro _ _ rfl rfl <;> simp [dataOf]
  · refine ⟨?_, by simp [netRead]⟩
    intro out s' h
    simp only [netRead, Prod.mk.injEq, Except.ok.injEq] at h
    obtain ⟨rfl, rfl⟩ := h
    have ht : dataOf (tail e) = [] := by cases e <;> simp [tail, dataOf]
    split
    · next hn =>
      rw [List.take_of_length_le hn]
      exact ⟨by simp [dataOf], Or.inl rfl⟩
    · next hn =>
      refine ⟨by simp [dataOf, ht], Or.inr ?_⟩
      cases hd : (b :: bs).drop n with
      | nil => rw [List.drop_eq_nil_iff] at hd; exact absurd hd hn
      | cons c cs => exact ⟨c, cs, rfl⟩

def total (r : BufReader) : Bytes := r.buf ++ dataOf r.stream

theorem read_left (e : Ending) (n : Nat) (r : BufReader) (h : Left e r.stream) :
    (∀ bs r', r.read n = (.ok bs, r') → total r = bs ++ total r' ∧ Left e r'.stream) ∧
    (∀ x r', r.read n = (.error x, r') → total r = [] ∧ total r' = [] ∧
      (x = .wouldBlock ∧ e = .none ∨ x = .other ∧ e = .reset)) := by
  obtain ⟨buf, stream⟩ := r
  cases buf with
  | cons c cs =>
    refine ⟨?_, by simp [BufReader.read]⟩
    intro bs r' hr
    simp only [BufReader.read, Prod.mk.injEq, Except.ok.injEq] at hr
    obtain ⟨rfl, rfl⟩ := hr
    refine ⟨?_, h⟩
    simp only [total]
    rw [← List.append_assoc, List.take_append_drop]
  | nil =>
    simp only [BufReader.read]
    by_cases hc : capacity ≤ n
    · simp only [hc, if_true]
      obtain ⟨h1, h2⟩ := netRead_left e n stream h
      cases hn : netRead n stream with
      | mk res s =>
        refine ⟨?_, ?_⟩
        · intro bs r' hr
          simp only [Prod.mk.injEq] at hr
          obtain ⟨rfl, rfl⟩ := hr
          simpa [total] using h1 _ _ hn
        · intro x r' hr
          simp only [Prod.mk.injEq] at hr
          obtain ⟨rfl, rfl⟩ := hr
          simpa [total] using h2 _ _ hn
    · simp only [hc, if_false]
      obtain ⟨h1, h2⟩ := netRead_left e capacity stream h
      cases hn : netRead capacity stream with
      | mk res s =>
        cases res with
        | ok out =>
          refine ⟨?_, by simp⟩
          intro bs r' hr
          simp only [Prod.mk.injEq, Except.ok.injEq] at hr
          obtain ⟨rfl, rfl⟩ := hr
          obtain ⟨g1, g2⟩ := h1 _ _ hn
          refine ⟨?_, g2⟩
          simp only [total, List.nil_append]
          rw [← List.append_assoc, List.take_append_drop, g1]
        | error y =>
          refine ⟨by simp, ?_⟩
          intro x r' hr
          simp only [Prod.mk.injEq, Except.error.injEq] at hr
          obtain ⟨rfl, rfl⟩ := hr
          simpa [total] using h2 _ _ hn

theorem readExact_left (e : Ending) : ∀ (fuel : Nat) (r : BufReader) (n : Nat) (acc : Bytes), Left e r.stream →
    (∀ bs r', r.readExact fuel n acc = (.ok bs, r') → (total r').length ≤ (total r).length ∧ Left e r'.stream) ∧
    (∀ x r', r.readExact fuel n acc = (.error x, r') → (total r').length ≤ (total r).length ∧
      (x = .wouldBlock → e = .none ∧ total r' = [])) := by
  intro fuel
  induction fuel with
  | zero =>
    intro r n acc h
    refine ⟨by simp [BufReader.readExact], ?_⟩
    intro x r' hr
    simp only [BufReader.readExact, Prod.mk.injEq, Except.error.injEq] at hr
    obtain ⟨rfl, rfl⟩ := hr
    simp
  | succ fuel ih =>
    intro r n acc h
    simp only [BufReader.readExact]
    by_cases hn : n = 0
    · simp only [hn, if_true]
      refine ⟨?_, by simp⟩
      intro bs r' hr
      simp only [Prod.mk.injEq, Except.ok.injEq] at hr
      obtain ⟨rfl, rfl⟩ := hr
      exact ⟨Nat.le_refl _, h⟩
    · simp only [hn, if_false]
      obtain ⟨h1, h2⟩ := read_left e n r h
      cases hr0 : r.read n with
      | mk res r1 =>
        cases res with
        | ok out =>
          obtain ⟨g1, g2⟩ := h1 _ _ hr0
          have gl : (total r1).length ≤ (total r).length := by rw [g1]; simp
          by_cases ho : out.isEmpty = true
          · simp only [ho, if_true]
            refine ⟨by simp, ?_⟩
            intro x r' hr
            simp only [Prod.mk.injEq, Except.error.injEq] at hr
            obtain ⟨rfl, rfl⟩ := hr
            exact ⟨gl, by simp⟩
          · simp only [ho]
            obtain ⟨i1, i2⟩ := ih r1 (n - out.length) (acc ++ out) g2
            refine ⟨fun bs r' hr => ?_, fun x r' hr => ?_⟩
            · have := i1 bs r' hr; exact ⟨Nat.le_trans this.1 gl, this.2⟩
            · have := i2 x r' hr; exact ⟨Nat.le_trans this.1 gl, this.2⟩
        | error y =>
          obtain ⟨g1, g2, g3⟩ := h2 _ _ hr0
          rcases g3 with ⟨rfl, he⟩ | ⟨rfl, he⟩
          · refine ⟨by simp, ?_⟩
            intro x r' hr
            simp only [Prod.mk.injEq, Except.error.injEq] at hr
            obtain ⟨rfl, rfl⟩ := hr
            exact ⟨by simp [g2], fun _ => ⟨he, g2⟩⟩
          · refine ⟨by simp, ?_⟩
            intro x r' hr
            simp only [Prod.mk.injEq, Except.error.injEq] at hr
            obtain ⟨rfl, rfl⟩ := hr
            exact ⟨by simp [g2], by simp⟩

theorem readLoop_left (e : Ending) (size : Nat) : ∀ (fuel : Nat) (r : Reader), Left e r.buffer.stream →
    (∀ r', Reader.readLoop size fuel r = (.ok (), r') → (total r'.buffer).length < (total r.buffer).length ∧
      Left e r'.buffer.stream) ∧
    (∀ x r', Reader.readLoop size fuel r = (.error x, r') → (total r'.buffer).length ≤ (total r.buffer).length ∧
      (x = .wouldBlock → e = .none ∧ total r'.buffer = [])) := by
  intro fuel
  induction fuel with
  | zero =>
    intro r h
    refine ⟨by simp [Reader.readLoop], ?_⟩
    intro x r' hr
    simp only [Reader.readLoop, Prod.mk.injEq, Except.error.injEq] at hr
    obtain ⟨rfl, rfl⟩ := hr
    simp
  | succ fuel ih =>
    intro r h
    simp only [Reader.readLoop]
    obtain ⟨h1, h2⟩ := read_left e (size - r.payloadPos) r.buffer h
    cases hr0 : r.buffer.read (size - r.payloadPos) with
    | mk res b =>
      cases res with
      | ok out =>
        obtain ⟨g1, g2⟩ := h1 _ _ hr0
        have gl : (total b).length ≤ (total r.buffer).length := by rw [g1]; simp
        by_cases ho : out.isEmpty = true
        · simp only [ho, if_true]
          refine ⟨by simp, ?_⟩
          intro x r' hr
          simp only [Prod.mk.injEq, Except.error.injEq] at hr
          obtain ⟨rfl, rfl⟩ := hr
          exact ⟨gl, by simp⟩
        · have gs : (total b).length < (total r.buffer).length := by
            rw [g1]
            cases out with
            | nil => simp at ho
            | cons c cs => simp only [List.cons_append, List.length_cons, List.length_append]; omega
          simp only [ho]
          by_cases hf : r.payloadPos + out.length = size
          · simp only [hf, if_true]
            refine ⟨?_, by simp⟩
            intro r' hr
            simp only [Bool.false_eq_true, if_false, Prod.mk.injEq, true_and] at hr
            subst hr
            exact ⟨gs, g2⟩
          · simp only [hf, if_false]
            obtain ⟨i1, i2⟩ := ih { r with buffer := b, payload := writeAt r.payload r.payloadPos out, payloadPos := r.payloadPos + out.length } g2
            refine ⟨fun r' hr => ?_, fun x r' hr => ?_⟩
            · have := i1 r' hr; exact ⟨Nat.lt_trans this.1 gs, this.2⟩
            · have := i2 x r' hr; exact ⟨Nat.le_trans this.1 gl, this.2⟩
      | error y =>
        obtain ⟨g1, g2, g3⟩ := h2 _ _ hr0
        refine ⟨by simp, ?_⟩
        intro x r' hr
        simp only [Prod.mk.injEq, Except.error.injEq] at hr
        obtain ⟨rfl, rfl⟩ := hr
        refine ⟨by simp [g2], ?_⟩
        rcases g3 with ⟨rfl, he⟩ | ⟨rfl, he⟩
        · exact fun _ => ⟨he, g2⟩
        · simp [PayloadErr.ofIo]

theorem reader_left (e : Ending) (r : Reader) (h : Left e r.buffer.stream) :
    (∀ p r', r.read = (.ok p, r') → (total r'.buffer).length < (total r.buffer).length ∧ Left e r'.buffer.stream) ∧
    (∀ x r', r.read = (.error x, r') → (total r'.buffer).length ≤ (total r.buffer).length ∧
      (x = .wouldBlock → e = .none ∧ total r'.buffer = [])) := by
  -- the length
  have hlen : (∀ r', r.readLength = (.ok (), r') → (total r'.buffer).length ≤ (total r.buffer).length ∧
      Left e r'.buffer.stream) ∧
      (∀ x r', r.readLength = (.error x, r') → (total r'.buffer).length ≤ (total r.buffer).length ∧
        (x = .wouldBlock → e = .none ∧ total r'.buffer = [])) := by
    simp only [Reader.readLength]
    cases hp : r.payloadSize with
    | some n =>
      refine ⟨?_, by simp⟩
      intro r' hr
      simp only [Prod.mk.injEq, true_and] at hr
      subst hr
      exact ⟨Nat.le_refl _, h⟩
    | none =>
      obtain ⟨h1, h2⟩ := readExact_left e (r.buffer.stream.length + 5) r.buffer 4 [] h
      cases hx : r.buffer.readExact (r.buffer.stream.length + 5) 4 [] with
      | mk res b =>
        cases res with
        | ok out =>
          refine ⟨?_, by simp⟩
          intro r' hr
          simp only [Prod.mk.injEq, true_and] at hr
          subst hr
          exact h1 _ _ hx
        | error y =>
          refine ⟨by simp, ?_⟩
          intro x r' hr
          simp only [Prod.mk.injEq, Except.error.injEq] at hr
          obtain ⟨rfl, rfl⟩ := hr
          obtain ⟨g1, g2⟩ := h2 _ _ hx
          refine ⟨g1, ?_⟩
          cases y <;> simp [PayloadErr.ofIo] <;> simpa using g2
  obtain ⟨l1, l2⟩ := hlen
  simp only [Reader.read]
  cases hl : r.readLength with
  | mk res r1 =>
    cases res with
    | error y =>
      refine ⟨by simp, ?_⟩
      intro x r' hr
      simp only [Prod.mk.injEq, Except.error.injEq] at hr
      obtain ⟨rfl, rfl⟩ := hr
      exact l2 _ _ hl
    | ok u =>
      obtain ⟨g1, g2⟩ := l1 _ hl
      cases hp : r1.payloadSize with
      | none =>
        refine ⟨by simp [hp], ?_⟩
        intro x r' hr
        simp only [hp, Prod.mk.injEq, Except.error.injEq] at hr
        obtain ⟨rfl, rfl⟩ := hr
        exact ⟨g1, by simp⟩
      | some size =>
        simp only [hp]
        by_cases hm : r1.maxPayloadSize < size
        · simp only [hm, if_true]
          refine ⟨by simp, ?_⟩
          intro x r' hr
          simp only [Prod.mk.injEq, Except.error.injEq] at hr
          obtain ⟨rfl, rfl⟩ := hr
          exact ⟨g1, by simp⟩
        · simp only [hm, if_false]
          have hpay : (∀ r', r1.readPayload size = (.ok (), r') → (total r'.buffer).length < (total r1.buffer).length ∧
              Left e r'.buffer.stream) ∧
              (∀ x r', r1.readPayload size = (.error x, r') → (total r'.buffer).length ≤ (total r1.buffer).length ∧
                (x = .wouldBlock → e = .none ∧ total r'.buffer = [])) := by
            simp only [Reader.readPayload]
            by_cases hq : r1.payload.length ≠ size
            · rw [if_pos hq]
              exact readLoop_left e size (size + 1) { r1 with payload := resize r1.payload size } g2
            · rw [if_neg hq]
              exact readLoop_left e size (size + 1) r1 g2
          obtain ⟨p1, p2⟩ := hpay
          cases hx : r1.readPayload size with
          | mk res r2 =>
            cases res with
            | error y =>
              refine ⟨by simp, ?_⟩
              intro x r' hr
              simp only [Prod.mk.injEq, Except.error.injEq] at hr
              obtain ⟨rfl, rfl⟩ := hr
              have := p2 _ _ hx
              exact ⟨Nat.le_trans this.1 g1, this.2⟩
            | ok u =>
              refine ⟨?_, by simp⟩
              intro p r' hr
              simp only [Prod.mk.injEq, Except.ok.injEq] at hr
              obtain ⟨rfl, rfl⟩ := hr
              have := p1 _ hx
              exact ⟨Nat.lt_of_lt_of_le this.1 g1, this.2⟩

/-! ## Lines -/

theorem dataOf_tail (e : Ending) : dataOf (tail e) = [] := by cases e <;> simp [tail, dataOf]

/-- how `read_until` can end -/
def UntilOk (e : Ending) (before : Bytes) (l : Bytes) (x : Except IoErr Unit) (r : Bytes) (s : List NetItem) : Prop :=
  before = l ++ (r ++ dataOf s) ∧
  ((x = .ok () ∧ ∃ p, l = p ++ [10] ∧ (10 : UInt8) ∉ p) ∨
   (x = .ok () ∧ (10 : UInt8) ∉ l ∧ r = [] ∧ dataOf s = [] ∧ e = .fin) ∨
   (∃ y, x = .error y ∧ (10 : UInt8) ∉ l ∧ r = [] ∧ dataOf s = [] ∧ e ≠ .fin))

theorem readUntil_tail (e : Ending) (staged l r : Bytes) (x : Except IoErr Unit) (s : List NetItem)
    (h : readUntil staged (tail e) = (l, x, r, s)) : UntilOk e staged l x r s := by
  unfold readUntil at h
  cases hs : splitLine staged with
  | some lr =>
    obtain ⟨l', r'⟩ := lr
    simp only [hs, Prod.mk.injEq] at h
    obtain ⟨rfl, rfl, rfl, rfl⟩ := h
    obtain ⟨p, e1, e2, e3⟩ := splitLine_some hs
    exact ⟨by rw [dataOf_tail, List.append_nil]; exact e3, Or.inl ⟨rfl, p, e1, e2⟩⟩
  | none =>
    have hn := splitLine_none hs
    cases e with
    | none =>
      simp only [hs, tail, Prod.mk.injEq] at h
      obtain ⟨rfl, rfl, rfl, rfl⟩ := h
      exact ⟨by simp [dataOf], Or.inr (Or.inr ⟨_, rfl, hn, rfl, rfl, by simp⟩)⟩
    | fin =>
      simp only [hs, tail, Prod.mk.injEq] at h
      obtain ⟨rfl, rfl, rfl, rfl⟩ := h
      exact ⟨by simp [dataOf], Or.inr (Or.inl ⟨rfl, hn, rfl, rfl, rfl⟩)⟩
    | reset =>
      simp only [hs, tail, Prod.mk.injEq] at h
      obtain ⟨rfl, rfl, rfl, rfl⟩ := h
      exact ⟨by simp [dataOf], Or.inr (Or.inr ⟨_, rfl, hn, rfl, rfl, by simp⟩)⟩

theorem readUntil_left (e : Ending) (staged : Bytes) (stream : List NetItem) (hl : Left e stream) (l r : Bytes)
    (x : Except IoErr Unit) (s : List NetItem) (h : readUntil staged stream = (l, x, r, s)) :
    UntilOk e (staged ++ dataOf stream) l x r s := by
  rcases hl with rfl | ⟨b, bs, rfl⟩
  · rw [dataOf_tail, List.append_nil]; exact readUntil_tail e staged l r x s h
  · unfold readUntil at h
    cases hs : splitLine staged with
    | some lr =>
      obtain ⟨l', r'⟩ := lr
      simp only [hs, Prod.mk.injEq] at h
      obtain ⟨rfl, rfl, rfl, rfl⟩ := h
      obtain ⟨p, e1, e2, e3⟩ := splitLine_some hs
      refine ⟨?_, Or.inl ⟨rfl, p, e1, e2⟩⟩
      rw [e3]; simp
    | none =>
      have hn := splitLine_none hs
      cases hu : readUntil (b :: bs) (tail e) with
      | mk l1 rest =>
        obtain ⟨x1, r1, s1⟩ := rest
        simp only [hs, hu, Prod.mk.injEq] at h
        obtain ⟨rfl, rfl, rfl, rfl⟩ := h
        obtain ⟨g1, g2⟩ := readUntil_tail e _ _ _ _ _ hu
        refine ⟨?_, ?_⟩
        · simp only [dataOf, dataOf_tail, List.append_nil, List.append_assoc]
          rw [g1]
        · rcases g2 with ⟨rfl, p, rfl, hp⟩ | ⟨rfl, q, rest⟩ | ⟨y, rfl, q, rest⟩
          · exact Or.inl ⟨rfl, staged ++ p, by simp, by simp [hn, hp]⟩
          · exact Or.inr (Or.inl ⟨rfl, by simp [hn, q], rest⟩)
          · exact Or.inr (Or.inr ⟨y, rfl, by simp [hn, q], rest⟩)

theorem ascii_valid (l : Bytes) (h : ∀ b ∈ l, b < 128) : utf8Valid l = true := by
  induction l with
  | nil => rfl
  | cons a l ih =>
    have ha : utf8Lead a = some [] := by
      have := h a (by simp)
      simp only [utf8Lead]
      rw [if_pos this]
    simp only [utf8Valid, utf8From, ha]
    exact ih (fun b hb => h b (by simp [hb]))

/-! ## Handlers -/

/-- what holds of every handler: it never makes bytes up, and taking something uses some -/
structure Lawful {σ : Type} (h : Handler σ) : Prop where
  le : ∀ o k n o' k', h.read o k = (n, o', k') →
    k'.kernel.length + (h.staged o').length ≤ k.kernel.length + (h.staged o).length ∧ k'.ending = k.ending
  lt : ∀ o k a o' k', h.read o k = (.got a, o', k') →
    k'.kernel.length + (h.staged o').length < k.kernel.length + (h.staged o).length

theorem framed_read (accepts : Bytes → Bool) (r : Reader) (k : Sock) (n : Next Bytes) (r' : Reader) (k' : Sock)
    (h : (framed accepts).read r k = (n, r', k')) :
    k'.kernel.length + r'.buffer.buf.length ≤ k.kernel.length + r.buffer.buf.length ∧ k'.ending = k.ending ∧
    (∀ a, n = .got a → k'.kernel.length + r'.buffer.buf.length < k.kernel.length + r.buffer.buf.length) ∧
    (n = .wait → k'.kernel = [] ∧ r'.buffer.buf = [] ∧ k'.ending = .none) := by
  obtain ⟨hi, hd⟩ := items_left k
  obtain ⟨h1, h2⟩ := reader_left k.ending { r with buffer := { r.buffer with stream := k.items } } hi
  simp only [framed] at h
  have ht : (total { r.buffer with stream := k.items }).length = k.kernel.length + r.buffer.buf.length := by
    simp only [total, List.length_append, hd]; omega
  have ht' : ∀ b : BufReader, (total b).length = (k.after b.stream).kernel.length + b.buf.length := by
    intro b; simp only [total, List.length_append, Sock.after]; omega
  cases hr : Reader.read { r with buffer := { r.buffer with stream := k.items } } with
  | mk res r1 =>
    cases res with
    | ok p =>
      have g := (h1 _ _ hr).1
      simp only [hr, Prod.mk.injEq] at h
      obtain ⟨rfl, rfl, rfl⟩ := h
      simp only [ht, ht'] at g
      refine ⟨Nat.le_of_lt g, rfl, fun _ _ => g, ?_⟩
      intro hw
      by_cases ha : accepts p = true <;> simp [ha] at hw
    | error x =>
      obtain ⟨g1, g2⟩ := h2 _ _ hr
      by_cases hx : x = .wouldBlock
      · subst hx
        simp only [hr, Prod.mk.injEq] at h
        obtain ⟨rfl, rfl, rfl⟩ := h
        simp only [ht, ht'] at g1
        obtain ⟨g3, g4⟩ := g2 rfl
        simp only [total, List.append_eq_nil_iff] at g4
        exact ⟨g1, rfl, by simp, fun _ => ⟨g4.2, g4.1, g3⟩⟩
      · have : ((.stop, r1, k.after r1.buffer.stream) : Next Bytes × Reader × Sock) = (n, r', k') := by
          rw [hr] at h
          cases x <;> first | exact absurd rfl hx | exact h
        simp only [Prod.mk.injEq] at this
        obtain ⟨rfl, rfl, rfl⟩ := this
        simp only [ht, ht'] at g1
        exact ⟨g1, rfl, by simp, by simp⟩

theorem framed_lawful (accepts : Bytes → Bool) : Lawful (framed accepts) where
  le o k n o' k' h := ⟨(framed_read accepts o k n o' k' h).1, (framed_read accepts o k n o' k' h).2.1⟩
  lt o k a o' k' h := (framed_read accepts o k _ o' k' h).2.2.1 a rfl

/-- one call of the graphite handler's reader -/
theorem graphite_read (o : Bytes × Bytes) (k : Sock) (n : Next Bytes) (o' : Bytes × Bytes) (k' : Sock)
    (h : graphite.read o k = (n, o', k')) :
    ∃ l x r s, UntilOk k.ending (o.2 ++ k.kernel) l x r s ∧ k' = { k with kernel := dataOf s } ∧ o'.2 = r ∧
      ((utf8Valid l = true ∧ x = .ok () ∧ l ≠ [] ∧ n = .got (o.1 ++ l) ∧ o'.1 = []) ∨
       (utf8Valid l = true ∧ x = .ok () ∧ l = [] ∧ n = .wait ∧ o'.1 = o.1) ∨
       (utf8Valid l = true ∧ (∃ y, x = .error y) ∧ n = .wait ∧ o'.1 = o.1 ++ l) ∨
       (utf8Valid l = false ∧ n = .wait ∧ o'.1 = o.1)) := by
  obtain ⟨hi, hd⟩ := items_left k
  simp only [graphite, readLine] at h
  cases hu : readUntil o.2 k.items with
  | mk l rest =>
    obtain ⟨x, r, s⟩ := rest
    have g := readUntil_left k.ending o.2 k.items hi l r x s hu
    rw [hd] at g
    refine ⟨l, x, r, s, g, ?_⟩
    rw [hu] at h
    cases hv : utf8Valid l with
    | false =>
      cases x with
      | ok u =>
        simp only [hv, Bool.false_eq_true, if_false, Prod.mk.injEq] at h
        obtain ⟨rfl, rfl, rfl⟩ := h
        simp [Sock.after]
      | error y =>
        simp only [hv, Bool.false_eq_true, if_false, Prod.mk.injEq] at h
        obtain ⟨rfl, rfl, rfl⟩ := h
        simp [Sock.after]
    | true =>
      cases x with
      | error y =>
        simp only [hv, if_true, Prod.mk.injEq] at h
        obtain ⟨rfl, rfl, rfl⟩ := h
        simp [Sock.after]
      | ok u =>
        cases l with
        | nil =>
          simp only [hv, if_true, List.length_nil, Prod.mk.injEq] at h
          obtain ⟨rfl, rfl, rfl⟩ := h
          simp [Sock.after]
        | cons c cs =>
          simp only [hv, if_true, List.length_cons, Prod.mk.injEq] at h
          obtain ⟨rfl, rfl, rfl⟩ := h
          simp [Sock.after]

theorem graphite_lawful : Lawful graphite where
  le o k n o' k' h := by
    obtain ⟨l, x, r, s, ⟨g, -⟩, rfl, g2, -⟩ := graphite_read o k n o' k' h
    have := congrArg List.length g
    simp only [List.length_append] at this
    refine ⟨?_, rfl⟩
    simp only [graphite, g2]; omega
  lt o k a o' k' h := by
    obtain ⟨l, x, r, s, ⟨g, -⟩, rfl, g2, c⟩ := graphite_read o k _ o' k' h
    rcases c with ⟨-, -, hl, -⟩ | ⟨-, -, -, hn, -⟩ | ⟨-, -, hn, -⟩ | ⟨-, hn, -⟩
    · have := congrArg List.length g
      have hp : 0 < l.length := List.length_pos_iff.2 hl
      simp only [List.length_append] at this
      simp only [graphite, g2]; omega
    all_goals simp at hn

/-! ## Runs -/

variable {σ : Type}

theorem run_append (h : Handler σ) (s : State σ) (a b : List Label) :
    run h s (a ++ b) = (run h s a).bind fun s' => run h s' b := by
  induction a generalizing s with
  | nil => rfl
  | cons l a ih =>
    simp only [List.cons_append, run]
    cases step h s l with
    | none => rfl
    | some s' => exact ih s'

/-- induction along a run -/
theorem run_inv (h : Handler σ) (P : State σ → Prop)
    (hp : ∀ s l s', P s → step h s l = some s' → P s') :
    ∀ (ls : List Label) (s s' : State σ), P s → run h s ls = some s' → P s' := by
  intro ls
  induction ls with
  | nil => intro s s' hs hr; simp only [run, Option.some.injEq] at hr; exact hr ▸ hs
  | cons l ls ih =>
    intro s s' hs hr
    simp only [run] at hr
    cases hst : step h s l with
    | none => rw [hst] at hr; simp at hr
    | some s1 => rw [hst] at hr; exact ih s1 s' (hp s l s1 hs hst) hr

/-- what is left to do, at most -/
def work (h : Handler σ) (s : State σ) : Nat :=
  unread h s + (if s.edge then 2 else 0) + match s.phase with | .polling => 1 | .reading _ => 2 | .ended => 0

theorem own_step (h : Handler σ) (hl : Lawful h) (s s' : State σ) (l : Label) (ho : l.own = true)
    (hs : step h s l = some s') :
    work h s' < work h s ∧ s'.sock.ending = s.sock.ending ∧ s'.system = s.system := by
  cases l with
  | poll first =>
    simp only [step] at hs
    cases hp : s.phase with
    | polling =>
      simp only [hp] at hs
      by_cases he : s.edge = true
      · simp only [he, if_true] at hs
        by_cases hf : (s.system && first) = true
        · simp only [hf, if_true, Option.some.injEq] at hs
          subst hs
          simp [work, hp, he, unread]
        · simp only [hf, Bool.false_eq_true, if_false, Option.some.injEq] at hs
          subst hs
          simp [work, hp, he, unread]
      · simp only [he, Bool.false_eq_true, if_false] at hs
        by_cases hy : s.system = true
        · simp only [hy, if_true, Option.some.injEq] at hs
          subst hs
          simp [work, hp, he, unread, hy]
        · simp [hy] at hs
    | reading b => simp [hp] at hs
    | ended => simp [hp] at hs
  | read =>
    simp only [step] at hs
    cases hp : s.phase with
    | polling => simp [hp] at hs
    | ended => simp [hp] at hs
    | reading b =>
      simp only [hp] at hs
      cases hr : h.read s.own s.sock with
      | mk n rest =>
        obtain ⟨o', k'⟩ := rest
        obtain ⟨g1, g2⟩ := hl.le _ _ _ _ _ hr
        cases n with
        | got a =>
          have g3 := hl.lt _ _ _ _ _ hr
          simp only [hr, Option.some.injEq] at hs
          subst hs
          refine ⟨?_, g2, rfl⟩
          simp only [work, unread, hp]; omega
        | wait =>
          simp only [hr, Option.some.injEq] at hs
          subst hs
          refine ⟨?_, g2, rfl⟩
          simp only [work, unread, hp]
          cases b <;> simp <;> omega
        | stop =>
          simp only [hr, Option.some.injEq] at hs
          subst hs
          refine ⟨?_, g2, rfl⟩
          simp only [work, unread, hp]; omega
  | _ => simp [Label.own] at ho

theorem own_run (h : Handler σ) (hl : Lawful h) : ∀ (ls : List Label) (s s' : State σ), (∀ l ∈ ls, l.own = true) →
    run h s ls = some s' →
    work h s' + ls.length ≤ work h s ∧ s'.sock.ending = s.sock.ending ∧ s'.system = s.system := by
  intro ls
  induction ls with
  | nil => intro s s' _ hr; simp only [run, Option.some.injEq] at hr; subst hr; simp
  | cons l ls ih =>
    intro s s' ho hr
    simp only [run] at hr
    cases hst : step h s l with
    | none => rw [hst] at hr; simp at hr
    | some s1 =>
      rw [hst] at hr
      obtain ⟨a1, a2, a3⟩ := own_step h hl s s1 l (ho l (by simp)) hst
      obtain ⟨b1, b2, b3⟩ := ih s1 s' (fun x hx => ho x (by simp [hx])) hr
      refine ⟨?_, b2.trans a2, b3.trans a3⟩
      simp only [List.length_cons]; omega

theorem stuck_cases (h : Handler σ) (s : State σ) (hs : Stuck h s) : s.phase = .ended ∨ Asleep s := by
  cases hp : s.phase with
  | ended => exact Or.inl rfl
  | reading b =>
    have := hs .read rfl
    simp only [step, hp] at this
    cases hr : h.read s.own s.sock with
    | mk n rest =>
      obtain ⟨o', k'⟩ := rest
      cases n <;> simp [hr] at this
  | polling =>
    have := hs (.poll false) rfl
    simp only [step, hp] at this
    right
    cases he : s.edge <;> cases hy : s.system <;> simp [he, hy] at this
    exact ⟨hp, he, hy⟩

/-- what ended or was signalled stays so -/
theorem step_ends (h : Handler σ) (hl : Lawful h) (s s' : State σ) (l : Label) (hs : step h s l = some s') :
    (s.system = true ∨ l = .system → s'.system = true) ∧
    (s.sock.ending ≠ .none ∨ l = .close ∨ l = .reset → s'.sock.ending ≠ .none) := by
  cases l with
  | poll first => obtain ⟨-, h1, h2⟩ := own_step h hl s s' _ rfl hs; simp [h1, h2]
  | read => obtain ⟨-, h1, h2⟩ := own_step h hl s s' _ rfl hs; simp [h1, h2]
  | arrive bs =>
    simp only [step] at hs
    split at hs
    · simp only [Option.some.injEq] at hs; subst hs; simp
    · simp at hs
  | close =>
    simp only [step] at hs
    split at hs
    · simp only [Option.some.injEq] at hs; subst hs; simp
    · simp at hs
  | reset =>
    simp only [step] at hs
    split at hs
    · simp only [Option.some.injEq] at hs; subst hs; simp
    · simp at hs
  | spurious => simp only [step, Option.some.injEq] at hs; subst hs; simp
  | system => simp only [step, Option.some.injEq] at hs; subst hs; simp

theorem run_ends (h : Handler σ) (hl : Lawful h) : ∀ (ls : List Label) (s s' : State σ), run h s ls = some s' →
    (s.system = true ∨ .system ∈ ls → s'.system = true) ∧
    (s.sock.ending ≠ .none ∨ .close ∈ ls ∨ .reset ∈ ls → s'.sock.ending ≠ .none) := by
  intro ls
  induction ls with
  | nil => intro s s' hr; simp only [run, Option.some.injEq] at hr; subst hr; simp
  | cons l ls ih =>
    intro s s' hr
    simp only [run, Option.bind_eq_some_iff] at hr
    obtain ⟨s1, h1, h2⟩ := hr
    obtain ⟨a1, a2⟩ := step_ends h hl s s1 l h1
    obtain ⟨b1, b2⟩ := ih s1 s' h2
    refine ⟨fun hx => b1 ?_, fun hx => b2 ?_⟩
    · rcases hx with hx | hx
      · exact Or.inl (a1 (Or.inl hx))
      · rcases List.mem_cons.1 hx with hx | hx
        · exact Or.inl (a1 (Or.inr hx.symm))
        · exact Or.inr hx
    · rcases hx with hx | hx | hx
      · exact Or.inl (a2 (Or.inl hx))
      · rcases List.mem_cons.1 hx with hx | hx
        · exact Or.inl (a2 (Or.inr (Or.inl hx.symm)))
        · exact Or.inr (Or.inl hx)
      · rcases List.mem_cons.1 hx with hx | hx
        · exact Or.inl (a2 (Or.inr (Or.inr hx.symm)))
        · exact Or.inr (Or.inr hx)

end Verif.Stream
