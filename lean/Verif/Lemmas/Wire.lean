import Verif.Spec.Wire
/-! # Lemmas about buffered, length-prefixed reading -/
namespace Verif.Wire

theorem be_length (n v : Nat) : (be n v).length = n := by
  induction n with
  | zero => rfl
  | succ n ih => simp [be, ih]

theorem beNat_append (a b : Bytes) :
    beNat (a ++ b) = beNat a * 256 ^ b.length + beNat b := by
  have key : ∀ (l : Bytes) (acc : Nat),
      l.foldl (fun acc b => acc * 256 + b.toNat) acc = acc * 256 ^ l.length + beNat l := by
    intro l
    induction l with
    | nil => intro acc; simp [beNat]
    | cons x l ih =>
      intro acc
      simp only [beNat, List.foldl_cons, List.length_cons]
      rw [ih, ih (0 * 256 + x.toNat)]
      simp only [Nat.pow_succ, Nat.add_mul, Nat.zero_mul, Nat.zero_add]
      rw [Nat.mul_assoc, Nat.mul_comm 256]
      omega
  rw [beNat, List.foldl_append, key]; rfl

theorem beNat_cons (x : UInt8) (l : Bytes) : beNat (x :: l) = x.toNat * 256 ^ l.length + beNat l := by
  have := beNat_append [x] l
  simpa [beNat] using this

theorem beNat_be (n v : Nat) : beNat (be n v) = v % 256 ^ n := by
  induction n with
  | zero => simp [be, beNat, Nat.mod_one]
  | succ n ih =>
    rw [be, beNat_cons, be_length, ih]
    have h : (UInt8.ofNat (v / 256 ^ n)).toNat = v / 256 ^ n % 256 := by
      simp
    rw [h, Nat.pow_succ, Nat.mod_mul, Nat.mul_comm]
    omega

def BufReader.syms (r : BufReader) : List Sym := r.buf.map .byte ++ symsOf r.stream

def BufReader.Ok (r : BufReader) : Prop := NonEmptyReads r.stream

theorem symsOf_cons (x : NetItem) (s : List NetItem) : symsOf (x :: s) = x.syms ++ symsOf s := by
  simp [symsOf]

theorem NonEmptyReads.tail {x : NetItem} {s : List NetItem} (h : NonEmptyReads (x :: s)) :
    NonEmptyReads s := fun bs hb => h bs (by simp [hb])

theorem netRead_spec (n : Nat) (s : List NetItem) (hn : 0 < n) (hs : NonEmptyReads s) :
    (symsOf s = [] → netRead n s = (.ok [], [])) ∧
    (∀ b t, symsOf s = .byte b :: t → ∃ bs s', netRead n s = (.ok (b :: bs), s') ∧
      (b :: bs).length ≤ n ∧ symsOf s = (b :: bs).map .byte ++ symsOf s' ∧ NonEmptyReads s') ∧
    (∀ t, symsOf s = .block :: t → ∃ s', netRead n s = (.error .wouldBlock, s') ∧
      symsOf s' = t ∧ NonEmptyReads s') := by
  cases s with
  | nil => exact ⟨fun _ => rfl, by simp [symsOf], by simp [symsOf]⟩
  | cons x s =>
    have ht := hs.tail
    cases x with
    | data bs =>
      have hbs := hs bs (by simp)
      cases bs with
      | nil => exact absurd rfl hbs
      | cons c cs =>
        refine ⟨by simp [symsOf_cons, NetItem.syms], ?_, ?_⟩
        · intro b t hb
          simp only [symsOf_cons, NetItem.syms, List.map_cons, List.cons_append, List.cons.injEq,
            Sym.byte.injEq] at hb
          obtain ⟨rfl, -⟩ := hb
          cases n with
          | zero => omega
          | succ n =>
            refine ⟨cs.take n, _, rfl, ?_, ?_, ?_⟩
            · simp only [List.length_cons, List.length_take]; omega
            · simp only [List.length_cons]
              split
              · next h =>
                rw [List.take_of_length_le (by omega)]
                simp [symsOf_cons, NetItem.syms]
              · simp only [symsOf_cons, NetItem.syms, List.drop_succ_cons, ← List.append_assoc,
                  ← List.map_append, List.cons_append, List.take_append_drop]
            · simp only [List.length_cons]
              split
              · exact ht
              · intro bs' hb'
                rcases List.mem_cons.1 hb' with hb' | hb'
                · simp only [NetItem.data.injEq] at hb'
                  subst hb'
                  intro h0
                  have := congrArg List.length h0
                  simp only [List.length_drop, List.length_cons, List.length_nil] at this
                  omega
                · exact ht bs' hb'
        · intro t h; simp [symsOf_cons, NetItem.syms] at h
    | wouldBlock =>
      refine ⟨by simp [symsOf_cons, NetItem.syms], by simp [symsOf_cons, NetItem.syms], ?_⟩
      intro t h
      simp only [symsOf_cons, NetItem.syms, List.cons_append, List.nil_append, List.cons.injEq,
        true_and] at h
      exact ⟨s, rfl, h, ht⟩
    | interrupted =>
      exact ⟨by simp [symsOf_cons, NetItem.syms], by simp [symsOf_cons, NetItem.syms],
        by simp [symsOf_cons, NetItem.syms]⟩
    | failed =>
      exact ⟨by simp [symsOf_cons, NetItem.syms], by simp [symsOf_cons, NetItem.syms],
        by simp [symsOf_cons, NetItem.syms]⟩

theorem read_spec (n : Nat) (r : BufReader) (hn : 0 < n) (hr : r.Ok) :
    (r.syms = [] → ∃ r', r.read n = (.ok [], r') ∧ r'.syms = [] ∧ r'.Ok) ∧
    (∀ b t, r.syms = .byte b :: t → ∃ bs r', r.read n = (.ok (b :: bs), r') ∧
      (b :: bs).length ≤ n ∧ r.syms = (b :: bs).map .byte ++ r'.syms ∧ r'.Ok) ∧
    (∀ t, r.syms = .block :: t → ∃ r', r.read n = (.error .wouldBlock, r') ∧
      r'.syms = t ∧ r'.Ok) := by
  obtain ⟨buf, stream⟩ := r
  cases buf with
  | cons c cs =>
    refine ⟨by simp [BufReader.syms], ?_, by simp [BufReader.syms]⟩
    intro b t h
    simp only [BufReader.syms, List.map_cons, List.cons_append, List.cons.injEq, Sym.byte.injEq] at h
    obtain ⟨rfl, -⟩ := h
    cases n with
    | zero => omega
    | succ n =>
      refine ⟨cs.take n, ⟨cs.drop n, stream⟩, rfl, ?_, ?_, hr⟩
      · simp only [List.length_cons, List.length_take]; omega
      · simp only [BufReader.syms, List.map_cons, List.cons_append, ← List.append_assoc,
          ← List.map_append, List.take_append_drop]
  | nil =>
    have hsy : (⟨[], stream⟩ : BufReader).syms = symsOf stream := by simp [BufReader.syms]
    by_cases hcap : capacity ≤ n
    · obtain ⟨a1, a2, a3⟩ := netRead_spec n stream hn hr
      refine ⟨?_, ?_, ?_⟩
      · intro h
        rw [hsy] at h
        refine ⟨⟨[], []⟩, ?_, rfl, by intro bs hb; simp at hb⟩
        simp only [BufReader.read, if_pos hcap, a1 h]
      · intro b t h
        rw [hsy] at h
        obtain ⟨bs, s', e1, e2, e3, e4⟩ := a2 b t h
        refine ⟨bs, ⟨[], s'⟩, ?_, e2, by rw [hsy, e3]; simp [BufReader.syms], e4⟩
        simp only [BufReader.read, if_pos hcap, e1]
      · intro t h
        rw [hsy] at h
        obtain ⟨s', e1, e2, e3⟩ := a3 t h
        refine ⟨⟨[], s'⟩, ?_, by rw [← e2]; simp [BufReader.syms], e3⟩
        simp only [BufReader.read, if_pos hcap, e1]
    · obtain ⟨a1, a2, a3⟩ := netRead_spec capacity stream (by decide) hr
      refine ⟨?_, ?_, ?_⟩
      · intro h
        rw [hsy] at h
        refine ⟨⟨[], []⟩, ?_, rfl, by intro bs hb; simp at hb⟩
        simp only [BufReader.read, if_neg hcap, a1 h, List.take_nil, List.drop_nil]
      · intro b t h
        rw [hsy] at h
        obtain ⟨bs, s', e1, e2, e3, e4⟩ := a2 b t h
        cases n with
        | zero => omega
        | succ n =>
          refine ⟨bs.take n, ⟨bs.drop n, s'⟩, ?_, ?_, ?_, e4⟩
          · simp only [BufReader.read, if_neg hcap, e1, List.take_succ_cons, List.drop_succ_cons]
          · simp only [List.length_cons, List.length_take]; omega
          · rw [hsy, e3]
            simp only [BufReader.syms, List.map_cons, List.cons_append, ← List.append_assoc,
              ← List.map_append, List.take_append_drop]
      · intro t h
        rw [hsy] at h
        obtain ⟨s', e1, e2, e3⟩ := a3 t h
        refine ⟨⟨[], s'⟩, ?_, by rw [← e2]; simp [BufReader.syms], e3⟩
        simp only [BufReader.read, if_neg hcap, e1]

theorem readExact_ok (fuel : Nat) (r : BufReader) (bs acc : Bytes) (t : List Sym)
    (hf : bs.length < fuel) (hr : r.Ok) (hs : r.syms = bs.map .byte ++ t) :
    ∃ r', r.readExact fuel bs.length acc = (.ok (acc ++ bs), r') ∧ r'.syms = t ∧ r'.Ok := by
  induction fuel generalizing r bs acc with
  | zero => omega
  | succ fuel ih =>
    cases bs with
    | nil => exact ⟨r, by simp [BufReader.readExact], by simpa using hs, hr⟩
    | cons b bs =>
      obtain ⟨ds, r1, e1, e2, e3, e4⟩ := (read_spec (b :: bs).length r (by simp) hr).2.1 b _ (by
        rw [hs]; rfl)
      simp only [BufReader.readExact, List.length_cons, Nat.add_eq_zero_iff, Nat.one_ne_zero,
        and_false, if_false, List.isEmpty_cons, Bool.false_eq_true]
      simp only [List.length_cons] at e1
      rw [e1]
      simp only [List.isEmpty_cons, Bool.false_eq_true, if_false, List.length_cons]
      -- the bytes read are a prefix of those expected
      have hpre : (b :: bs).map Sym.byte ++ t = (b :: ds).map Sym.byte ++ r1.syms := by rw [← hs, e3]
      have hlen : ds.length ≤ bs.length := by simpa using e2
      have hbs : bs = ds ++ bs.drop ds.length ∧ r1.syms = (bs.drop ds.length).map .byte ++ t := by
        simp only [List.map_cons, List.cons_append, List.cons.injEq, true_and] at hpre
        have h1 := congrArg (List.take ds.length) hpre
        have h2 := congrArg (List.drop ds.length) hpre
        rw [List.take_append_of_le_length (by simpa using hlen),
          List.take_append_of_le_length (by simp), ← List.map_take, ← List.map_take,
          List.take_of_length_le (Nat.le_refl ds.length)] at h1
        rw [List.drop_append_of_le_length (by simpa using hlen),
          List.drop_append_of_le_length (by simp), ← List.map_drop, ← List.map_drop,
          List.drop_of_length_le (Nat.le_refl ds.length), List.map_nil, List.nil_append] at h2
        refine ⟨?_, h2.symm⟩
        have h3 : bs.take ds.length = ds := by
          have := congrArg (List.filterMap Sym.byte?) h1
          have hid : ∀ l : Bytes, List.filterMap Sym.byte? (l.map .byte) = l := by
            intro l; induction l with
            | nil => rfl
            | cons x l ih => simp [Sym.byte?, ih]
          rwa [hid, hid] at this
        conv => lhs; rw [← List.take_append_drop ds.length bs, h3]
      obtain ⟨r2, f1, f2, f3⟩ := ih r1 (bs.drop ds.length) (acc ++ b :: ds) (by
        simp only [List.length_cons] at hf; rw [List.length_drop]; omega) e4 hbs.2
      refine ⟨r2, ?_, f2, f3⟩
      rw [List.length_drop] at f1
      rw [Nat.add_sub_add_right, f1]
      conv => rhs; rw [hbs.1]
      simp

/-- a body: bytes and blocks only -/
def Body (l : List Sym) : Prop := ∀ x ∈ l, x = .block ∨ ∃ b, x = .byte b

def Blocks (l : List Sym) : Prop := ∀ x ∈ l, x = Sym.block

theorem filterMap_bytes (l : Bytes) : List.filterMap Sym.byte? (l.map .byte) = l := by
  induction l with
  | nil => rfl
  | cons x l ih => simp [Sym.byte?, ih]

theorem body_split (body : List Sym) (h : Body body) (bs : Bytes) (t u : List Sym)
    (hb : body ++ t = bs.map .byte ++ u) (hl : bs.length ≤ (body.filterMap Sym.byte?).length) :
    ∃ body', body = bs.map .byte ++ body' ∧ u = body' ++ t := by
  induction bs generalizing body with
  | nil => exact ⟨body, rfl, by simpa using hb.symm⟩
  | cons b bs ih =>
    cases body with
    | nil => simp at hl
    | cons x body =>
      simp only [List.cons_append, List.map_cons, List.cons.injEq] at hb
      obtain ⟨rfl, hb⟩ := hb
      obtain ⟨body', h1, h2⟩ := ih body (fun x hx => h x (by simp [hx])) hb (by
        simpa [Sym.byte?] using hl)
      exact ⟨body', by rw [h1]; rfl, h2⟩

/-- mid-payload: `got` has been read, `rem` is still to come -/
structure Mid (r : Reader) (got rem : Bytes) (body t : List Sym) : Prop where
  size : r.payloadSize = some (got.length + rem.length)
  max : got.length + rem.length ≤ r.maxPayloadSize
  pos : r.payloadPos = got.length
  rem_ne : rem ≠ []
  payload : r.payload.length = got.length + rem.length ∨ (r.payload = [] ∧ got = [])
  gotEq : r.payload.take got.length = got
  syms : r.buffer.syms = body ++ t
  ok : r.buffer.Ok
  bodyOk : Body body
  bytes : body.filterMap Sym.byte? = rem

theorem readLoop_spec (fuel : Nat) (r : Reader) (got rem : Bytes) (body t : List Sym)
    (h : Mid r got rem body t) (hp : r.payload.length = got.length + rem.length)
    (hf : rem.length < fuel) :
    (∃ r' blks, r.readLoop (got.length + rem.length) fuel = (.ok (), r') ∧ r'.payload = got ++ rem ∧
      r'.payloadSize = none ∧ r'.payloadPos = 0 ∧ r'.maxPayloadSize = r.maxPayloadSize ∧
      r'.buffer.syms = blks ++ t ∧ Blocks blks ∧ blks.length < body.length ∧ r'.buffer.Ok) ∨
    (∃ r' got' rem' body', r.readLoop (got.length + rem.length) fuel = (.error .wouldBlock, r') ∧
      Mid r' got' rem' body' t ∧ got' ++ rem' = got ++ rem ∧ body'.length < body.length ∧
      r'.maxPayloadSize = r.maxPayloadSize) := by
  induction fuel generalizing r got rem body with
  | zero => omega
  | succ fuel ih =>
    cases body with
    | nil => exact absurd h.bytes.symm h.rem_ne
    | cons x body =>
      have hpos : 0 < rem.length := List.length_pos_iff.2 h.rem_ne
      have hsz : got.length + rem.length - r.payloadPos = rem.length := by rw [h.pos]; omega
      rcases h.bodyOk x (by simp) with rfl | ⟨b, rfl⟩
      · -- would block
        right
        obtain ⟨b', e1, e2, e3⟩ := (read_spec rem.length r.buffer hpos h.ok).2.2 (body ++ t) (by
          rw [h.syms]; rfl)
        refine ⟨{ r with buffer := b' }, got, rem, body, ?_, ?_, rfl, by simp, rfl⟩
        · simp only [Reader.readLoop, hsz, e1, PayloadErr.ofIo]
        · exact ⟨h.size, h.max, h.pos, h.rem_ne, h.payload, h.gotEq, e2, e3,
            fun y hy => h.bodyOk y (by simp [hy]), by rw [← h.bytes]; rfl⟩
      · obtain ⟨bs, b', e1, e2, e3, e4⟩ := (read_spec rem.length r.buffer hpos h.ok).2.1 b
          (body ++ t) (by rw [h.syms]; rfl)
        have hbytes := h.bytes
        obtain ⟨body', s1, s2⟩ := body_split (.byte b :: body) h.bodyOk (b :: bs) t b'.syms (by
          rw [← e3, h.syms]) (by rw [hbytes]; exact e2)
        have hrem : rem = (b :: bs) ++ body'.filterMap Sym.byte? := by
          rw [← hbytes, s1, List.filterMap_append, filterMap_bytes]
        generalize hrem' : body'.filterMap Sym.byte? = rem' at hrem
        have hbody' : Body body' := fun y hy => h.bodyOk y (by rw [s1]; simp [hy])
        have hblen : body'.length < (Sym.byte b :: body).length := by
          rw [s1]; simp only [List.length_append, List.length_map, List.length_cons]; omega
        have hw : ∀ k, k = (b :: bs).length → (writeAt r.payload r.payloadPos (b :: bs)).take (got.length + k)
            = got ++ (b :: bs) := by
          intro k hk
          subst hk
          rw [writeAt, h.pos, h.gotEq, List.take_append_of_le_length (by simp),
            List.take_of_length_le (by simp)]
        have hwl : (writeAt r.payload r.payloadPos (b :: bs)).length = got.length + rem.length := by
          rw [writeAt, h.pos, h.gotEq]
          simp only [List.length_append, List.length_drop, hp]
          rw [hrem]; simp only [List.length_append]; omega
        by_cases hdone : rem' = []
        · left
          subst hdone
          refine ⟨{ r with buffer := b', payload := writeAt r.payload r.payloadPos (b :: bs), payloadSize := none, payloadPos := 0 }, body', ?_, ?_, rfl, rfl, rfl, s2, ?_, hblen, e4⟩
          · simp only [Reader.readLoop, hsz, e1, List.isEmpty_cons, Bool.false_eq_true, if_false]
            rw [if_pos (by rw [h.pos, hrem]; simp)]
          · simp only
            have h1 := hw _ rfl
            rw [List.take_of_length_le (by rw [hwl, hrem]; simp)] at h1
            rw [h1, hrem]; simp
          · intro y hy
            rcases hbody' y hy with rfl | ⟨c, rfl⟩
            · rfl
            · have : c ∈ body'.filterMap Sym.byte? := List.mem_filterMap.2 ⟨_, hy, rfl⟩
              rw [hrem'] at this; simp at this
        · have hrl : rem.length = (b :: bs).length + rem'.length := by rw [hrem, List.length_append]
          have hrp := List.length_pos_iff.2 hdone
          simp only [List.length_cons] at hrl
          have hmid : Mid { r with buffer := b', payload := writeAt r.payload r.payloadPos (b :: bs), payloadPos := r.payloadPos + (b :: bs).length } (got ++ b :: bs) rem' body' t := by
            have hlen : (got ++ b :: bs).length + rem'.length = got.length + rem.length := by
              rw [hrem]; simp only [List.length_append, List.length_cons]; omega
            refine ⟨?_, ?_, ?_, hdone, ?_, ?_, s2, e4, hbody', hrem'⟩
            · rw [hlen]; exact h.size
            · rw [hlen]; exact h.max
            · simp only [h.pos, List.length_append]
            · left; simp only [hlen]; exact hwl
            · simp only [List.length_append]
              exact hw _ rfl
          have hlen : (got ++ b :: bs).length + rem'.length = got.length + rem.length := by
            rw [hrem]; simp only [List.length_append, List.length_cons]; omega
          have hstep : r.readLoop (got.length + rem.length) (fuel + 1) =
              Reader.readLoop (got.length + rem.length) fuel { r with buffer := b', payload := writeAt r.payload r.payloadPos (b :: bs), payloadPos := r.payloadPos + (b :: bs).length } := by
            simp only [Reader.readLoop, hsz, e1, List.isEmpty_cons, Bool.false_eq_true, if_false]
            rw [if_neg (by rw [h.pos]; simp only [List.length_cons]; omega)]
          have hw2 := ih _ _ _ _ hmid (by rw [hlen]; exact hwl) (by omega)
          rw [hlen] at hw2
          rw [hstep]
          rcases hw2 with ⟨r', blks, q1, q2, q3, q4, q5, q6, q7, q8, q9⟩ | ⟨r', g', m', bd', q1, q2, q3, q4, q5⟩
          · exact Or.inl ⟨r', blks, q1, by rw [q2, hrem]; simp, q3, q4, q5, q6, q7, by omega, q9⟩
          · exact Or.inr ⟨r', g', m', bd', q1, q2, by rw [q3, hrem]; simp, by omega, q5⟩

/-- between frames -/
structure Between (r : Reader) (s : List Sym) : Prop where
  size : r.payloadSize = none
  pos : r.payloadPos = 0
  payload : r.payload = []
  syms : r.buffer.syms = s
  ok : r.buffer.Ok

theorem read_mid (r : Reader) (got rem : Bytes) (body t : List Sym) (h : Mid r got rem body t) :
    (∃ r' blks, r.read = (.ok (got ++ rem), r') ∧ Between r' (blks ++ t) ∧
      r'.maxPayloadSize = r.maxPayloadSize ∧ Blocks blks ∧ blks.length < body.length) ∨
    (∃ r' got' rem' body', r.read = (.error .wouldBlock, r') ∧
      Mid r' got' rem' body' t ∧ got' ++ rem' = got ++ rem ∧ body'.length < body.length ∧
      r'.maxPayloadSize = r.maxPayloadSize) := by
  have hlen : r.readLength = (.ok (), r) := by simp [Reader.readLength, h.size]
  have hpos : 0 < rem.length := List.length_pos_iff.2 h.rem_ne
  have hmid : ∃ r0 : Reader, r0 = (if r.payload.length ≠ got.length + rem.length
      then { r with payload := resize r.payload (got.length + rem.length) } else r) ∧
      Mid r0 got rem body t ∧ r0.payload.length = got.length + rem.length ∧
      r0.maxPayloadSize = r.maxPayloadSize := by
    refine ⟨_, rfl, ?_⟩
    split
    · next hne =>
      rcases h.payload with hp | ⟨hp, hg⟩
      · exact absurd hp hne
      · subst hg
        have hl : (resize r.payload (([] : Bytes).length + rem.length)).length
            = ([] : Bytes).length + rem.length := by
          simp [resize, hp]
        refine ⟨⟨h.size, h.max, h.pos, h.rem_ne, Or.inl hl, rfl, h.syms, h.ok, h.bodyOk, h.bytes⟩,
          hl, rfl⟩
    · next hne =>
      exact ⟨h, by simpa using hne, rfl⟩
  obtain ⟨r0, hr0, m0, hl0, hm0⟩ := hmid
  have hread : ∀ res r', r0.readLoop (got.length + rem.length) (got.length + rem.length + 1) = (res, r') →
      r.read = match (res, r') with
        | (.error e, r2) => (.error e, r2)
        | (.ok (), r2) => (.ok r2.payload, { r2 with payload := [] }) := by
    intro res r' hl
    have hrp : r.readPayload (got.length + rem.length) = (res, r') := by
      rw [← hl, hr0, Reader.readPayload]
    simp only [Reader.read, hlen, h.size, if_neg (Nat.not_lt.2 h.max), hrp]
    cases res <;> rfl
  rcases readLoop_spec (got.length + rem.length + 1) r0 got rem body t m0 hl0 (by omega) with
    ⟨r', blks, q1, q2, q3, q4, q5, q6, q7, q8, q9⟩ | ⟨r', g', m', bd', q1, q2, q3, q4, q5⟩
  · left
    refine ⟨{ r' with payload := [] }, blks, ?_, ⟨q3, q4, rfl, q6, q9⟩, by simp [q5, hm0], q7, q8⟩
    rw [hread _ _ q1, ← q2]
  · right
    exact ⟨r', g', m', bd', by rw [hread _ _ q1], q2, q3, q4, by rw [q5, hm0]⟩

theorem read_between_block (r : Reader) (s : List Sym) (h : Between r (.block :: s)) :
    ∃ r', r.read = (.error .wouldBlock, r') ∧ Between r' s ∧ r'.maxPayloadSize = r.maxPayloadSize := by
  obtain ⟨b', e1, e2, e3⟩ := (read_spec 4 r.buffer (by decide) h.ok).2.2 s h.syms
  refine ⟨{ r with buffer := b' }, ?_, ⟨h.size, h.pos, h.payload, e2, e3⟩, rfl⟩
  simp [Reader.read, Reader.readLength, h.size, BufReader.readExact, e1, PayloadErr.ofIo]

theorem read_between_eof (r : Reader) (h : Between r []) :
    ∃ r', r.read = (.error .eof, r') := by
  obtain ⟨b', e1, e2, e3⟩ := (read_spec 4 r.buffer (by decide) h.ok).1 h.syms
  refine ⟨{ r with buffer := b' }, ?_⟩
  simp [Reader.read, Reader.readLength, h.size, BufReader.readExact, e1, PayloadErr.ofIo]

theorem read_between_length (r : Reader) (n : Nat) (s : List Sym)
    (h : Between r ((be 4 n).map .byte ++ s)) (hn : n < 4294967296) :
    ∃ b', r.readLength = (.ok (), { r with buffer := b', payloadSize := some n }) ∧
      b'.syms = s ∧ b'.Ok := by
  obtain ⟨b', e1, e2, e3⟩ := readExact_ok (r.buffer.stream.length + 5) r.buffer (be 4 n) [] s
    (by rw [be_length]; omega) h.ok h.syms
  refine ⟨b', ?_, e2, e3⟩
  rw [be_length] at e1
  simp only [Reader.readLength, h.size, e1, List.nil_append, beNat_be]
  rw [Nat.mod_eq_of_lt (by simpa using hn)]

theorem drain_ok (fuel : Nat) :
    (∀ (r : Reader) (ps : List Bytes) (s : List Sym), Between r s → Framed ps s →
      (∀ p ∈ ps, p ≠ [] ∧ p.length ≤ r.maxPayloadSize ∧ p.length < 4294967296) →
      s.length < fuel → r.drain fuel = (ps, .eof)) ∧
    (∀ (r : Reader) (ps : List Bytes) (got rem : Bytes) (body t : List Sym), Mid r got rem body t →
      Framed ps t →
      (∀ p ∈ ps, p ≠ [] ∧ p.length ≤ r.maxPayloadSize ∧ p.length < 4294967296) →
      body.length + t.length < fuel → r.drain fuel = ((got ++ rem) :: ps, .eof)) := by
  have addBlocks : ∀ (blks : List Sym) (ps : List Bytes) (t : List Sym), Blocks blks → Framed ps t →
      Framed ps (blks ++ t) := by
    intro blks
    induction blks with
    | nil => intro ps t _ h; exact h
    | cons x blks ih =>
      intro ps t hb h
      have := hb x (by simp)
      subst this
      exact .block (ih ps t (fun y hy => hb y (by simp [hy])) h)
  induction fuel with
  | zero => exact ⟨fun _ _ _ _ _ _ h => absurd h (by omega), fun _ _ _ _ _ _ _ _ _ h => absurd h (by omega)⟩
  | succ fuel ih =>
    have mid : ∀ (r : Reader) (ps : List Bytes) (got rem : Bytes) (body t : List Sym),
        Mid r got rem body t → Framed ps t →
        (∀ p ∈ ps, p ≠ [] ∧ p.length ≤ r.maxPayloadSize ∧ p.length < 4294967296) →
        body.length + t.length < fuel + 1 → r.drain (fuel + 1) = ((got ++ rem) :: ps, .eof) := by
      intro r ps got rem body t h hf hps hl
      rcases read_mid r got rem body t h with ⟨r', blks, q1, q2, q3, q4, q5⟩ | ⟨r', g', m', bd', q1, q2, q3, q4, q5⟩
      · simp only [Reader.drain, q1]
        rw [ih.1 r' ps (blks ++ t) q2 (addBlocks _ _ _ q4 hf) (by rw [q3]; exact hps)
          (by simp only [List.length_append]; omega)]
      · simp only [Reader.drain, q1]
        rw [ih.2 r' ps g' m' bd' t q2 hf (by rw [q5]; exact hps) (by omega), q3]
    refine ⟨?_, mid⟩
    intro r ps s hb hf hps hl
    cases hf with
    | done =>
      obtain ⟨r', e⟩ := read_between_eof r hb
      simp only [Reader.drain, e]
    | block hf =>
      obtain ⟨r', e1, e2, e3⟩ := read_between_block r _ hb
      simp only [Reader.drain, e1]
      exact ih.1 r' ps _ e2 hf (by rw [e3]; exact hps) (by simpa using hl)
    | @frame ps' s' p body hbytes hbody hf =>
      obtain ⟨p1, p2, p3⟩ := hps p (by simp)
      rw [List.append_assoc] at hb
      obtain ⟨b', e1, e2, e3⟩ := read_between_length r p.length _ hb p3
      have hm : Mid { r with buffer := b', payloadSize := some p.length } [] p body s' :=
        ⟨by simp, by simpa using p2, hb.pos, p1, Or.inr ⟨hb.payload, rfl⟩, rfl, e2, e3, hbody, hbytes⟩
      have hrd : r.drain (fuel + 1)
          = Reader.drain (fuel + 1) { r with buffer := b', payloadSize := some p.length } := by
        have hrr : r.read = Reader.read { r with buffer := b', payloadSize := some p.length } := by
          simp only [Reader.read, e1]
          rfl
        simp only [Reader.drain, hrr]
      rw [hrd, mid _ ps' [] p body s' hm hf (fun q hq => hps q (by simp [hq])) (by
        simp only [List.length_append, List.length_map, be_length] at hl; omega)]
      rfl

end Verif.Wire
