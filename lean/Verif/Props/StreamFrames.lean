import Verif.Lemmas.StreamFrames
import Verif.Props.Stream
/-!
# C102: what the native and Avro handlers take from a connection

`ps` are the payloads a client sends, followed by nothing or by a length that is too large (`bad`).  The kernel already had
`k.kernel` when the handler started; the rest arrives in the course of the steps `ls`, in any pieces that do not end inside a
length prefix (`C34_split_prefix_false` says what happens otherwise).
-/
namespace Verif
open Stream Wire

private theorem take_frames (a b : List Bytes) : ((a ++ b).take a.length) = a := by simp

private theorem wire_append (a b : List Bytes) : (a ++ b).flatMap frame = a.flatMap frame ++ b.flatMap frame := by simp

private theorem frame_length (p : Bytes) : (frame p).length = 4 + p.length := by simp [frame, be_length]

/-- what has arrived lies between the payloads taken and what is still to be read -/
private def Live (ps : List Bytes) (arr : Bytes) (s : State Reader) : Prop :=
  s.own.maxPayloadSize = 1048576 ∧ ∃ todo, ps = s.taken ++ todo ∧
    ((Fresh s.own ∧ arr = s.taken.flatMap frame ++ (s.own.buffer.buf ++ s.sock.kernel)) ∨
     ∃ p more got, todo = p :: more ∧ Partway s.own p got ∧
       arr = s.taken.flatMap frame ++ (be 4 p.length ++ (got ++ (s.own.buffer.buf ++ s.sock.kernel))))

private structure Inv (ps : List Bytes) (bad : Option (Nat × Bytes)) (arr : Bytes) (s : State Reader) : Prop where
  pre : ∃ todo, ps = s.taken ++ todo
  live : s.phase ≠ .ended → Live ps arr s
  ended : s.phase = .ended → s.system = true ∨ (AllComplete ps s.taken arr.length ∧ s.sock.ending ≠ .none) ∨ s.taken = ps
  sys : s.phase = .reading true → s.system = true

private theorem live_complete {ps : List Bytes} {arr : Bytes} {s : State Reader} (h : Live ps arr s)
    (h0 : s.own.buffer.buf ++ s.sock.kernel = []) : AllComplete ps s.taken arr.length := by
  obtain ⟨-, todo, hps, ⟨-, ha⟩ | ⟨p, more, got, ht, hp, ha⟩⟩ := h
  · refine ⟨todo, hps, ?_⟩
    rintro p more rfl
    rw [ha, h0, wire_append]
    simp only [List.append_nil, List.length_append, List.flatMap_cons, List.flatMap_nil, frame_length]
    omega
  · refine ⟨todo, hps, ?_⟩
    rintro q more' hq
    rw [ht, List.cons.injEq] at hq
    obtain ⟨rfl, rfl⟩ := hq
    have := hp.lt
    rw [ha, h0, wire_append]
    simp only [List.append_nil, List.length_append, be_length, List.flatMap_cons, List.flatMap_nil, frame_length]
    omega

/-- one call of the reader, in the situation of `Live` -/
private theorem live_read (accepts : Bytes → Bool) (ps : List Bytes) (bad : Option (Nat × Bytes)) (arr : Bytes)
    (hp : ∀ p ∈ ps, p ≠ [] ∧ p.length ≤ 1048576 ∧ accepts p = true)
    (hb : ∀ n junk, bad = some (n, junk) → 1048576 < n ∧ n < 2 ^ 32)
    (hpre : arr <+: ps.flatMap frame ++ oversized bad) (hin : ¬ InsidePrefix ps arr.length)
    (s : State Reader) (hl : Live ps arr s) (n : Next Bytes) (r' : Reader) (k' : Sock)
    (h : (framed accepts).read s.own s.sock = (n, r', k')) :
    (∃ p, n = .got p ∧ Live ps arr { s with own := r', sock := k', taken := s.taken ++ [p] }) ∨
    (n = .wait ∧ Live ps arr { s with own := r', sock := k' }) ∨
    (n = .stop ∧ (AllComplete ps s.taken arr.length ∧ s.sock.ending ≠ .none ∨ s.taken = ps)) := by
  obtain ⟨hmax, todo, hps, hcase⟩ := hl
  obtain ⟨hleft, hdata⟩ := items_left s.sock
  generalize hr : ({ s.own with buffer := { s.own.buffer with stream := s.sock.items } } : Reader) = r at *
  have hrl : Left s.sock.ending r.buffer.stream := by rw [← hr]; exact hleft
  have hrt : total r.buffer = s.own.buffer.buf ++ s.sock.kernel := by rw [← hr]; simp only [total, hdata]
  have hrm : r.maxPayloadSize = 1048576 := by rw [← hr]; exact hmax
  have hsel : (framed accepts).read s.own s.sock = match Reader.read r with
    | (.ok p, r') => (if accepts p then .got p else .stop, r', s.sock.after r'.buffer.stream)
    | (.error .wouldBlock, r') => (.wait, r', s.sock.after r'.buffer.stream)
    | (.error _, r') => (.stop, r', s.sock.after r'.buffer.stream) := by rw [← hr]; rfl
  rw [hsel] at h
  -- a call inside a payload
  have inside : ∀ (r1 : Reader) (p : Bytes) (more : List Bytes) (got : Bytes), Reader.read r = Reader.read r1 →
      Left s.sock.ending r1.buffer.stream → r1.maxPayloadSize = 1048576 → todo = p :: more → Partway r1 p got →
      arr = s.taken.flatMap frame ++ (be 4 p.length ++ (got ++ total r1.buffer)) →
      (∃ p, n = .got p ∧ Live ps arr { s with own := r', sock := k', taken := s.taken ++ [p] }) ∨
      (n = .wait ∧ Live ps arr { s with own := r', sock := k' }) ∨
      (n = .stop ∧ (AllComplete ps s.taken arr.length ∧ s.sock.ending ≠ .none ∨ s.taken = ps)) := by
    intro r1 p more got he hl1 hm1 ht hpw ha
    obtain ⟨c1, c2⟩ := partway_read s.sock.ending p got r1 hl1 hpw (by
      rw [hm1]; exact (hp p (by rw [hps, ht]; simp)).2.1)
    have hpx : got ++ total r1.buffer <+: p ++ (more.flatMap frame ++ oversized bad) := by
      rw [ha, hps, ht, wire_append, List.append_assoc, List.prefix_append_right_inj] at hpre
      rw [List.flatMap_cons, frame, List.append_assoc, List.append_assoc, List.prefix_append_right_inj] at hpre
      exact hpre
    by_cases hfull : p.length ≤ (got ++ total r1.buffer).length
    · -- the payload is complete
      obtain ⟨t, ht2⟩ : ∃ t, got ++ total r1.buffer = p ++ t := by
        obtain ⟨u, hu⟩ := hpx
        refine ⟨(got ++ total r1.buffer).drop p.length, ?_⟩
        have h1 := congrArg (List.take p.length) hu
        rw [List.take_append_of_le_length hfull, List.take_append_of_le_length (Nat.le_refl _),
          List.take_of_length_le (Nat.le_refl _)] at h1
        conv => rhs; arg 1; rw [← h1]
        rw [List.take_append_drop]
      have ht3 : total r1.buffer = p.drop got.length ++ t := by
        obtain ⟨u, rfl⟩ := hpw.pre
        rw [List.append_assoc, List.append_cancel_left_eq] at ht2
        rw [ht2]; simp
      obtain ⟨r2, f1, f2, f3, f4⟩ := c1 t ht3
      rw [he, f1] at h
      simp only [(hp p (by rw [hps, ht]; simp)).2.2, if_true, Prod.mk.injEq] at h
      obtain ⟨rfl, rfl, rfl⟩ := h
      refine .inl ⟨p, rfl, f3.trans hm1, more, by rw [hps, ht]; simp, .inl ⟨f2, ?_⟩⟩
      show arr = _ ++ (r2.buffer.buf ++ dataOf r2.buffer.stream)
      rw [show r2.buffer.buf ++ dataOf r2.buffer.stream = t from f4, ha, ht2, wire_append]
      simp [frame]
    · -- it is not
      have hpp : got ++ total r1.buffer <+: p := by
        rw [List.prefix_iff_eq_take] at hpx ⊢
        rw [List.take_append_of_le_length (by omega)] at hpx
        exact hpx
      obtain ⟨x, r2, f1, f2, f3, f4⟩ := c2 hpp (by omega)
      rw [he, f1] at h
      rcases f4 with ⟨-, rfl, f5⟩ | ⟨g1, g2⟩
      · simp only [Prod.mk.injEq] at h
        obtain ⟨rfl, rfl, rfl⟩ := h
        refine .inr (.inl ⟨rfl, f3.trans hm1, todo, hps, .inr ⟨p, more, _, ht, f5, ?_⟩⟩)
        show arr = _ ++ (_ ++ (_ ++ (r2.buffer.buf ++ dataOf r2.buffer.stream)))
        rw [show r2.buffer.buf ++ dataOf r2.buffer.stream = [] from f2, ha]
        simp
      · have hn : n = .stop := by cases x <;> simp_all
        refine .inr (.inr ⟨hn, .inl ⟨⟨todo, hps, ?_⟩, g1⟩⟩)
        rintro q more' hq
        rw [ht, List.cons.injEq] at hq
        obtain ⟨rfl, rfl⟩ := hq
        rw [ha, wire_append]
        simp only [List.length_append, be_length, List.flatMap_cons, List.flatMap_nil, frame_length] at hfull ⊢
        simp only [List.length_nil]
        omega
  rcases hcase with ⟨hf, ha⟩ | ⟨p, more, got, ht, hpw, ha⟩
  · have hf' : Fresh r := by rw [← hr]; exact ⟨hf.size, hf.pos, hf.payload⟩
    by_cases h0 : total r.buffer = []
    · -- nothing there
      obtain ⟨x, b', f1, f2, f3⟩ := fresh_empty s.sock.ending r hrl hf' h0
      rw [f1] at h
      rcases f3 with ⟨-, rfl⟩ | ⟨g1, g2⟩
      · simp only [Prod.mk.injEq] at h
        obtain ⟨rfl, rfl, rfl⟩ := h
        refine .inr (.inl ⟨rfl, hrm, todo, hps, .inl ⟨⟨hf'.size, hf'.pos, hf'.payload⟩, ?_⟩⟩)
        show arr = _ ++ (b'.buf ++ dataOf b'.stream)
        rw [show b'.buf ++ dataOf b'.stream = [] from f2, ha, ← hrt, h0]
      · have hn : n = .stop := by cases x <;> simp_all
        refine .inr (.inr ⟨hn, .inl ⟨⟨todo, hps, ?_⟩, g1⟩⟩)
        rintro q more rfl
        rw [ha, ← hrt, h0, wire_append]
        simp only [List.append_nil, List.length_append, List.flatMap_cons, List.flatMap_nil, frame_length]
        omega
    · -- a length prefix is there
      rw [← hrt] at ha
      have hlen4 : 4 ≤ (total r.buffer).length := by
        refine Nat.not_lt.1 fun hlt => hin ⟨s.taken.length, by rw [hps]; simp, ?_, ?_⟩
        · rw [hps, take_frames, ha]
          have := List.length_pos_iff.2 h0
          simp only [List.length_append]; omega
        · rw [hps, take_frames, ha]
          simp only [List.length_append]; omega
      have hpx : total r.buffer <+: todo.flatMap frame ++ oversized bad := by
        rw [ha, hps, wire_append, List.append_assoc, List.prefix_append_right_inj] at hpre
        exact hpre
      have split4 : ∀ (m : Nat) (z : Bytes), total r.buffer <+: be 4 m ++ z → ∃ t, total r.buffer = be 4 m ++ t := by
        intro m z ⟨u, hu⟩
        refine ⟨(total r.buffer).drop 4, ?_⟩
        have h1 := congrArg (List.take 4) hu
        rw [List.take_append_of_le_length hlen4, List.take_append_of_le_length (by rw [be_length]; omega),
          List.take_of_length_le (l := be 4 m) (by rw [be_length]; omega)] at h1
        conv => rhs; arg 1; rw [← h1]
        rw [List.take_append_drop]
      cases ht : todo with
      | nil =>
        rw [ht, List.flatMap_nil, List.nil_append] at hpx
        cases hbad : bad with
        | none =>
          rw [hbad, oversized] at hpx
          exact absurd (List.prefix_nil.1 hpx) h0
        | some nj =>
          obtain ⟨m, junk⟩ := nj
          rw [hbad, oversized] at hpx
          obtain ⟨t, ht2⟩ := split4 m junk hpx
          obtain ⟨hm1, hm2⟩ := hb m junk hbad
          obtain ⟨b', f1, -, -⟩ := fresh_length s.sock.ending r m t hrl hf' ht2 hm2
          have hrd : Reader.read r = (.error .lengthTooLarge, { r with buffer := b', payloadSize := some m }) := by
            simp only [Reader.read, f1, hrm, if_pos hm1]
          rw [hrd] at h
          simp only [Prod.mk.injEq] at h
          refine .inr (.inr ⟨h.1.symm, .inr ?_⟩)
          rw [hps, ht, List.append_nil]
      | cons p more =>
        rw [ht, List.flatMap_cons, frame, List.append_assoc, List.append_assoc] at hpx
        obtain ⟨t, ht2⟩ := split4 p.length _ hpx
        have hpp := hp p (by rw [hps, ht]; simp)
        obtain ⟨b', f1, f2, f3⟩ := fresh_length s.sock.ending r p.length t hrl hf' ht2 (by omega)
        refine inside _ p more [] (fresh_read r b' p.length f1) f3 hrm ht ⟨rfl, hf'.pos, .inr ⟨hf'.payload, rfl⟩, rfl,
          List.nil_prefix, List.length_pos_iff.2 hpp.1⟩ ?_
        rw [ha, ht2]
        simp only [f2, List.nil_append]
  · refine inside r p more got rfl hrl hrm ht (by rw [← hr]; exact ⟨hpw.size, hpw.pos, hpw.len, hpw.gotEq, hpw.pre, hpw.lt⟩) ?_
    rw [ha, hrt]

private theorem inv_step (accepts : Bytes → Bool) (ps : List Bytes) (bad : Option (Nat × Bytes)) (arr : Bytes)
    (hp : ∀ p ∈ ps, p ≠ [] ∧ p.length ≤ 1048576 ∧ accepts p = true)
    (hb : ∀ n junk, bad = some (n, junk) → 1048576 < n ∧ n < 2 ^ 32)
    (hpre : arr <+: ps.flatMap frame ++ oversized bad) (hin : ¬ InsidePrefix ps arr.length)
    (s s' : State Reader) (l : Label) (hi : Inv ps bad arr s) (hs : step (framed accepts) s l = some s') :
    Inv ps bad (arr ++ sent [l]) s' := by
  cases l with
  | arrive bs =>
    simp only [step] at hs
    split at hs
    · next hc =>
      simp only [Option.some.injEq] at hs; subst hs
      refine ⟨hi.pre, ?_, ?_, hi.sys⟩
      · intro he
        obtain ⟨h1, todo, h2, ⟨h3, h4⟩ | ⟨p, more, got, h3, h4, h5⟩⟩ := hi.live he
        · exact ⟨h1, todo, h2, .inl ⟨h3, by simp [sent, h4]⟩⟩
        · exact ⟨h1, todo, h2, .inr ⟨p, more, got, h3, h4, by simp [sent, h5]⟩⟩
      · intro he
        rcases hi.ended he with h | ⟨-, h⟩ | h
        · exact .inl h
        · exact absurd hc.1 h
        · exact .inr (.inr h)
    · simp at hs
  | close =>
    simp only [step] at hs
    split at hs
    · simp only [Option.some.injEq] at hs; subst hs
      refine ⟨hi.pre, fun he => by rw [show sent _ = [] from rfl, List.append_nil]; exact hi.live he, ?_, hi.sys⟩
      intro he
      rcases hi.ended he with h | ⟨h, -⟩ | h
      · exact .inl h
      · exact .inr (.inl ⟨by simpa [sent] using h, by simp⟩)
      · exact .inr (.inr h)
    · simp at hs
  | reset =>
    simp only [step] at hs
    split at hs
    · simp only [Option.some.injEq] at hs; subst hs
      refine ⟨hi.pre, fun he => by rw [show sent _ = [] from rfl, List.append_nil]; exact hi.live he, ?_, hi.sys⟩
      intro he
      rcases hi.ended he with h | ⟨h, -⟩ | h
      · exact .inl h
      · exact .inr (.inl ⟨by simpa [sent] using h, by simp⟩)
      · exact .inr (.inr h)
    · simp at hs
  | spurious =>
    simp only [step, Option.some.injEq] at hs; subst hs
    exact ⟨hi.pre, fun he => by rw [show sent _ = [] from rfl, List.append_nil]; exact hi.live he, by simpa [sent] using hi.ended, hi.sys⟩
  | system =>
    simp only [step, Option.some.injEq] at hs; subst hs
    exact ⟨hi.pre, fun he => by rw [show sent _ = [] from rfl, List.append_nil]; exact hi.live he, fun _ => .inl rfl, fun _ => rfl⟩
  | poll first =>
    simp only [step] at hs
    simp only [sent, List.append_nil]
    cases hph : s.phase with
    | polling =>
      have hlive := hi.live (by rw [hph]; simp)
      rw [hph] at hs
      simp only at hs
      by_cases he : s.edge = true
      · rw [if_pos he] at hs
        by_cases hs2 : (s.system && first) = true
        · rw [if_pos hs2] at hs
          simp only [Option.some.injEq] at hs; subst hs
          simp only [Bool.and_eq_true] at hs2
          exact ⟨hi.pre, by simp, fun _ => .inl hs2.1, by simp⟩
        · rw [if_neg hs2] at hs
          simp only [Option.some.injEq] at hs; subst hs
          exact ⟨hi.pre, fun _ => hlive, by simp, by simp⟩
      · rw [if_neg he] at hs
        by_cases hs2 : s.system = true
        · rw [if_pos hs2] at hs
          simp only [Option.some.injEq] at hs; subst hs
          exact ⟨hi.pre, by simp, fun _ => .inl hs2, by simp⟩
        · rw [if_neg hs2] at hs; simp at hs
    | reading b => rw [hph] at hs; simp at hs
    | ended => rw [hph] at hs; simp at hs
  | read =>
    simp only [step] at hs
    simp only [sent, List.append_nil]
    cases hph : s.phase with
    | polling => rw [hph] at hs; simp at hs
    | ended => rw [hph] at hs; simp at hs
    | reading stop =>
      have hlive := hi.live (by rw [hph]; simp)
      rw [hph] at hs
      simp only at hs
      rcases hrd : (framed accepts).read s.own s.sock with ⟨n, r', k'⟩
      rw [hrd] at hs
      have hend : k'.ending = s.sock.ending := (framed_read accepts s.own s.sock n r' k' hrd).2.1
      rcases live_read accepts ps bad arr hp hb hpre hin s hlive n r' k' hrd with
        ⟨p, rfl, h⟩ | ⟨rfl, h⟩ | ⟨rfl, h⟩
      · simp only [Option.some.injEq] at hs; subst hs
        refine ⟨?_, fun _ => h, by simp [hph], ?_⟩
        · obtain ⟨-, todo, h2, -⟩ := h; exact ⟨todo, h2⟩
        · intro h'; exact hi.sys (hph.trans h')
      · simp only [Option.some.injEq] at hs; subst hs
        refine ⟨hi.pre, fun _ => h, ?_, ?_⟩
        · intro h'
          cases stop with
          | true => exact .inl (hi.sys hph)
          | false => simp at h'
        · intro h'; cases stop <;> simp at h'
      · simp only [Option.some.injEq] at hs; subst hs
        refine ⟨hi.pre, by simp, fun _ => .inr ?_, by simp⟩
        rcases h with ⟨h1, h2⟩ | h
        · exact .inl ⟨h1, by rw [hend]; exact h2⟩
        · exact .inr h

private theorem inv_run (accepts : Bytes → Bool) (ps : List Bytes) (bad : Option (Nat × Bytes))
    (hp : ∀ p ∈ ps, p ≠ [] ∧ p.length ≤ 1048576 ∧ accepts p = true)
    (hb : ∀ n junk, bad = some (n, junk) → 1048576 < n ∧ n < 2 ^ 32) :
    ∀ (ls : List Label) (arr : Bytes) (s s' : State Reader), Inv ps bad arr s →
      arr ++ sent ls <+: ps.flatMap frame ++ oversized bad →
      (∀ l1 l2, ls = l1 ++ l2 → ¬ InsidePrefix ps (arr ++ sent l1).length) →
      run (framed accepts) s ls = some s' → Inv ps bad (arr ++ sent ls) s' := by
  intro ls
  induction ls with
  | nil => intro arr s s' hi _ _ hr; simp only [run, Option.some.injEq] at hr; subst hr; simpa [sent] using hi
  | cons l ls ih =>
    intro arr s s' hi hpre hin hr
    simp only [run] at hr
    have hsent : ∀ ms, sent (l :: ms) = sent [l] ++ sent ms := by intro ms; cases l <;> simp [sent]
    cases hst : step (framed accepts) s l with
    | none => rw [hst] at hr; simp at hr
    | some s1 =>
      rw [hst] at hr
      have h1 := inv_step accepts ps bad arr hp hb (List.IsPrefix.trans (List.prefix_append _ _) hpre)
        (by simpa [sent] using hin [] (l :: ls) rfl) s s1 l hi hst
      have := ih (arr ++ sent [l]) s1 s' h1 (by rw [List.append_assoc, ← hsent]; exact hpre) (by
        intro l1 l2 he
        have := hin (l :: l1) l2 (by rw [he]; rfl)
        rwa [hsent, ← List.append_assoc] at this) hr
      rwa [List.append_assoc, ← hsent] at this

private theorem system_run (h : Handler Reader) : ∀ (ls : List Label) (s s' : State Reader), run h s ls = some s' →
    .system ∉ ls → s.system = false → s'.system = false := by
  intro ls
  induction ls with
  | nil => intro s s' hr _ h; simp only [run, Option.some.injEq] at hr; exact hr ▸ h
  | cons l ls ih =>
    intro s s' hr hn h0
    simp only [List.mem_cons, not_or] at hn
    simp only [run] at hr
    cases hst : step h s l with
    | none => rw [hst] at hr; simp at hr
    | some s1 =>
      rw [hst] at hr
      refine ih s1 s' hr hn.2 ?_
      cases l with
      | system => exact absurd rfl hn.1
      | arrive bs => simp only [step] at hst; split at hst <;> simp at hst; subst hst; exact h0
      | close => simp only [step] at hst; split at hst <;> simp at hst; subst hst; exact h0
      | reset => simp only [step] at hst; split at hst <;> simp at hst; subst hst; exact h0
      | spurious => simp only [step, Option.some.injEq] at hst; subst hst; exact h0
      | poll b =>
        simp only [step, h0, Bool.false_and, Bool.false_eq_true, if_false] at hst
        split at hst
        · split at hst
          · simp only [Option.some.injEq] at hst; subst hst; rfl
          · simp at hst
        · simp at hst
      | read =>
        simp only [step] at hst
        split at hst
        · split at hst <;> (simp only [Option.some.injEq] at hst; subst hst; exact h0)
        · simp at hst

/-- **C102, native and Avro (what is taken).**  A client sends non-empty payloads of at most 1 MiB which the handler accepts, then
nothing or a length above 1 MiB; nothing arrives in pieces that end inside a length prefix.  Then, however arrivals, the poller and
the handler interleave: the payloads taken are the first ones sent, unchanged and in order; when the handler waits for more, or has
ended although shutdown was not signalled, they are all those that arrived completely; and it does not wait any more once a length
that is too large has arrived. -/
theorem C102_frames_partial (accepts : Bytes → Bool) (ps : List Bytes) (bad : Option (Nat × Bytes)) (k : Sock) (ls : List Label)
    (s : State Reader)
    (hp : ∀ p ∈ ps, p ≠ [] ∧ p.length ≤ 1048576 ∧ accepts p = true)
    (hb : ∀ n junk, bad = some (n, junk) → 1048576 < n ∧ n < 2 ^ 32)
    (hpre : k.kernel ++ sent ls <+: ps.flatMap frame ++ oversized bad)
    (hin : ∀ l1 l2, ls = l1 ++ l2 → ¬ InsidePrefix ps (k.kernel ++ sent l1).length)
    (hr : run (framed accepts) (init (framed accepts) k) ls = some s) :
    s.taken <+: ps ∧
    (Asleep s ∨ (s.phase = .ended ∧ .system ∉ ls) → AllComplete ps s.taken (k.kernel ++ sent ls).length) ∧
    (Asleep s → (k.kernel ++ sent ls).length ≤ (ps.flatMap frame).length) := by
  have h0 : Inv ps bad k.kernel (init (framed accepts) k) := by
    refine ⟨⟨ps, rfl⟩, fun _ => ⟨rfl, ps, rfl, .inl ⟨⟨rfl, rfl, rfl⟩, by simp [init, framed]⟩⟩, by simp [init], by simp [init]⟩
  have hi := inv_run accepts ps bad hp hb ls k.kernel _ s h0 hpre hin hr
  have hsleep : Asleep s → Live ps (k.kernel ++ sent ls) s ∧ s.own.buffer.buf ++ s.sock.kernel = [] := by
    intro ha
    obtain ⟨⟨h1, h2⟩, -⟩ := C102_waits_only_for_more accepts k ls s hr ha
    exact ⟨hi.live (by rw [ha.1]; simp), by rw [h1, show s.own.buffer.buf = [] from h2]; rfl⟩
  refine ⟨?_, ?_, ?_⟩
  · obtain ⟨todo, h⟩ := hi.pre; exact ⟨todo, h.symm⟩
  · rintro (ha | ⟨he, hn⟩)
    · exact live_complete (hsleep ha).1 (hsleep ha).2
    · have hs := system_run _ ls _ s hr hn rfl
      rcases hi.ended he with h | ⟨h, -⟩ | h
      · rw [hs] at h; simp at h
      · exact h
      · exact ⟨[], by rw [h]; simp, by simp⟩
  · intro ha
    obtain ⟨⟨-, todo, hps, ⟨-, h⟩ | ⟨p, more, got, ht, hpw, h⟩⟩, h2⟩ := hsleep ha
    · rw [h, h2, hps, wire_append]; simp
    · have := hpw.lt
      rw [h, h2, hps, ht, wire_append, List.flatMap_cons]
      simp only [List.append_nil, List.length_append, be_length, frame_length]
      omega

/-- The hypotheses are met by two payloads that arrive in three pieces, the first ending inside the first payload, and a length
that is too large. -/
example :
    let ps : List Bytes := [[65, 66], [67]]
    let ls : List Label := [.arrive [0, 0, 0, 2, 65], .poll false, .read, .arrive [66, 0, 0, 0, 1], .arrive [67, 255, 255, 255, 255, 1],
      .poll false, .read, .read, .read]
    ([] : Bytes) ++ sent ls <+: ps.flatMap frame ++ oversized (some (2 ^ 32 - 1, [1])) ∧
    (∀ l1 l2, ls = l1 ++ l2 → ¬ InsidePrefix ps (([] : Bytes) ++ sent l1).length) ∧
    ((run (framed fun _ => true) (init (framed fun _ => true) {}) ls).map fun s => (s.phase, s.taken)) = some (.ended, ps) := by
  refine ⟨by decide, ?_, by decide +kernel⟩
  intro l1 l2 he ⟨i, hi, h1, h2⟩
  have hl : l1 = List.take l1.length [.arrive [0, 0, 0, 2, 65], .poll false, .read, .arrive [66, 0, 0, 0, 1],
      .arrive [67, 255, 255, 255, 255, 1], .poll false, .read, .read, .read] := by rw [he]; simp
  have hn : l1.length ≤ 9 := by have := congrArg List.length he; simp at this; omega
  have hi' : i = 0 ∨ i = 1 ∨ i = 2 := by simp at hi; omega
  have key : ∀ n, n ≤ 9 → (sent (List.take n [.arrive [0, 0, 0, 2, 65], .poll false, .read, .arrive [66, 0, 0, 0, 1],
      .arrive [67, 255, 255, 255, 255, 1], .poll false, .read, .read, .read])).length ∈ [0, 5, 10, 16] := by decide
  have := key l1.length hn
  rw [← hl] at this
  simp only [List.mem_cons, List.not_mem_nil, or_false] at this
  rcases hi' with rfl | rfl | rfl <;> simp [frame, be_length] at h1 h2 <;> omega

/-- **C102 (what is taken) is false if a length prefix arrives in two pieces**: the one payload sent has arrived completely, the
handler waits for more with nothing left to read, and has taken nothing. -/
theorem C102_split_prefix_false : ∃ s, run (framed fun _ => true) (init (framed fun _ => true) {})
    [.arrive [0, 0], .poll false, .read, .arrive [0, 1, 65], .poll false, .read] = some s ∧
    [0, 0] ++ [0, 1, 65] = frame [65] ∧ Asleep s ∧ AllRead (framed fun _ => true) s ∧ s.taken = [] :=
  ⟨{ own := { maxPayloadSize := 1048576, buffer := { stream := [] } } }, by decide +kernel, by decide, ⟨rfl, rfl, rfl⟩, ⟨rfl, rfl⟩, rfl⟩

end Verif
