import Verif.Model.NativeWrite
/-! # Lemmas: how the native sink writes a batch -/
namespace Verif.Native

/-- A small batch stays in the first buffer. -/
theorem codedWrites_small (sock : Socket) (ps : List Bytes) : ∀ a : Attempt, a.coded.length + ps.flatten.length ≤ BUF →
    a.codedWrites sock ps = (true, { a with coded := a.coded ++ ps.flatten }) := by
  induction ps with
  | nil => intro a _; simp [Attempt.codedWrites]
  | cons p ps ih =>
    intro a h
    simp only [List.flatten_cons, List.length_append] at h
    simp only [Attempt.codedWrites, Attempt.codedWrite, if_pos (show a.coded.length + p.length ≤ BUF by omega)]
    rw [ih _ (by simp only [List.length_append]; omega)]
    simp

/-- What is sent and held is what was written, in order. -/
def Attempt.all (a : Attempt) : Bytes := a.sent ++ a.buf ++ a.coded

theorem flushBuf_ok {sock : Socket} {a a' : Attempt} (h : a.flushBuf sock = (true, a')) :
    a'.buf = [] ∧ a'.sent = a.sent ++ a.buf ∧ a'.coded = a.coded := by
  simp only [Attempt.flushBuf] at h
  split at h
  · next hb => simp only [Prod.mk.injEq, true_and] at h; subst h; simp [hb]
  · split at h
    · simp only [Prod.mk.injEq, true_and] at h; subst h; simp
    · simp at h

theorem bufWrite_ok {sock : Socket} {a a' : Attempt} {bs : Bytes} (h : a.bufWrite sock bs = (true, a')) :
    a'.sent ++ a'.buf = a.sent ++ a.buf ++ bs ∧ a'.coded = a.coded ∧ (a.buf.length ≤ BUF → a'.buf.length ≤ BUF) := by
  simp only [Attempt.bufWrite] at h
  have key : ∀ a1 : Attempt, (a1.sent ++ a1.buf = a.sent ++ a.buf ∧ a1.coded = a.coded ∧ (BUF ≤ bs.length → a1.buf = []) ∧
      (bs.length < BUF → a.buf.length ≤ BUF → a1.buf.length + bs.length ≤ BUF)) →
      (if bs.length < BUF then (true, { a1 with buf := a1.buf ++ bs })
       else match sock a1.writes with
        | none => (true, { a1 with writes := a1.writes + 1, sent := a1.sent ++ bs })
        | some k => (false, { a1 with writes := a1.writes + 1, sent := a1.sent ++ bs.take k })) = (true, a') →
      a'.sent ++ a'.buf = a.sent ++ a.buf ++ bs ∧ a'.coded = a.coded ∧ (a.buf.length ≤ BUF → a'.buf.length ≤ BUF) := by
    intro a1 ⟨h1, h2, h3, h4⟩ h
    by_cases hb : bs.length < BUF
    · rw [if_pos hb] at h
      simp only [Prod.mk.injEq, true_and] at h; subst h
      exact ⟨by simp [← h1], h2, fun hl => by simpa using h4 hb hl⟩
    · rw [if_neg hb] at h
      split at h
      · simp only [Prod.mk.injEq, true_and] at h; subst h
        have := h3 (by omega)
        simp only [this, List.append_nil] at h1 ⊢
        exact ⟨by rw [h1], h2, fun _ => by simp [BUF]⟩
      · simp at h
  by_cases hg : a.buf.length + bs.length > BUF
  · rw [if_pos hg] at h
    rcases hf : a.flushBuf sock with ⟨ok, a1⟩
    rw [hf] at h
    cases ok with
    | false => simp at h
    | true =>
      simp only [Bool.true_eq_false, if_false] at h
      obtain ⟨g1, g2, g3⟩ := flushBuf_ok hf
      exact key a1 ⟨by simp [g1, g2], g3, fun _ => g1, fun hb _ => by simp [g1]; omega⟩ h
  · rw [if_neg hg] at h
    simp only [Bool.true_eq_false, if_false] at h
    refine key a ⟨rfl, rfl, fun hb => ?_, fun _ _ => by omega⟩ h
    have : a.buf.length = 0 := by omega
    exact List.length_eq_zero_iff.1 this

theorem refresh_ok {sock : Socket} {a a' : Attempt} (h : a.refresh sock = (true, a')) :
    a'.all = a.all ∧ a'.coded = [] ∧ (a.buf.length ≤ BUF → a'.buf.length ≤ BUF) := by
  simp only [Attempt.refresh] at h
  rcases hw : a.bufWrite sock a.coded with ⟨ok, a1⟩
  rw [hw] at h
  cases ok with
  | false => simp at h
  | true =>
    simp only [Prod.mk.injEq, true_and] at h; subst h
    obtain ⟨h1, _, h3⟩ := bufWrite_ok hw
    exact ⟨by simp [Attempt.all, h1], rfl, h3⟩

theorem codedWrite_ok {sock : Socket} {a a' : Attempt} {bs : Bytes} (h : a.codedWrite sock bs = (true, a')) :
    a'.all = a.all ++ bs ∧ (a.coded.length ≤ BUF → a'.coded.length ≤ BUF) ∧ (a.buf.length ≤ BUF → a'.buf.length ≤ BUF) := by
  simp only [Attempt.codedWrite] at h
  by_cases hc : a.coded.length + bs.length ≤ BUF
  · rw [if_pos hc] at h
    simp only [Prod.mk.injEq, true_and] at h; subst h
    exact ⟨by simp [Attempt.all], fun _ => by simpa using hc, id⟩
  · rw [if_neg hc] at h
    rcases hr : a.refresh sock with ⟨ok, a1⟩
    rw [hr] at h
    cases ok with
    | false => simp at h
    | true =>
      obtain ⟨h1, h2, h3⟩ := refresh_ok hr
      simp only at h
      by_cases hb : bs.length < BUF
      · rw [if_pos hb] at h
        simp only [Prod.mk.injEq, true_and] at h; subst h
        simp only [Attempt.all, h2, List.append_nil] at h1
        exact ⟨by simp [Attempt.all, h1], fun _ => Nat.le_of_lt hb, h3⟩
      · rw [if_neg hb] at h
        obtain ⟨g1, g2, g3⟩ := bufWrite_ok h
        simp only [Attempt.all, h2, List.append_nil] at h1
        exact ⟨by simp [Attempt.all, g1, g2, h2, h1], fun _ => by simp [g2, h2], fun hl => g3 (h3 hl)⟩

theorem codedWrites_ok {sock : Socket} (ps : List Bytes) : ∀ {a a' : Attempt}, a.codedWrites sock ps = (true, a') →
    a'.all = a.all ++ ps.flatten ∧ (a.coded.length ≤ BUF → a'.coded.length ≤ BUF) ∧ (a.buf.length ≤ BUF → a'.buf.length ≤ BUF) := by
  induction ps with
  | nil => intro a a' h; simp only [Attempt.codedWrites, Prod.mk.injEq, true_and] at h; subst h; exact ⟨by simp, id, id⟩
  | cons p ps ih =>
    intro a a' h
    simp only [Attempt.codedWrites] at h
    rcases hw : a.codedWrite sock p with ⟨ok, a1⟩
    rw [hw] at h
    cases ok with
    | false => simp at h
    | true =>
      obtain ⟨h1, h2, h3⟩ := codedWrite_ok hw
      obtain ⟨g1, g2, g3⟩ := ih h
      exact ⟨by rw [g1, h1]; simp, fun x => g2 (h2 x), fun x => g3 (h3 x)⟩

/-! ## The socket accepts everything -/

theorem flushBuf_good (a : Attempt) : (a.flushBuf fun _ => none).1 = true := by
  simp only [Attempt.flushBuf]; split <;> rfl

theorem bufWrite_good (a : Attempt) (bs : Bytes) : (a.bufWrite (fun _ => none) bs).1 = true := by
  simp only [Attempt.bufWrite]
  by_cases hg : a.buf.length + bs.length > BUF
  · rw [if_pos hg]
    have := flushBuf_good a
    rcases hf : a.flushBuf fun _ => none with ⟨ok, a1⟩
    rw [hf] at this; simp only at this; subst this
    simp only [Bool.true_eq_false, if_false]
    split <;> rfl
  · rw [if_neg hg]
    simp only [Bool.true_eq_false, if_false]
    split <;> rfl

theorem refresh_good (a : Attempt) : (a.refresh fun _ => none).1 = true := by
  simp only [Attempt.refresh]
  have := bufWrite_good a a.coded
  rcases hf : a.bufWrite (fun _ => none) a.coded with ⟨ok, a1⟩
  rw [hf] at this; simp only at this; subst this; rfl

theorem codedWrite_good (a : Attempt) (bs : Bytes) : (a.codedWrite (fun _ => none) bs).1 = true := by
  simp only [Attempt.codedWrite]
  split
  · rfl
  · have := refresh_good a
    rcases hf : a.refresh fun _ => none with ⟨ok, a1⟩
    rw [hf] at this; simp only at this; subst this
    simp only
    split
    · rfl
    · exact bufWrite_good a1 bs

theorem codedWrites_good (ps : List Bytes) : ∀ a : Attempt, (a.codedWrites (fun _ => none) ps).1 = true := by
  induction ps with
  | nil => intro a; rfl
  | cons p ps ih =>
    intro a
    simp only [Attempt.codedWrites]
    have := codedWrite_good a p
    rcases hf : a.codedWrite (fun _ => none) p with ⟨ok, a1⟩
    rw [hf] at this; simp only at this; subst this
    exact ih a1

theorem drop_good (a : Attempt) : (a.drop true fun _ => none).sent = a.all := by
  have h1 := refresh_good a
  rcases hf : a.refresh fun _ => none with ⟨ok, a1⟩
  rw [hf] at h1; simp only at h1; subst h1
  obtain ⟨g1, g2, _⟩ := refresh_ok hf
  simp only [Attempt.drop, if_true, hf]
  have h2 := flushBuf_good a1
  rcases hb : a1.flushBuf fun _ => none with ⟨ok, a2⟩
  rw [hb] at h2; simp only at h2; subst h2
  obtain ⟨k1, k2, k3⟩ := flushBuf_ok hb
  rw [← g1]
  simp [Attempt.all, k2, g2]

/-! ## Any socket -/

/-- What has been sent stays sent. -/
theorem flushBuf_sent (sock : Socket) (a : Attempt) : a.sent <+: (a.flushBuf sock).2.sent := by
  simp only [Attempt.flushBuf]
  split
  · exact List.prefix_rfl
  · split <;> exact List.prefix_append _ _

theorem bufWrite_sent (sock : Socket) (a : Attempt) (bs : Bytes) : a.sent <+: (a.bufWrite sock bs).2.sent := by
  simp only [Attempt.bufWrite]
  have key : ∀ (ok : Bool) (a1 : Attempt), a.sent <+: a1.sent → a.sent <+: (if ok = false then (false, a1)
      else if bs.length < BUF then (true, { a1 with buf := a1.buf ++ bs })
      else match sock a1.writes with
        | none => (true, { a1 with writes := a1.writes + 1, sent := a1.sent ++ bs })
        | some k => (false, { a1 with writes := a1.writes + 1, sent := a1.sent ++ bs.take k })).2.sent := by
    intro ok a1 h
    split
    · exact h
    · split
      · exact h
      · split <;> exact h.trans (List.prefix_append _ _)
  by_cases hg : a.buf.length + bs.length > BUF
  · rw [if_pos hg]; exact key _ _ (flushBuf_sent sock a)
  · rw [if_neg hg]; exact key _ _ List.prefix_rfl

theorem refresh_sent (sock : Socket) (a : Attempt) : a.sent <+: (a.refresh sock).2.sent := by
  have := bufWrite_sent sock a a.coded
  simp only [Attempt.refresh]
  rcases hf : a.bufWrite sock a.coded with ⟨ok, a1⟩
  rw [hf] at this
  cases ok <;> exact this

theorem drop_sent (flushes : Bool) (sock : Socket) (a : Attempt) : a.sent <+: (a.drop flushes sock).sent := by
  simp only [Attempt.drop]
  cases flushes with
  | false => exact flushBuf_sent sock a
  | true => exact (refresh_sent sock a).trans (flushBuf_sent sock _)

/-- A small batch is put on the socket in one write, if at all. -/
theorem drop_small (flushes : Bool) (sock : Socket) (bs : Bytes) (h : bs.length ≤ BUF) :
    (({ coded := bs } : Attempt).drop flushes sock).sent =
      if flushes = false ∨ bs = [] then []
      else match sock 0 with
        | none => bs
        | some k => bs.take k := by
  cases flushes with
  | false => simp [Attempt.drop, Attempt.flushBuf]
  | true =>
    simp only [Attempt.drop, if_true, Attempt.refresh, Attempt.bufWrite, List.length_nil, Nat.zero_add, if_neg (show ¬ bs.length > BUF by omega),
      Bool.true_eq_false, if_false, false_or, List.nil_append]
    by_cases he : bs = []
    · subst he; simp [BUF, Attempt.flushBuf]
    · rw [if_neg he]
      by_cases hb : bs.length < BUF
      · rw [if_pos hb]
        simp only [Attempt.flushBuf, if_neg he]
        cases sock 0 <;> simp
      · rw [if_neg hb]
        cases sock 0 <;> simp [Attempt.flushBuf]

end Verif.Native
