import Verif.Model.Send
/-!
# Properties C14 and C15: fan-out
-/
namespace Verif
variable {E : Type}

/-- What a channel will finally say to one event, whatever transient errors come
first: the first outcome that is not transient. -/
def verdict : List SendOutcome → SendOutcome
  | [] => .ok
  | .other :: s => verdict s
  | .ok :: _ => .ok
  | .full :: _ => .full

private theorem sendLoop_spec (e : E) : ∀ (s : List SendOutcome) (acc : List E),
    (verdict s = .ok ∧ (sendLoop e s acc).1.accepted = acc ++ [e] ∧ (sendLoop e s acc).2 = 0) ∨
    (verdict s = .full ∧ (sendLoop e s acc).1.accepted = acc ∧ (sendLoop e s acc).2 = 1) := by
  intro s
  induction s with
  | nil => intro acc; exact .inl ⟨rfl, rfl, rfl⟩
  | cons o s ih =>
    intro acc
    cases o with
    | ok => exact .inl ⟨rfl, rfl, rfl⟩
    | full => exact .inr ⟨rfl, rfl, rfl⟩
    | other => exact ih acc

/-- Outcome of one event on a list of channels: accepted once, or refused as full. -/
def OneEach (e : E) : List (Chan E) → List (Chan E) → Nat → Prop
  | [], [], n => n = 0
  | c :: cs, c' :: cs', n =>
    (verdict c.script = .ok ∧ c'.accepted = c.accepted ++ [e] ∧ OneEach e cs cs' n) ∨
    (verdict c.script = .full ∧ c'.accepted = c.accepted ∧ ∃ m, n = m + 1 ∧ OneEach e cs cs' m)
  | _, _, _ => False

private theorem sendRest_spec (e : E) : ∀ cs : List (Chan E),
    OneEach e cs (sendRest e cs).1 (sendRest e cs).2 := by
  intro cs
  induction cs with
  | nil => rfl
  | cons c cs ih =>
    simp only [sendRest, OneEach]
    rcases sendLoop_spec e c.script c.accepted with ⟨h1, h2, h3⟩ | ⟨h1, h2, h3⟩
    · left; exact ⟨h1, h2, by rw [h3, Nat.zero_add]; exact ih⟩
    · right; exact ⟨h1, h2, _, by rw [h3, Nat.add_comm], ih⟩

/-- **C14** Sending an event touches every channel exactly once: a channel whose
final answer is "accepted" holds exactly one more copy, at the end; one whose final
answer is Full holds what it held before; the drop counter grows by the number of
Full channels.  Transient errors before the final answer change nothing. -/
theorem C14_send_exactly_once (chans : List (Chan E)) (e : E) :
    OneEach e chans (send chans e).1 (send chans e).2 := by
  cases chans with
  | nil => rfl
  | cons c cs =>
    simp only [send, OneEach]
    rcases sendLoop_spec e c.script c.accepted with ⟨h1, h2, h3⟩ | ⟨h1, h2, h3⟩
    · left; exact ⟨h1, h2, by rw [h3, Nat.add_zero]; exact sendRest_spec e cs⟩
    · right; exact ⟨h1, h2, _, by rw [h3], sendRest_spec e cs⟩

/-- C14 in indices, for readers: each channel either accepted exactly `e` or was
Full, and the counter is the number of Full ones. -/
theorem C14_send_per_channel (chans : List (Chan E)) (e : E) :
    (send chans e).1.length = chans.length ∧
    (∀ (i : Nat) (h : i < chans.length) (h' : i < (send chans e).1.length),
      (verdict chans[i].script ≠ .full → (send chans e).1[i].accepted = chans[i].accepted ++ [e]) ∧
      (verdict chans[i].script = .full → (send chans e).1[i].accepted = chans[i].accepted)) ∧
    (send chans e).2 = chans.countP (fun c => decide (verdict c.script = .full)) := by
  have key : ∀ (cs cs' : List (Chan E)) (n : Nat), OneEach e cs cs' n →
      cs'.length = cs.length ∧
      (∀ (i : Nat) (h : i < cs.length) (h' : i < cs'.length),
        (verdict cs[i].script ≠ .full → cs'[i].accepted = cs[i].accepted ++ [e]) ∧
        (verdict cs[i].script = .full → cs'[i].accepted = cs[i].accepted)) ∧
      n = cs.countP (fun c => decide (verdict c.script = .full)) := by
    intro cs
    induction cs with
    | nil => intro cs' n h; cases cs' <;> simp_all [OneEach]
    | cons c cs ih =>
      intro cs' n h
      cases cs' with
      | nil => simp [OneEach] at h
      | cons c' cs' =>
        rcases h with ⟨h1, h2, h3⟩ | ⟨h1, h2, m, h3, h4⟩
        · obtain ⟨i1, i2, i3⟩ := ih cs' n h3
          refine ⟨by simp [i1], ?_, by simp [h1, i3]⟩
          intro i hi hi'
          cases i with
          | zero => simp [h1, h2]
          | succ i => exact i2 i (by simpa using hi) (by simpa using hi')
        · obtain ⟨i1, i2, i3⟩ := ih cs' m h4
          refine ⟨by simp [i1], ?_, by simp [h1, h3, i3]⟩
          intro i hi hi'
          cases i with
          | zero => simp [h1, h2]
          | succ i => exact i2 i (by simpa using hi) (by simpa using hi')
  exact key _ _ _ (C14_send_exactly_once chans e)

/-- Non-vacuity of C14: three channels: transient error then ok, full, ok. -/
example : send [⟨[1], [.other, .ok]⟩, ⟨[2], [.other, .full, .ok]⟩, ⟨[], []⟩] 9 =
    ([⟨[1, 9], []⟩, ⟨[2], [.ok]⟩, ⟨[9], []⟩], 1) := by decide

/-- the script after one send is a suffix of the script before -/
private theorem sendLoop_script (e : E) : ∀ (s : List SendOutcome) (acc : List E),
    (sendLoop e s acc).1.script <:+ s := by
  intro s
  induction s with
  | nil => intro acc; exact List.suffix_refl _
  | cons o s ih =>
    intro acc
    cases o with
    | ok => exact List.suffix_cons _ _
    | full => exact List.suffix_cons _ _
    | other => exact (ih acc).trans (List.suffix_cons _ _)

private theorem sendRest_map (e : E) (cs : List (Chan E)) :
    (sendRest e cs).1 = cs.map (fun c => (sendLoop e c.script c.accepted).1) := by
  induction cs with
  | nil => rfl
  | cons c cs ih => simp [sendRest, ih]

private theorem send_map (e : E) (cs : List (Chan E)) :
    (send cs e).1 = cs.map (fun c => (sendLoop e c.script c.accepted).1) := by
  cases cs with
  | nil => rfl
  | cons c cs => simp [send, sendRest_map]

/-- **C15** For any sequence of sends, what each channel additionally accepted is a
subsequence of what was sent, in order; and if the channel never reports Full, it is
the whole sequence. -/
theorem C15_send_order (chans : List (Chan E)) (es : List E) :
    (sendAll chans es).1.length = chans.length ∧
    ∀ (i : Nat) (h : i < chans.length) (h' : i < (sendAll chans es).1.length),
      ∃ sub, (sendAll chans es).1[i].accepted = chans[i].accepted ++ sub ∧ sub.Sublist es ∧
        (.full ∉ chans[i].script → sub = es) := by
  induction es generalizing chans with
  | nil =>
    refine ⟨rfl, ?_⟩
    intro i h h'
    exact ⟨[], by simp [sendAll], List.Sublist.slnil, fun _ => rfl⟩
  | cons e es ih =>
    have hlen : (send chans e).1.length = chans.length := by rw [send_map]; simp
    obtain ⟨l1, l2⟩ := ih (send chans e).1
    refine ⟨by simp only [sendAll]; rw [l1, hlen], ?_⟩
    intro i h h'
    simp only [sendAll] at h' ⊢
    obtain ⟨sub, h1, h2, h3⟩ := l2 i (by rw [hlen]; exact h) h'
    have hi : (send chans e).1[i]'(by rw [hlen]; exact h) =
        (sendLoop e chans[i].script chans[i].accepted).1 := by
      simp [send_map]
    rw [hi] at h1 h3
    rcases sendLoop_spec e chans[i].script chans[i].accepted with ⟨v1, v2, _⟩ | ⟨v1, v2, _⟩
    · refine ⟨e :: sub, by rw [h1, v2]; simp, h2.cons_cons _, ?_⟩
      intro hf
      rw [h3 (fun hc => hf ((sendLoop_script e _ _).subset hc))]
    · refine ⟨sub, by rw [h1, v2], h2.cons _, ?_⟩
      intro hf
      exfalso
      have : ∀ s : List SendOutcome, verdict s = .full → .full ∈ s := by
        intro s
        induction s with
        | nil => intro h; simp [verdict] at h
        | cons o s ih => intro h; cases o <;> simp_all [verdict]
      exact hf (this _ v1)

/-- Non-vacuity of C15. -/
example : (sendAll [⟨[], [.ok, .full]⟩, ⟨[], [.other]⟩] [1, 2, 3]).1 =
    [⟨[1, 3], []⟩, ⟨[1, 2, 3], []⟩] := by decide

end Verif
