import Verif.Props.GraphiteBytes
import Verif.Props.Stream
/-!
# C102: exactly which lines the graphite handler takes
-/
namespace Verif
open Stream Wire Graphite

/-- The bytes among marks. -/
private def bytesIn (ms : List Mark) : Bytes := ms.filterMap fun m => match m with | .byte b => some b | _ => none

private theorem bytesIn_append (a b : List Mark) : bytesIn (a ++ b) = bytesIn a ++ bytesIn b := by simp [bytesIn]

private theorem bytesIn_map (bs : Bytes) : bytesIn (bs.map .byte) = bs := by
  induction bs with
  | nil => rfl
  | cons b bs ih => simp only [List.map_cons, bytesIn, List.filterMap_cons]; exact congrArg _ ih

private theorem splitLine_self : ∀ {bs l r : Bytes}, splitLine bs = some (l, r) → splitLine l = some (l, []) := by
  intro bs
  induction bs with
  | nil => intro l r h; simp [splitLine] at h
  | cons b bs ih =>
    intro l r h
    simp only [splitLine] at h
    by_cases hb : b = 10
    · simp only [if_pos hb, Option.some.injEq, Prod.mk.injEq] at h
      rw [← h.1, hb]; rfl
    · simp only [if_neg hb, Option.map_eq_some_iff, Prod.exists, Prod.mk.injEq] at h
      obtain ⟨l', r', h, rfl, rfl⟩ := h
      simp only [splitLine, if_neg hb, ih h, Option.map_some]

private theorem splitLine_append_some : ∀ {bs l r : Bytes}, splitLine bs = some (l, r) → ∀ c, splitLine (bs ++ c) = some (l, r ++ c) := by
  intro bs
  induction bs with
  | nil => intro l r h; simp [splitLine] at h
  | cons b bs ih =>
    intro l r h c
    simp only [splitLine, List.cons_append] at h ⊢
    by_cases hb : b = 10
    · simp only [if_pos hb, Option.some.injEq, Prod.mk.injEq] at h ⊢
      exact ⟨h.1, by rw [h.2]⟩
    · simp only [if_neg hb, Option.map_eq_some_iff, Prod.exists, Prod.mk.injEq] at h
      obtain ⟨l', r', h, rfl, rfl⟩ := h
      simp only [if_neg hb, ih h c, Option.map_some]

private theorem splitLine_append_none : ∀ {bs : Bytes}, splitLine bs = none → ∀ c, splitLine (bs ++ c) = (splitLine c).map fun p => (bs ++ p.1, p.2) := by
  intro bs
  induction bs with
  | nil => intro _ c; simp only [List.nil_append]; cases splitLine c <;> rfl
  | cons b bs ih =>
    intro h c
    simp only [splitLine, List.cons_append] at h ⊢
    by_cases hb : b = 10
    · simp [hb] at h
    · rw [if_neg hb, Option.map_eq_none_iff] at h
      rw [if_neg hb, ih h]
      cases splitLine c <;> rfl

/-- How a call of `read_until` on the socket ends. -/
private theorem readUntil_items (staged : Bytes) (k : Sock) :
    (∃ l r s, splitLine (staged ++ k.kernel) = some (l, r ++ dataOf s) ∧ readUntil staged k.items = (l, .ok (), r, s)) ∨
    (splitLine (staged ++ k.kernel) = none ∧ ∃ s, dataOf s = [] ∧ readUntil staged k.items =
      (staged ++ k.kernel, (match k.ending with | .none => .error .wouldBlock | .fin => .ok () | .reset => .error .other), [], s)) := by
  obtain ⟨kernel, ending⟩ := k
  have hd : dataOf (Sock.items ⟨kernel, ending⟩) = kernel := by
    cases kernel <;> cases ending <;> simp [Sock.items, dataOf]
  cases hs : splitLine staged with
  | some lr =>
    obtain ⟨l, r⟩ := lr
    refine .inl ⟨l, r, _, ?_, by unfold readUntil; rw [hs]⟩
    rw [hd]
    exact splitLine_append_some hs kernel
  | none =>
    rw [splitLine_append_none hs]
    cases kernel with
    | nil =>
      refine .inr ⟨rfl, ?_⟩
      cases ending <;> exact ⟨[], rfl, by unfold readUntil; simp [hs, Sock.items]⟩
    | cons b bs =>
      have he : ∀ rest, readUntil staged (.data (b :: bs) :: rest) =
          (staged ++ (readUntil (b :: bs) rest).1, (readUntil (b :: bs) rest).2) := by
        intro rest; conv => lhs; unfold readUntil
        simp only [hs]
      cases hb : splitLine (b :: bs) with
      | some lr =>
        obtain ⟨l, r⟩ := lr
        refine .inl ⟨staged ++ l, r, (match ending with | .none => [.wouldBlock] | .fin => [] | .reset => [.failed]), ?_, ?_⟩
        · cases ending <;> simp [dataOf]
        · simp only [Sock.items, List.singleton_append, he]
          unfold readUntil
          simp only [hb]
          cases ending <;> rfl
      | none =>
        refine .inr ⟨rfl, [], rfl, ?_⟩
        simp only [Sock.items, List.singleton_append, he]
        unfold readUntil
        cases ending <;> simp [hb]

private structure Inv (all : Bytes) (s : State (Bytes × Bytes)) (ms : List Mark) : Prop where
  bytes : all = bytesIn ms ++ (s.own.2 ++ s.sock.kernel)
  taken : ∀ more, handedOver [] [] (ms ++ more) = s.taken ++ handedOver s.own.1 [] more
  closed : Mark.closed ∈ ms → s.sock.ending = .fin
  idle : s.phase = .polling → s.edge = false → s.own.2 ++ s.sock.kernel = [] ∨
    ∃ pre p, ms = pre ++ p.map .byte ∧ splitLine p = some (p, []) ∧ utf8Valid p = false

private theorem inv_read (all : Bytes) (s s' : State (Bytes × Bytes)) (ms : List Mark) (hi : Inv all s ms) (hst : step graphite s .read = some s') :
    ∃ ms', Inv all s' ms' := by
  obtain ⟨i1, i2, i3, i4⟩ := hi
  have line : ∀ {l r : Bytes}, splitLine (s.own.2 ++ s.sock.kernel) = some (l, r) → l ≠ [] ∧ all = bytesIn (ms ++ l.map .byte) ++ r ∧
      splitLine l = some (l, []) ∧ (Mark.closed ∈ ms ++ l.map .byte → s.sock.ending = .fin) ∧
      ∀ more, handedOver [] [] (ms ++ l.map .byte ++ more) = s.taken ++ if utf8Valid l then (s.own.1 ++ l) :: handedOver [] [] more else handedOver s.own.1 [] more := by
    intro l r h
    obtain ⟨h1, h2, -⟩ := handed_some h
    have hself := splitLine_self h
    refine ⟨h1, ?_, hself, ?_, fun more => ?_⟩
    · rw [bytesIn_append, bytesIn_map, i1, h2, List.append_assoc]
    · intro hm
      rcases List.mem_append.1 hm with hm | hm
      · exact i3 hm
      · simp at hm
    · rw [List.append_assoc, i2, (handed_some hself).2.2]
      simp
  have rest : splitLine (s.own.2 ++ s.sock.kernel) = none → ∀ m : Mark, (m = .blocked ∨ m = .closed) →
      all = bytesIn (ms ++ (s.own.2 ++ s.sock.kernel).map .byte ++ [m]) ∧
      (Mark.closed ∈ ms ++ (s.own.2 ++ s.sock.kernel).map .byte ++ [m] → s.sock.ending = .fin ∨ m = .closed) ∧
      ∀ more, handedOver [] [] (ms ++ (s.own.2 ++ s.sock.kernel).map .byte ++ [m] ++ more) =
        s.taken ++ handedOver s.own.1 (s.own.2 ++ s.sock.kernel) (m :: more) := by
    intro h m hm
    refine ⟨?_, ?_, fun more => ?_⟩
    · rw [bytesIn_append, bytesIn_append, bytesIn_map, i1]
      rcases hm with rfl | rfl <;> simp [bytesIn]
    · intro hc
      rcases List.mem_append.1 hc with hc | hc
      · rcases List.mem_append.1 hc with hc | hc
        · exact .inl (i3 hc)
        · simp at hc
      · exact .inr (List.mem_singleton.1 hc).symm
    · rw [show ms ++ (s.own.2 ++ s.sock.kernel).map Mark.byte ++ [m] ++ more = ms ++ ((s.own.2 ++ s.sock.kernel).map Mark.byte ++ (m :: more)) by simp, i2,
        handed_none h]
      simp
  cases hp : s.phase with
  | polling => simp [step, hp] at hst
  | ended => simp [step, hp] at hst
  | reading stop =>
    simp only [step, hp, graphite] at hst
    rcases readUntil_items s.own.2 s.sock with ⟨l, r, left, h1, h2⟩ | ⟨h1, left, h2, h3⟩
    · obtain ⟨g1, g2, g3, g4, g5⟩ := line h1
      have hlen : ∃ n, l.length = n + 1 := ⟨l.length - 1, by have := List.length_pos_iff.2 g1; omega⟩
      obtain ⟨n, hn⟩ := hlen
      refine ⟨ms ++ l.map .byte, ?_⟩
      by_cases hv : utf8Valid l = true
      · simp only [readLine, h2, hv, if_true, hn, Option.some.injEq] at hst
        subst hst
        refine ⟨by simpa [Sock.after] using g2, fun more => ?_, g4, by simp⟩
        rw [g5, if_pos hv]; simp
      · simp only [readLine, h2, hv, Bool.false_eq_true, if_false, Option.some.injEq] at hst
        subst hst
        refine ⟨by simpa [Sock.after] using g2, fun more => ?_, g4, fun _ _ => .inr ⟨ms, l, rfl, g3, by simpa using hv⟩⟩
        rw [g5, if_neg hv]
    · cases hend : s.sock.ending with
      | fin =>
        obtain ⟨g1, g2, g3⟩ := rest h1 .closed (.inr rfl)
        refine ⟨ms ++ (s.own.2 ++ s.sock.kernel).map .byte ++ [.closed], ?_⟩
        simp only [hend] at h3
        simp only [readLine, h3] at hst
        by_cases hv : utf8Valid (s.own.2 ++ s.sock.kernel) = true
        · simp only [hv, if_true] at hst
          by_cases he : s.own.2 ++ s.sock.kernel = []
          · rw [he] at hst
            simp only [List.length_nil, List.append_nil, Option.some.injEq] at hst
            subst hst
            refine ⟨by simpa [Sock.after, h2] using g1, fun more => ?_, fun _ => hend, fun _ _ => .inl (by simp [Sock.after, h2])⟩
            rw [g3, he]
            simp [handedOver]
          · obtain ⟨n, hn⟩ : ∃ n, (s.own.2 ++ s.sock.kernel).length = n + 1 :=
              ⟨(s.own.2 ++ s.sock.kernel).length - 1, by have := List.length_pos_iff.2 he; omega⟩
            simp only [hn, Option.some.injEq] at hst
            subst hst
            refine ⟨by simpa [Sock.after, h2] using g1, fun more => ?_, fun _ => hend, by simp⟩
            rw [g3]
            simp only [handedOver, if_pos (And.intro he hv)]
            simp
        · simp only [hv, Bool.false_eq_true, if_false, Option.some.injEq] at hst
          subst hst
          refine ⟨by simpa [Sock.after, h2] using g1, fun more => ?_, fun _ => hend, fun _ _ => .inl (by simp [Sock.after, h2])⟩
          rw [g3]
          simp [handedOver, hv]
      | _ =>
        obtain ⟨g1, g2, g3⟩ := rest h1 .blocked (.inl rfl)
        refine ⟨ms ++ (s.own.2 ++ s.sock.kernel).map .byte ++ [.blocked], ?_⟩
        simp only [hend] at h3
        simp only [readLine, h3] at hst
        by_cases hv : utf8Valid (s.own.2 ++ s.sock.kernel) = true
        · simp only [hv, if_true, Option.some.injEq] at hst
          subst hst
          refine ⟨by simpa [Sock.after, h2] using g1, fun more => ?_, fun hc => (g2 hc).resolve_right (by simp), fun _ _ => .inl (by simp [Sock.after, h2])⟩
          rw [g3]
          simp only [handedOver, hv, if_true]
        · simp only [hv, Bool.false_eq_true, if_false, Option.some.injEq] at hst
          subst hst
          refine ⟨by simpa [Sock.after, h2] using g1, fun more => ?_, fun hc => (g2 hc).resolve_right (by simp), fun _ _ => .inl (by simp [Sock.after, h2])⟩
          rw [g3]
          simp only [handedOver, hv, Bool.false_eq_true, if_false]

private theorem inv_step (all : Bytes) (s s' : State (Bytes × Bytes)) (l : Label) (ms : List Mark) (hi : Inv all s ms) (hst : step graphite s l = some s') :
    ∃ ms', Inv (all ++ sent [l]) s' ms' := by
  cases l with
  | read => simpa [sent] using inv_read all s s' ms hi hst
  | arrive bs =>
    obtain ⟨i1, i2, i3, i4⟩ := hi
    simp only [step] at hst
    split at hst
    · next hc =>
      simp only [Option.some.injEq] at hst; subst hst
      exact ⟨ms, by simp [sent, i1], i2, i3, by simp⟩
    · simp at hst
  | close =>
    obtain ⟨i1, i2, i3, i4⟩ := hi
    simp only [step] at hst
    split at hst
    · simp only [Option.some.injEq] at hst; subst hst
      exact ⟨ms, by simp [sent, i1], i2, fun _ => rfl, by simp⟩
    · simp at hst
  | reset =>
    obtain ⟨i1, i2, i3, i4⟩ := hi
    simp only [step] at hst
    split at hst
    · next hc =>
      simp only [Option.some.injEq] at hst; subst hst
      exact ⟨ms, by simp [sent, i1], i2, fun h => by rw [i3 h] at hc; simp at hc, by simp⟩
    · simp at hst
  | spurious =>
    obtain ⟨i1, i2, i3, i4⟩ := hi
    simp only [step, Option.some.injEq] at hst; subst hst
    exact ⟨ms, by simp [sent, i1], i2, i3, by simp⟩
  | system =>
    obtain ⟨i1, i2, i3, i4⟩ := hi
    simp only [step, Option.some.injEq] at hst; subst hst
    exact ⟨ms, by simp [sent, i1], i2, i3, i4⟩
  | poll systemFirst =>
    obtain ⟨i1, i2, i3, i4⟩ := hi
    cases hp : s.phase with
    | polling =>
      simp only [step, hp] at hst
      by_cases he : s.edge = true
      · rw [if_pos he] at hst
        by_cases hs : (s.system && systemFirst) = true
        · rw [if_pos hs, Option.some.injEq] at hst; subst hst
          exact ⟨ms, by simp [sent, i1], i2, i3, by simp⟩
        · rw [if_neg hs, Option.some.injEq] at hst; subst hst
          exact ⟨ms, by simp [sent, i1], i2, i3, by simp⟩
      · rw [if_neg he] at hst
        by_cases hs : s.system = true
        · rw [if_pos hs, Option.some.injEq] at hst; subst hst
          exact ⟨ms, by simp [sent, i1], i2, i3, by simp⟩
        · rw [if_neg hs] at hst; simp at hst
    | _ => simp [step, hp] at hst

private theorem inv_run (ls : List Label) : ∀ (all : Bytes) (s s' : State (Bytes × Bytes)) (ms : List Mark), Inv all s ms →
    run graphite s ls = some s' → ∃ ms', Inv (all ++ sent ls) s' ms' := by
  induction ls with
  | nil => intro all s s' ms hi hr; simp only [run, Option.some.injEq] at hr; subst hr; exact ⟨ms, by simpa [sent] using hi⟩
  | cons l ls ih =>
    intro all s s' ms hi hr
    have hsp : sent (l :: ls) = sent [l] ++ sent ls := by cases l <;> simp [sent]
    simp only [run] at hr
    cases hst : step graphite s l with
    | none => rw [hst] at hr; simp at hr
    | some s1 =>
      rw [hst] at hr
      obtain ⟨ms1, h1⟩ := inv_step all s s1 l ms hi hst
      obtain ⟨ms2, h2⟩ := ih _ s1 s' ms1 h1 hr
      exact ⟨ms2, by rw [hsp, ← List.append_assoc]; exact h2⟩

/-- **C102 (part), graphite, exactly.**  Under every schedule the lines the handler has taken are those of C70 for the bytes it has read, which are the first that
arrived, cut where its reads blocked; a read found the connection closed only if the client had closed it.  If it waits with nothing to wake it, everything that
arrived has been read, or the last it read was a line that is not UTF-8.  Partial: it stalls in the latter case, and never ends on close
(`C102_graphite_stall_false`, `C102_graphite_end_false`). -/
theorem C102_graphite_exact_partial (k : Sock) (ls : List Label) (s : State (Bytes × Bytes)) (hr : run graphite (init graphite k) ls = some s) :
    ∃ read unread ms, k.kernel ++ sent ls = read ++ unread ∧ (ms.filterMap fun m => match m with | .byte b => some b | _ => none) = read ∧
      s.taken = handedOver [] [] ms ∧ (Mark.closed ∈ ms → s.sock.ending = .fin) ∧
      (Asleep s → unread = [] ∨ ∃ before line, read = before ++ (line ++ [10]) ∧ (10 : UInt8) ∉ line ∧ utf8Valid (line ++ [10]) = false) := by
  have h0 : Inv k.kernel (init graphite k) [] := by
    refine ⟨by simp [init, graphite, bytesIn], fun more => by simp [init, graphite], by simp, fun _ he => .inl ?_⟩
    obtain ⟨kernel, ending⟩ := k
    cases kernel <;> simp [init, graphite] at he ⊢
  obtain ⟨ms, i1, i2, i3, i4⟩ := inv_run ls k.kernel _ s [] h0 hr
  refine ⟨bytesIn ms, s.own.2 ++ s.sock.kernel, ms, i1, rfl, ?_, i3, fun ha => ?_⟩
  · have := i2 []
    simpa [handedOver] using this.symm
  · rcases i4 ha.1 ha.2.1 with h | ⟨pre, p, rfl, h2, h3⟩
    · exact .inl h
    · obtain ⟨line, g1, g2, -⟩ := splitLine_some h2
      refine .inr ⟨bytesIn pre, line, ?_, g2, g1 ▸ h3⟩
      rw [bytesIn_append, bytesIn_map, g1]

/-- A line that is not UTF-8 stalls the next; a block within a character loses both halves. -/
example : (run graphite (init graphite { kernel := [255, 10, 97, 10] }) [.poll false, .read]).map (fun s => (s.taken, s.own.2, s.phase)) =
      some ([], [97, 10], .polling) ∧
    (run graphite (init graphite { kernel := [97, 195] }) [.poll false, .read, .arrive [169, 10, 98, 10], .poll false, .read, .spurious, .poll false, .read]).map
      (fun s => (s.taken, s.own)) = some ([[98, 10]], ([], [])) := by decide

end Verif
