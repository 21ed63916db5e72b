import Verif.Lemmas.Graphite
import Verif.Lemmas.Utf8
/-!
# C42, C43, C70 — the graphite source
-/
namespace Verif
open Wire Graphite

section
variable {F : Type} [F64 F]

private theorem mkPoint_ok (now : Int) (name : Str) (v : F) (t : Int) :
    mkPoint now name v t = .ok { name := name, value := .set v, persist := false, tags := none, timestamp := t, overrideCount := none, overrideSampleSum := none } := by
  simp [mkPoint, SoftTelemetry.harden, Telemetry.default, Telemetry.thaw, SoftTelemetry.setValue,
    SoftTelemetry.build]

/-- the words split into triples, with at most two words left over -/
private theorem parseWords_ok (ext : Ext F) (now : Int) (ts : List Triple)
    (hv : ∀ t ∈ ts, t.Valid ext) (res : List (Telemetry F)) :
    ∃ pts, ts.map (·.point ext) = pts.map some ∧
      parseWords ext now (ts.flatMap Triple.words) res =
        (if (res ++ pts).isEmpty then .rejected else .accepted, res ++ pts) := by
  induction ts generalizing res with
  | nil => exact ⟨[], rfl, by simp [parseWords]⟩
  | cons t ts ih =>
    obtain ⟨h1, h2⟩ := hv t (by simp)
    obtain ⟨v, h1⟩ := Option.isSome_iff_exists.1 h1
    obtain ⟨s, h2⟩ := Option.isSome_iff_exists.1 h2
    obtain ⟨pts, e1, e2⟩ := ih (fun x hx => hv x (by simp [hx]))
      (res ++ [{ name := t.name, value := .set v, persist := false, tags := none, timestamp := s, overrideCount := none, overrideSampleSum := none }])
    refine ⟨{ name := t.name, value := .set v, persist := false, tags := none, timestamp := s, overrideCount := none, overrideSampleSum := none } :: pts, by rw [List.map_cons, List.map_cons, e1]; simp [Triple.point, h1, h2], ?_⟩
    simp only [List.flatMap_cons, Triple.words, List.cons_append, List.nil_append, parseWords, h1, h2,
      mkPoint_ok]
    rw [e2]; simp

private theorem parseWords_accepted (ext : Ext F) (now : Int) : ∀ (n : Nat) (ws : List Str)
    (res pts : List (Telemetry F)), ws.length ≤ n → parseWords ext now ws res = (.accepted, pts) →
    ∃ ts : List Triple, ws = ts.flatMap Triple.words ∧ ∀ t ∈ ts, t.Valid ext := by
  intro n
  induction n with
  | zero =>
    intro ws res pts h _
    have : ws = [] := List.eq_nil_of_length_eq_zero (by omega)
    exact ⟨[], by simp [this], by simp⟩
  | succ n ih =>
    intro ws res pts h hp
    match ws with
    | [] => exact ⟨[], rfl, by simp⟩
    | [_] => simp [parseWords] at hp
    | [_, _] => simp [parseWords] at hp
    | name :: val :: time :: ws =>
      simp only [parseWords] at hp
      cases h1 : ext.parseF val with
      | none => simp [h1] at hp
      | some v =>
        cases h2 : ext.parseI time with
        | none => simp [h1, h2] at hp
        | some s =>
          simp only [h1, h2, mkPoint_ok] at hp
          simp only [List.length_cons] at h
          obtain ⟨ts, e1, e2⟩ := ih ws _ pts (by omega) hp
          refine ⟨⟨name, val, time⟩ :: ts, by simp [Triple.words, e1], ?_⟩
          intro t ht
          rcases List.mem_cons.1 ht with rfl | ht
          · exact ⟨by simp [h1], by simp [h2]⟩
          · exact e2 t ht

private theorem some_inj {α : Type} : ∀ {a b : List α}, a.map some = b.map some → a = b
  | [], [], _ => rfl
  | [], _ :: _, h => by simp at h
  | _ :: _, [], h => by simp at h
  | a :: as, b :: bs, h => by
    simp only [List.map_cons, List.cons.injEq, Option.some.injEq] at h
    rw [h.1, some_inj h.2]

theorem parseWords_no_panic (ext : Ext F) (now : Int) : ∀ (n : Nat) (ws : List Str)
    (res : List (Telemetry F)), ws.length ≤ n → (parseWords ext now ws res).1 ≠ .panicked := by
  intro n
  induction n with
  | zero =>
    intro ws res h
    have : ws = [] := List.eq_nil_of_length_eq_zero (by omega)
    subst this
    simp only [parseWords]; split <;> simp
  | succ n ih =>
    intro ws res h
    match ws with
    | [] => simp only [parseWords]; split <;> simp
    | [_] => simp [parseWords]
    | [_, _] => simp [parseWords]
    | name :: val :: time :: ws =>
      simp only [parseWords]
      cases h1 : ext.parseF val with
      | none => simp
      | some v =>
        cases h2 : ext.parseI time with
        | none => simp
        | some s =>
          simp only [mkPoint_ok]
          simp only [List.length_cons] at h
          exact ih ws _ (by omega)

/-- **C42, payloads.**  A payload is accepted exactly if its words are one or more complete
triples of a name, a number and an integer; its points are then exactly the points of these
triples, in order.  Any other payload is rejected; none panics. -/
theorem C42_payload (ext : Ext F) (now : Int) (source : Str) :
    (∀ pts, parseGraphite ext now source [] = (.accepted, pts) ↔
      ∃ ts : List Triple, ts ≠ [] ∧ (∀ t ∈ ts, t.Valid ext) ∧
        splitWhitespace ext.isSpace source = ts.flatMap Triple.words ∧
        ts.map (·.point ext) = pts.map some) ∧
    (parseGraphite ext now source []).1 ≠ .panicked := by
  refine ⟨?_, parseWords_no_panic ext now _ _ _ (Nat.le_refl _)⟩
  intro pts
  simp only [parseGraphite]
  constructor
  · intro h
    obtain ⟨ts, e1, e2⟩ := parseWords_accepted ext now _ _ _ _ (Nat.le_refl _) h
    obtain ⟨pts', f1, f2⟩ := parseWords_ok ext now ts e2 []
    rw [e1, f2] at h
    simp only [List.nil_append, Prod.mk.injEq] at h
    obtain ⟨h1, h2⟩ := h
    subst h2
    refine ⟨ts, ?_, e2, e1, f1⟩
    rintro rfl
    cases pts' with
    | nil => simp at h1
    | cons p ps => simp at f1
  · rintro ⟨ts, r1, r2, r3, r4⟩
    obtain ⟨pts', f1, f2⟩ := parseWords_ok ext now ts r2 []
    have : pts' = pts := some_inj (by rw [← f1, r4])
    subst this
    rw [r3, f2]
    cases pts' with
    | nil => cases ts with
      | nil => exact absurd rfl r1
      | cons r rs => simp at f1
    | cons p ps => simp

end

private theorem splitWhitespace_space (sp : Char → Bool) (w s : Str) (h : ∀ c ∈ w, sp c = true) :
    splitWhitespace sp (w ++ s) = splitWhitespace sp s := by
  induction w with
  | nil => rfl
  | cons c w ih =>
    simp only [List.cons_append, splitWhitespace, h c (by simp), if_true]
    exact ih (fun x hx => h x (by simp [hx]))

private theorem splitWhitespace_word (sp : Char → Bool) (w : Str) (d : Char) (s : Str)
    (hne : w ≠ []) (h : ∀ c ∈ w, sp c = false) (hd : sp d = true) :
    splitWhitespace sp (w ++ d :: s) = w :: splitWhitespace sp (d :: s) := by
  induction w with
  | nil => exact absurd rfl hne
  | cons c w ih =>
    have hc := h c (by simp)
    cases w with
    | nil =>
      simp only [List.cons_append, List.nil_append]
      rw [splitWhitespace]
      simp [hc, hd]
    | cons e w =>
      have he := h e (by simp)
      have ih := ih (by simp) (fun x hx => h x (by simp [hx]))
      simp only [List.cons_append] at ih ⊢
      rw [splitWhitespace]
      simp only [hc, Bool.false_eq_true, if_false, he, ih]

/-- What `split_whitespace` makes of words that are each followed by white space. -/
theorem C42_words (sp : Char → Bool) (ws : List (Str × Str))
    (h : ∀ w ∈ ws, w.1 ≠ [] ∧ (∀ c ∈ w.1, sp c = false) ∧ w.2 ≠ [] ∧ ∀ c ∈ w.2, sp c = true) :
    splitWhitespace sp (spaced ws) = ws.map Prod.fst := by
  induction ws with
  | nil => rfl
  | cons w ws ih =>
    obtain ⟨w, s⟩ := w
    obtain ⟨h1, h2, h3, h4⟩ := h (w, s) (by simp)
    simp only at h1 h2 h3 h4
    have ih := ih (fun x hx => h x (by simp [hx]))
    simp only [spaced, List.flatMap_cons, List.map_cons, List.append_assoc] at ih ⊢
    cases s with
    | nil => exact absurd rfl h3
    | cons d s =>
      simp only [List.cons_append]
      rw [splitWhitespace_word sp w d _ h1 h2 (h4 d (by simp))]
      have : splitWhitespace sp (d :: (s ++ List.flatMap (fun w => w.1 ++ w.2) ws)) =
          splitWhitespace sp ((d :: s) ++ List.flatMap (fun w => w.1 ++ w.2) ws) := rfl
      rw [this, splitWhitespace_space sp (d :: s) _ h4, ih]

/-- Parsers for the examples. -/
private def demo : Ext Int :=
  { parseF := fun s => match s with | [c] => if c.isDigit then some ((c.toNat : Int) - 48) else none | _ => none
    parseI := fun s => match s with | [c] => if c.isDigit then some ((c.toNat : Int) - 48) else none | _ => none
    isSpace := fun c => c = ' ' ∨ c = '\n' }

example : (∀ t ∈ [Triple.mk ['a'] ['1'] ['2'], ⟨['b'], ['3'], ['4']⟩], t.Valid demo) ∧
    (parseGraphite demo 0 "a 1 2  b 3 4\n".toList []).1 = .accepted ∧
    (parseGraphite demo 0 "a 1 2  b 3 4\n".toList []).2.map (fun t => (t.name, t.set, t.timestamp)) =
      [(['a'], some 1, 2), (['b'], some 3, 4)] := by
  refine ⟨?_, by decide, by decide⟩
  intro t ht
  simp only [List.mem_cons, List.not_mem_nil, or_false] at ht
  rcases ht with rfl | rfl <;> exact ⟨by decide, by decide⟩

/-- **C43 as stated**: what is forwarded is what the accepted lines stand for. -/
def C43Statement (F : Type) [F64 F] : Prop :=
  ∀ (ext : Ext F) (now : Int) (ls : List Str),
    (handleLines ext now ls []).map Prod.fst = some (ls.flatMap (Graphite.ownPoints ext now))

/-- **C43 is false of the code**: the points of a line's triples before the bad one stay
in the buffer and go out with the next line, even a blank one. -/
theorem C43_rejected_line_leaks_false : ¬ C43Statement Int := by
  intro h
  have h1 := congrArg (Option.map (List.map (·.name))) (h demo 0 ["x 1 1 bad\n".toList, "\n".toList])
  revert h1
  decide

section
variable {F : Type} [F64 F]

private theorem parseWords_res (ext : Ext F) (now : Int) : ∀ (n : Nat) (ws : List Str)
    (a b : List (Telemetry F)), ws.length ≤ n →
    ∃ new, (parseWords ext now ws a).2 = a ++ new ∧ (parseWords ext now ws b).2 = b ++ new ∧
      ((parseWords ext now ws b).1 = .accepted → (b ≠ [] → a ≠ []) →
        (parseWords ext now ws a).1 = .accepted) := by
  intro n
  induction n with
  | zero =>
    intro ws a b h
    have : ws = [] := List.eq_nil_of_length_eq_zero (by omega)
    subst this
    refine ⟨[], by simp [parseWords], by simp [parseWords], ?_⟩
    simp only [parseWords]
    cases a <;> cases b <;> simp
  | succ n ih =>
    intro ws a b h
    match ws with
    | [] =>
      refine ⟨[], by simp [parseWords], by simp [parseWords], ?_⟩
      simp only [parseWords]
      cases a <;> cases b <;> simp
    | [_] => exact ⟨[], by simp [parseWords], by simp [parseWords], by simp [parseWords]⟩
    | [_, _] => exact ⟨[], by simp [parseWords], by simp [parseWords], by simp [parseWords]⟩
    | name :: val :: time :: ws =>
      simp only [parseWords]
      cases h1 : ext.parseF val with
      | none => exact ⟨[], by simp, by simp, by simp⟩
      | some v =>
        cases h2 : ext.parseI time with
        | none => exact ⟨[], by simp, by simp, by simp⟩
        | some s =>
          simp only [mkPoint_ok]
          simp only [List.length_cons] at h
          obtain ⟨new, e1, e2, e3⟩ := ih ws (a ++ [_]) (b ++ [_]) (by omega)
          exact ⟨_ :: new, by rw [e1, List.append_assoc]; rfl, by rw [e2, List.append_assoc]; rfl, fun hh _ => e3 hh (by simp)⟩

/-- **C43 (part).**  If the rejected lines of a connection are rejected at their first
triple, nothing of them is forwarded and exactly the points of the accepted lines are, in
order.  Missing from the full statement: lines rejected at a later triple. -/
theorem C43_rejected_at_first_triple_partial (ext : Ext F) (now : Int) (ls : List Str)
    (hf : ∀ l ∈ ls, (parseGraphite ext now l []).1 = .rejected → (parseGraphite ext now l []).2 = []) :
    handleLines ext now ls [] = some (ls.flatMap (Graphite.ownPoints ext now), []) := by
  induction ls with
  | nil => rfl
  | cons l ls ih =>
    have ih := ih (fun x hx => hf x (by simp [hx]))
    have hnp := (C42_payload ext now l).2
    have hf := hf l (by simp)
    simp only [handleLines, List.flatMap_cons, Graphite.ownPoints]
    rcases hp : parseGraphite ext now l [] with ⟨v, pts⟩
    rw [hp] at hf hnp
    cases v with
    | accepted => simp [ih]
    | rejected =>
      simp only at hf ⊢
      rw [hf trivial]
      simpa using ih
    | panicked => exact absurd rfl hnp

/-- **C43 (part)**: whatever leaks, nothing of the accepted lines is lost or reordered, and
the handler does not panic. -/
theorem C43_accepted_forwarded_partial (ext : Ext F) (now : Int) (ls : List Str) :
    ∃ sent res, handleLines ext now ls [] = some (sent, res) ∧
      (ls.flatMap (Graphite.ownPoints ext now)).Sublist sent := by
  have key : ∀ (ls : List Str) (r0 : List (Telemetry F)), ∃ sent res,
      handleLines ext now ls r0 = some (sent, res) ∧
      (ls.flatMap (Graphite.ownPoints ext now)).Sublist sent := by
    intro ls
    induction ls with
    | nil => intro r0; exact ⟨[], r0, rfl, by simp⟩
    | cons l ls ih =>
      intro r0
      obtain ⟨new, e1, e2, e3⟩ := parseWords_res ext now _ (splitWhitespace ext.isSpace l) r0 [] (Nat.le_refl _)
      have n1 := parseWords_no_panic ext now _ (splitWhitespace ext.isSpace l) r0 (Nat.le_refl _)
      have n2 := parseWords_no_panic ext now _ (splitWhitespace ext.isSpace l) [] (Nat.le_refl _)
      simp only [handleLines, List.flatMap_cons, Graphite.ownPoints, parseGraphite]
      rcases hp : parseWords ext now (splitWhitespace ext.isSpace l) [] with ⟨v, pts⟩
      rcases hq : parseWords ext now (splitWhitespace ext.isSpace l) r0 with ⟨v', pts'⟩
      simp only [hp, hq, List.nil_append] at e1 e2 e3 n1 n2
      subst e1 e2
      cases v' with
      | panicked => exact absurd rfl n1
      | accepted =>
        obtain ⟨s1, r1, i1, i2⟩ := ih []
        refine ⟨r0 ++ pts ++ s1, r1, by simp [i1], ?_⟩
        cases v with
        | accepted => exact (List.sublist_append_right r0 pts).append i2
        | rejected => exact i2.trans (List.sublist_append_right _ _)
        | panicked => exact absurd rfl n2
      | rejected =>
        obtain ⟨s1, r1, i1, i2⟩ := ih (r0 ++ pts)
        refine ⟨s1, r1, by simp [i1], ?_⟩
        cases v with
        | accepted => exact absurd (e3 rfl (by simp)) (by simp)
        | rejected => simpa using i2
        | panicked => exact absurd rfl n2
  exact key ls []

private theorem parseWords_exact (ext : Ext F) (now : Int) : ∀ (n : Nat) (ws : List Str) (res : List (Telemetry F)), ws.length ≤ n →
    parseWords ext now ws res = (if (pointsBefore ext ws).2 = true ∧ (res ≠ [] ∨ ws ≠ []) then .accepted else .rejected,
      res ++ (pointsBefore ext ws).1) := by
  intro n
  induction n with
  | zero =>
    intro ws res h
    have : ws = [] := List.eq_nil_of_length_eq_zero (by omega)
    subst this
    cases res <;> simp [parseWords, pointsBefore]
  | succ n ih =>
    intro ws res h
    match ws with
    | [] => cases res <;> simp [parseWords, pointsBefore]
    | [_] => simp [parseWords, pointsBefore]
    | [_, _] => simp [parseWords, pointsBefore]
    | name :: val :: time :: ws =>
      rcases h1 : ext.parseF val with _ | v
      · simp [parseWords, pointsBefore, Triple.point, h1]
      · rcases h2 : ext.parseI time with _ | t
        · simp [parseWords, pointsBefore, Triple.point, h1, h2]
        · simp only [List.length_cons] at h
          simp [parseWords, pointsBefore, Triple.point, h1, h2, mkPoint_ok, ih ws (res ++ [_]) (by omega)]

/-- **C43 (part)**, exactly what is forwarded of a connection's lines: of every line the points of the triples before its first bad one, up
to a last line without bad triples; after that one no line is accepted, and what they leave waits for the next line. -/
theorem C43_exact_partial (ext : Ext F) (now : Int) (ls : List Str) :
    ∃ forwarded after, ls = forwarded ++ after ∧
      handleLines ext now ls [] = some (forwarded.flatMap (goodPoints ext), after.flatMap (goodPoints ext)) ∧
      (∀ l ∈ after, Graphite.ownPoints ext now l = []) ∧
      (∀ init l, forwarded = init ++ [l] → allGood ext l) := by
  suffices key : ∀ (ls : List Str) (res : List (Telemetry F)),
      (handleLines ext now ls res = some ([], res ++ ls.flatMap (goodPoints ext)) ∧ ∀ l ∈ ls, Graphite.ownPoints ext now l = []) ∨
      ∃ forwarded after, ls = forwarded ++ after ∧ forwarded ≠ [] ∧
        handleLines ext now ls res = some (res ++ forwarded.flatMap (goodPoints ext), after.flatMap (goodPoints ext)) ∧
        (∀ l ∈ after, Graphite.ownPoints ext now l = []) ∧
        (∀ init l, forwarded = init ++ [l] → allGood ext l) by
    rcases key ls [] with ⟨h1, h2⟩ | ⟨f, a, h1, _, h2, h3, h4⟩
    · exact ⟨[], ls, rfl, by simpa using h1, h2, by simp⟩
    · exact ⟨f, a, h1, by simpa using h2, h3, h4⟩
  intro ls
  induction ls with
  | nil => intro res; exact Or.inl ⟨by simp [handleLines], by simp⟩
  | cons l ls ih =>
    intro res
    have e := parseWords_exact ext now _ (splitWhitespace ext.isSpace l) res (Nat.le_refl _)
    have o := parseWords_exact ext now _ (splitWhitespace ext.isSpace l) [] (Nat.le_refl _)
    by_cases hc : (pointsBefore ext (splitWhitespace ext.isSpace l)).2 = true ∧ (res ≠ [] ∨ splitWhitespace ext.isSpace l ≠ [])
    · rw [if_pos hc] at e
      have hd : handleLines ext now (l :: ls) res =
          (handleLines ext now ls []).map fun r => ((res ++ goodPoints ext l) ++ r.1, r.2) := by
        simp only [handleLines, parseGraphite, e, goodPoints]
      refine Or.inr ?_
      rcases ih [] with ⟨h1, h2⟩ | ⟨f, a, h1, h0, h2, h3, h4⟩
      · refine ⟨[l], ls, rfl, by simp, by rw [hd, h1]; simp, h2, fun init x hx => ?_⟩
        cases init with
        | nil => simp only [List.nil_append, List.cons.injEq, and_true] at hx; rw [← hx]; exact hc.1
        | cons y init => simp at hx
      · refine ⟨l :: f, a, by rw [h1]; rfl, by simp, by rw [hd, h2]; simp, h3, fun init x hx => ?_⟩
        cases init with
        | nil => simp only [List.nil_append, List.cons.injEq] at hx; exact absurd hx.2 h0
        | cons y init => exact h4 init x (List.cons.inj hx).2
    · rw [if_neg hc] at e
      have hd : handleLines ext now (l :: ls) res = handleLines ext now ls (res ++ goodPoints ext l) := by
        simp only [handleLines, parseGraphite, e, goodPoints]
      have ho : Graphite.ownPoints ext now l = [] := by
        have hn : ¬ ((pointsBefore ext (splitWhitespace ext.isSpace l)).2 = true ∧ (([] : List (Telemetry F)) ≠ [] ∨ splitWhitespace ext.isSpace l ≠ [])) :=
          fun h => hc ⟨h.1, Or.inr (h.2.resolve_left (by simp))⟩
        rw [if_neg hn] at o
        simp only [Graphite.ownPoints, parseGraphite, o]
      rw [hd]
      rcases ih (res ++ goodPoints ext l) with ⟨h1, h2⟩ | ⟨f, a, h1, h0, h2, h3, h4⟩
      · exact Or.inl ⟨by rw [h1]; simp, by simp only [List.mem_cons, forall_eq_or_imp]; exact ⟨ho, h2⟩⟩
      · refine Or.inr ⟨l :: f, a, by rw [h1]; rfl, by simp, by rw [h2]; simp, h3, fun init x hx => ?_⟩
        cases init with
        | nil => simp only [List.nil_append, List.cons.injEq] at hx; exact absurd hx.2 h0
        | cons y init => exact h4 init x (List.cons.inj hx).2

end

/-- What goes out with an accepted line, and what waits. -/
example : (handleLines demo 0 ["x 1 1 bad\n".toList, "y 2 2\n".toList, "z 1 1 v\n".toList] []).map (fun r => (r.1.map (·.name), r.2.map (·.name))) =
    some (["x".toList, "y".toList], ["z".toList]) := by decide

/-- **C70 (part).**  However the network cuts a connection's bytes into pieces, and however
often reads block or are interrupted in between, the lines handed to the parser are exactly
the lines of the byte stream, provided the stream ends with a line feed and never blocks
inside a character.  Missing from the full statement: exactly these two cases, see below. -/
theorem C70_lines_independent_of_chunks_partial (stream : List NetItem) (fuel : Nat)
    (hw : WholeChars [] stream) (hl : ∀ b, (bytesOf stream).getLast? = some b → b = 10)
    (hf : (bytesOf stream).length + stream.length + 1 ≤ fuel) :
    readLines fuel [] [] stream = finishedLines (bytesOf stream) := by
  have := readLines_finished fuel [] [] stream (by simp) hw (by simpa using hf) (by simpa using hl)
  simpa using this

example : WholeChars [] [.data [97, 32], .wouldBlock, .interrupted, .data [49, 10, 195, 169, 10]] ∧
    readLines 20 [] [] [.data [97, 32], .wouldBlock, .interrupted, .data [49, 10, 195, 169, 10]] =
      [[97, 32, 49, 10], [195, 169, 10]] := by
  refine ⟨⟨by decide, by decide, by decide, by simp only [WholeChars]; decide⟩, by decide⟩

/-- **C70 is false of the code when a read blocks inside a character**: `é` and a line feed
arrive, the first byte before and the second after the block; the line is lost. -/
theorem C70_split_character_false (fuel : Nat) :
    readLines (fuel + 4) [] [] [.data [195], .wouldBlock, .data [169, 10]] = [] := by
  have h : ∀ n, readLines (n + 1) [] [] [] = [] := by intro n; rfl
  have : readLines (fuel + 4) [] [] [.data [195], .wouldBlock, .data [169, 10]] =
      readLines (fuel + 2) [] [] [] := by rfl
  rw [this]; exact h (fuel + 1)

/-- **C70 is false of the code for a last line without line feed**: it is handed over if
the connection is closed at once, and lost if a read blocked in between. -/
theorem C70_unfinished_line_false :
    readLines 10 [] [] [.data [97]] = [[97]] ∧
    readLines 10 [] [] [.data [97], .wouldBlock] = [] := by decide

/-- **C70.**  The bytes taken for a line are exactly those that spell some text: nothing that is text is refused, nothing else let
through. -/
theorem C70_utf8 (bs : Bytes) : utf8Valid bs = true ↔ ∃ s : Str, bs = s.flatMap String.utf8EncodeChar := valid_iff bs

/-- A snowman passes; an overlong line feed, half of a surrogate pair and a character cut short do not. -/
example : utf8Valid [226, 152, 131] = true ∧ utf8Valid [192, 138] = false ∧ utf8Valid [237, 160, 128] = false ∧
    utf8Valid [226, 152] = false ∧ "☃".toList.flatMap String.utf8EncodeChar = [226, 152, 131] := by decide +kernel

end Verif
