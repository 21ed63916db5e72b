import Verif.Lemmas.Statsd
/-!
# C40, C41, C69 — the statsd source
-/
namespace Verif
open Statsd

section
variable {F : Type} [F64 F]

private theorem parseLine_valid (cfg : Config F) (now : Int) (r : Reading) (hu : cfg.Usable)
    (ha : cfg.AsciiNumbers) (hv : r.Valid cfg) :
    ∃ t, r.point cfg now = some t ∧ parseLine cfg now r.text = .point t := by
  obtain ⟨x, e1, e2⟩ := parseLine_text cfg now r hv ha
  obtain ⟨p1, p2⟩ := harden_typed cfg now r x _ rfl
  obtain ⟨t, ht⟩ := p2 hu
  refine ⟨t, ?_, by rw [e2, ht]⟩
  rw [Reading.point, e1, Option.bind_some]
  exact p1 t ht

/-- **C40, one line.**  A line is accepted exactly if it is the printed form of a valid
reading, and then the point pushed is the one the reading stands for.  All other lines are
rejected; no line panics. -/
theorem C40_line (cfg : Config F) (now : Int) (hu : cfg.Usable) (ha : cfg.AsciiNumbers) (src : Str) :
    (∀ r : Reading, r.Valid cfg → src = r.text →
      ∃ t, r.point cfg now = some t ∧ parseLine cfg now src = .point t) ∧
    ((¬ ∃ r : Reading, r.Valid cfg ∧ src = r.text) → parseLine cfg now src = .bad) := by
  constructor
  · rintro r hv rfl
    exact parseLine_valid cfg now r hu ha hv
  · intro hno
    cases h : parseLine cfg now src with
    | bad => rfl
    | panic => exact absurd (parseLine_point cfg now src ha (by simp [h])) hno
    | point t => exact absurd (parseLine_point cfg now src ha (by simp [h])) hno

private theorem parseLines_ok (cfg : Config F) (now : Int) (hu : cfg.Usable) (ha : cfg.AsciiNumbers)
    (rs : List Reading) (hv : ∀ r ∈ rs, r.Valid cfg) (res : List (Telemetry F)) :
    ∃ pts, rs.map (·.point cfg now) = pts.map some ∧
      parseLines cfg now (rs.map Reading.text) res =
        (if (res ++ pts).isEmpty then .rejected else .accepted, res ++ pts) := by
  induction rs generalizing res with
  | nil => exact ⟨[], rfl, by simp [parseLines]⟩
  | cons r rs ih =>
    obtain ⟨t, t1, t2⟩ := parseLine_valid cfg now r hu ha (hv r (by simp))
    obtain ⟨pts, e1, e2⟩ := ih (fun x hx => hv x (by simp [hx])) (res ++ [t])
    exact ⟨t :: pts, by simp [t1, e1], by simp only [List.map_cons, parseLines, t2, e2]; simp⟩

private theorem parseLines_accepted (cfg : Config F) (now : Int) (ha : cfg.AsciiNumbers)
    (ls : List Str) (res pts : List (Telemetry F)) (h : parseLines cfg now ls res = (.accepted, pts)) :
    ∃ rs : List Reading, ls = rs.map Reading.text ∧ ∀ r ∈ rs, r.Valid cfg := by
  induction ls generalizing res with
  | nil => exact ⟨[], rfl, by simp⟩
  | cons l ls ih =>
    simp only [parseLines] at h
    cases hl : parseLine cfg now l with
    | bad => simp [hl] at h
    | panic => simp [hl] at h
    | point t =>
      rw [hl] at h
      obtain ⟨rs, e1, e2⟩ := ih _ h
      obtain ⟨r, r1, r2⟩ := parseLine_point cfg now l ha (by simp [hl])
      refine ⟨r :: rs, by simp [r2, e1], ?_⟩
      intro x hx
      rcases List.mem_cons.1 hx with rfl | hx
      · exact r1
      · exact e2 x hx

private theorem some_inj {α : Type} : ∀ {a b : List α}, a.map some = b.map some → a = b
  | [], [], _ => rfl
  | [], _ :: _, h => by simp at h
  | _ :: _, [], h => by simp at h
  | a :: as, b :: bs, h => by
    simp only [List.map_cons, List.cons.injEq, Option.some.injEq] at h
    rw [h.1, some_inj h.2]

/-- **C40, packets.**  A packet is accepted exactly if it has a line and every line is the
printed form of a valid reading; its points are then exactly the points of these readings,
one per line, in order. -/
theorem C40_packet (cfg : Config F) (now : Int) (hu : cfg.Usable) (ha : cfg.AsciiNumbers)
    (source : Str) (pts : List (Telemetry F)) :
    parseStatsd cfg now source [] = (.accepted, pts) ↔
      ∃ rs : List Reading, rs ≠ [] ∧ (∀ r ∈ rs, r.Valid cfg) ∧ lines source = rs.map Reading.text ∧
        rs.map (·.point cfg now) = pts.map some := by
  simp only [parseStatsd]
  constructor
  · intro h
    obtain ⟨rs, e1, e2⟩ := parseLines_accepted cfg now ha _ _ _ h
    obtain ⟨pts', f1, f2⟩ := parseLines_ok cfg now hu ha rs e2 []
    rw [e1, f2] at h
    simp only [List.nil_append, Prod.mk.injEq] at h
    obtain ⟨h1, h2⟩ := h
    subst h2
    refine ⟨rs, ?_, e2, e1, f1⟩
    rintro rfl
    cases pts' with
    | nil => simp at h1
    | cons p ps => simp at f1
  · rintro ⟨rs, r1, r2, r3, r4⟩
    obtain ⟨pts', f1, f2⟩ := parseLines_ok cfg now hu ha rs r2 []
    have : pts' = pts := some_inj (by rw [← f1, r4])
    subst this
    rw [r3, f2]
    cases pts' with
    | nil => cases rs with
      | nil => exact absurd rfl r1
      | cons r rs => simp at f1
    | cons p ps => simp

private theorem parseLines_no_panic (cfg : Config F) (now : Int) (hu : cfg.Usable) (ha : cfg.AsciiNumbers)
    (ls : List Str) (res : List (Telemetry F)) : (parseLines cfg now ls res).1 ≠ .panicked := by
  induction ls generalizing res with
  | nil => simp only [parseLines]; split <;> simp
  | cons l ls ih =>
    simp only [parseLines]
    cases hl : parseLine cfg now l with
    | bad => simp
    | panic =>
      exfalso
      obtain ⟨r, r1, r2⟩ := parseLine_point cfg now l ha (by simp [hl])
      obtain ⟨t, -, t2⟩ := parseLine_valid cfg now r hu ha r1
      rw [← r2, hl] at t2
      simp at t2
    | point t => exact ih _

/-- **C40, from the client's side.**  Send some readings, each on a line of its own, the
lines ended by a line feed or by carriage return and line feed, the end of the last line
being optional: the packet is accepted and gives one point per reading, in order. -/
theorem C40_readings (cfg : Config F) (now : Int) (hu : cfg.Usable) (ha : cfg.AsciiNumbers)
    (rs : List (Reading × Bool)) (last : Option Reading) (hne : rs ≠ [] ∨ last ≠ none)
    (hv : ∀ r ∈ rs.map Prod.fst ++ last.toList, r.Valid cfg ∧ '\n' ∉ r.text ∧ '\r' ∉ r.text) :
    ∃ pts, (rs.map Prod.fst ++ last.toList).map (·.point cfg now) = pts.map some ∧
      parseStatsd cfg now
        (unlines (rs.map fun r => (r.1.text, r.2)) ++ (last.map Reading.text).getD []) [] =
        (.accepted, pts) := by
  have hclean : ∀ r ∈ rs.map Prod.fst ++ last.toList, Clean r.text := by
    intro r hr
    obtain ⟨-, h1, h2⟩ := hv r hr
    exact ⟨h1, fun h => h2 (List.mem_of_getLast? h)⟩
  have hlines : lines (unlines (rs.map fun r => (r.1.text, r.2)) ++ (last.map Reading.text).getD []) =
      (rs.map Prod.fst ++ last.toList).map Reading.text := by
    rw [lines_unlines]
    · cases last with
      | none => simp [lines, splitTerminator]
      | some l =>
        have := lines_last l.text (hclean l (by simp)) (by rw [Reading.text_eq]; simp)
        simp [this]
    · intro l hl
      simp only [List.mem_map] at hl
      obtain ⟨r, hr, rfl⟩ := hl
      exact hclean r.1 (by simp only [List.mem_append, List.mem_map]; exact Or.inl ⟨r, hr, rfl⟩)
  obtain ⟨pts, f1, f2⟩ := parseLines_ok cfg now hu ha (rs.map Prod.fst ++ last.toList)
    (fun r hr => (hv r hr).1) []
  refine ⟨pts, f1, ?_⟩
  rw [C40_packet cfg now hu ha]
  refine ⟨rs.map Prod.fst ++ last.toList, ?_, fun r hr => (hv r hr).1, hlines, f1⟩
  cases rs with
  | nil => cases last with
    | none => simp at hne
    | some l => simp
  | cons r rs => simp

end

/-- A number parser for the examples: an optional sign and one digit. -/
def digit : Str → Option Int
  | ['-', c] => if c.isDigit then some (-((c.toNat : Int) - 48)) else none
  | ['+', c] => if c.isDigit then some ((c.toNat : Int) - 48) else none
  | [c] => if c.isDigit then some ((c.toNat : Int) - 48) else none
  | _ => none

def demo : Statsd.Config Int :=
  { summarizeErrorBound := 0, parseF := digit
    histogramMasks := [(fun n => n.take 1 = ['h'], [5, 1])] }

theorem demo_ascii : demo.AsciiNumbers := by
  intro s h
  have hd : ∀ c : Char, c.isDigit = true → c.utf8Size = 1 := by
    intro c hc
    simp only [Char.isDigit, Bool.and_eq_true, decide_eq_true_eq] at hc
    have : c.val ≤ 127 := Nat.le_trans (UInt32.le_iff_toNat_le.1 hc.2) (by decide)
    simp [Char.utf8Size, this]
  simp only [demo] at h
  match s with
  | [] => simp [digit] at h
  | [c] =>
    refine ⟨c, [], rfl, hd c ?_⟩
    simp only [digit] at h
    by_cases hc : c.isDigit = true
    · exact hc
    · simp [hc] at h
  | '-' :: t => exact ⟨'-', t, rfl, by decide⟩
  | '+' :: t => exact ⟨'+', t, rfl, by decide⟩
  | c :: d :: t =>
    by_cases h1 : c = '-'
    · exact ⟨c, d :: t, rfl, by subst h1; decide⟩
    · by_cases h2 : c = '+'
      · exact ⟨c, d :: t, rfl, by subst h2; decide⟩
      · exfalso
        simp [digit, h1, h2] at h

example : demo.Usable ∧ demo.AsciiNumbers ∧
    (∀ r ∈ [Reading.mk ['a'] ['+', '3'] .gauge none, ⟨['h'], ['7'], .timer, some (true, ['1'])⟩], r.Valid demo) ∧
    (parseStatsd demo 9 "a:+3|g\r\nh:7|ms|@1".toList []).2.map (fun t => (t.name, t.persist, t.kind, t.timestamp)) =
      [(['a'], true, .sum, 9), (['h'], false, .histogram, 9)] := by
  refine ⟨⟨by decide, by decide⟩, demo_ascii, ?_, by decide⟩
  intro r hr
  simp only [List.mem_cons, List.not_mem_nil, or_false] at hr
  rcases hr with rfl | rfl
  · exact ⟨by decide, by decide, by decide, by decide, by simp⟩
  · refine ⟨by decide, by decide, by decide, by decide, ?_⟩
    intro bar rate h
    simp only [Option.some.injEq, Prod.mk.injEq] at h
    rw [← h.2]; decide

/-- **C41 as stated**: what is forwarded is what the accepted packets stand for. -/
def C41Statement (F : Type) [F64 F] : Prop :=
  ∀ (cfg : Statsd.Config F) (ds : List Datagram), cfg.Usable → cfg.AsciiNumbers →
    (handleDatagrams cfg ds []).1 = ds.flatMap (ownPoints cfg)

/-- **C41 is false of the code**: the buffer of points is not cleared when a packet is
rejected, so the points of the lines before the bad one go out with the next accepted
packet of the same batch. -/
theorem C41_rejected_packet_leaks_false : ¬ C41Statement Int := by
  intro h
  have h1 := congrArg (List.map (·.name)) (h demo [⟨some "x:1|c\nbad".toList, 0⟩, ⟨some "y:2|c".toList, 0⟩]
    ⟨by decide, by decide⟩ demo_ascii)
  revert h1
  decide

section
variable {F : Type} [F64 F]

/-- the loop only appends, and a non-empty buffer changes only the verdict on a packet
without lines -/
private theorem parseLines_res (cfg : Config F) (now : Int) (ls : List Str) (res : List (Telemetry F)) :
    ∃ new, (parseLines cfg now ls res).2 = res ++ new ∧ (parseLines cfg now ls []).2 = new ∧
      ((parseLines cfg now ls []).1 = .accepted → (parseLines cfg now ls res).1 = .accepted) ∧
      ((parseLines cfg now ls []).1 = .panicked ↔ (parseLines cfg now ls res).1 = .panicked) ∧
      (res = [] → (parseLines cfg now ls res).1 = (parseLines cfg now ls []).1) := by
  have key : ∀ (ls : List Str) (a b : List (Telemetry F)),
      ∃ new, (parseLines cfg now ls a).2 = a ++ new ∧ (parseLines cfg now ls b).2 = b ++ new ∧
        ((parseLines cfg now ls b).1 = .accepted → (b ≠ [] → a ≠ []) →
          (parseLines cfg now ls a).1 = .accepted) ∧
        ((parseLines cfg now ls b).1 = .panicked ↔ (parseLines cfg now ls a).1 = .panicked) := by
    intro ls
    induction ls with
    | nil =>
      intro a b
      refine ⟨[], by simp [parseLines], by simp [parseLines], ?_, ?_⟩
      · simp only [parseLines]
        cases a <;> cases b <;> simp
      · simp only [parseLines]
        cases a <;> cases b <;> simp
    | cons l ls ih =>
      intro a b
      simp only [parseLines]
      cases hl : parseLine cfg now l with
      | bad => exact ⟨[], by simp, by simp, by simp, by simp⟩
      | panic => exact ⟨[], by simp, by simp, by simp, by simp⟩
      | point t =>
        obtain ⟨new, e1, e2, e3, e4⟩ := ih (a ++ [t]) (b ++ [t])
        exact ⟨t :: new, by simp [e1], by simp [e2], fun h _ => e3 h (by simp), e4⟩
  obtain ⟨new, e1, e2, e3, e4⟩ := key ls res []
  exact ⟨new, e1, by simpa using e2, fun h => e3 h (by simp), e4, by rintro rfl; rfl⟩

/-- **C41 (part).**  If the packets of a batch that are rejected are rejected at their first
line, nothing of them is forwarded and exactly the points of the accepted packets are, in
order.  Missing from the full statement: packets rejected at a later line. -/
theorem C41_rejected_at_first_line_partial (cfg : Config F) (ds : List Datagram) (hu : cfg.Usable)
    (ha : cfg.AsciiNumbers)
    (hf : ∀ d ∈ ds, ∀ text, d.text = some text → (parseStatsd cfg d.now text []).1 = .rejected →
      (parseStatsd cfg d.now text []).2 = []) :
    handleDatagrams cfg ds [] = (ds.flatMap (ownPoints cfg), true) := by
  induction ds with
  | nil => rfl
  | cons d ds ih =>
    have ih := ih (fun x hx => hf x (by simp [hx]))
    simp only [handleDatagrams, List.flatMap_cons, ownPoints]
    cases ht : d.text with
    | none => simpa using ih
    | some text =>
      simp only
      have hf := hf d (by simp) text ht
      have hnp := parseLines_no_panic cfg d.now hu ha (lines text) []
      rcases hp : parseStatsd cfg d.now text [] with ⟨v, pts⟩
      rw [hp] at hf
      simp only [parseStatsd] at hp
      rw [hp] at hnp
      cases v with
      | accepted => simp [ih]
      | rejected =>
        simp only at hf ⊢
        rw [hf trivial]
        simpa using ih
      | panicked => exact absurd rfl hnp

/-- **C41 (part)**: whatever leaks, nothing of the accepted packets is lost or reordered. -/
theorem C41_accepted_forwarded_partial (cfg : Config F) (ds : List Datagram) (hu : cfg.Usable)
    (ha : cfg.AsciiNumbers) :
    (ds.flatMap (ownPoints cfg)).Sublist (handleDatagrams cfg ds []).1 := by
  have key : ∀ (ds : List Datagram) (res : List (Telemetry F)),
      (ds.flatMap (ownPoints cfg)).Sublist (handleDatagrams cfg ds res).1 := by
    intro ds
    induction ds with
    | nil => intro res; simp
    | cons d ds ih =>
      intro res
      simp only [handleDatagrams, List.flatMap_cons, ownPoints]
      cases ht : d.text with
      | none => simpa using ih res
      | some text =>
        simp only
        obtain ⟨new, e1, e2, e3, e4, -⟩ := parseLines_res cfg d.now (lines text) res
        have hnp := parseLines_no_panic cfg d.now hu ha (lines text) res
        simp only [parseStatsd]
        rcases hp : parseLines cfg d.now (lines text) [] with ⟨v, pts⟩
        rcases hq : parseLines cfg d.now (lines text) res with ⟨v', pts'⟩
        simp only [hp, hq] at e1 e2 e3 e4 hnp
        subst e1 e2
        cases v with
        | accepted =>
          rw [e3 rfl]
          exact ((List.sublist_append_right res pts).append (ih []))
        | rejected =>
          cases v' with
          | accepted => exact (ih []).trans (List.sublist_append_right _ _)
          | rejected => simpa using ih _
          | panicked => exact absurd rfl hnp
        | panicked => exact absurd (e4.1 rfl) hnp
  exact key ds []

private theorem parseLines_exact (cfg : Config F) (now : Int) (hu : cfg.Usable) (ha : cfg.AsciiNumbers) :
    ∀ (ls : List Str) (res : List (Telemetry F)),
    (parseLines cfg now ls res).2 = res ++ pointsBefore cfg now ls ∧
    ((parseLines cfg now ls res).1 = .accepted ↔ (∀ l ∈ ls, ∃ t, parseLine cfg now l = .point t) ∧ (res ≠ [] ∨ ls ≠ [])) := by
  intro ls
  induction ls with
  | nil => intro res; cases res <;> simp [parseLines, pointsBefore]
  | cons l ls ih =>
    intro res
    simp only [parseLines]
    cases h : parseLine cfg now l with
    | bad => simp [pointsBefore, h]
    | panic => simp [pointsBefore, h]
    | point t =>
      obtain ⟨h1, h2⟩ := ih (res ++ [t])
      refine ⟨by simp [h1, pointsBefore, h], ?_⟩
      rw [h2]
      simp [h]

/-- **C41 (part)**, exactly what is forwarded: of every datagram the points of the lines before its first bad one, up to a last datagram
without bad lines; after that one no datagram is accepted and nothing is forwarded. -/
theorem C41_exact_partial (cfg : Config F) (ds : List Datagram) (hu : cfg.Usable) (ha : cfg.AsciiNumbers) :
    ∃ forwarded after, ds = forwarded ++ after ∧
      handleDatagrams cfg ds [] = (forwarded.flatMap (goodPoints cfg), true) ∧
      (∀ d ∈ after, ownPoints cfg d = []) ∧
      (∀ init d, forwarded = init ++ [d] → allGood cfg d) := by
  suffices key : ∀ (ds : List Datagram) (res : List (Telemetry F)),
      (handleDatagrams cfg ds res = ([], true) ∧ ∀ d ∈ ds, ownPoints cfg d = []) ∨
      ∃ forwarded after, ds = forwarded ++ after ∧ forwarded ≠ [] ∧
        handleDatagrams cfg ds res = (res ++ forwarded.flatMap (goodPoints cfg), true) ∧
        (∀ d ∈ after, ownPoints cfg d = []) ∧
        (∀ init d, forwarded = init ++ [d] → allGood cfg d) by
    rcases key ds [] with ⟨h1, h2⟩ | ⟨f, a, h1, _, h2, h3, h4⟩
    · exact ⟨[], ds, rfl, h1, h2, by simp⟩
    · exact ⟨f, a, h1, by simpa using h2, h3, h4⟩
  intro ds
  induction ds with
  | nil => intro res; exact Or.inl ⟨rfl, by simp⟩
  | cons d ds ih =>
    intro res
    cases ht : d.text with
    | none =>
      have e : handleDatagrams cfg (d :: ds) res = handleDatagrams cfg ds res := by simp [handleDatagrams, ht]
      have ho : ownPoints cfg d = [] := by simp [ownPoints, ht]
      have hg : goodPoints cfg d = [] := by simp [goodPoints, ht]
      rw [e]
      rcases ih res with ⟨h1, h2⟩ | ⟨f, a, h1, h0, h2, h3, h4⟩
      · exact Or.inl ⟨h1, by simp only [List.mem_cons, forall_eq_or_imp]; exact ⟨ho, h2⟩⟩
      · refine Or.inr ⟨d :: f, a, by rw [h1]; rfl, by simp, by rw [h2, List.flatMap_cons, hg]; rfl, h3, fun init x hx => ?_⟩
        cases init with
        | nil => simp only [List.nil_append, List.cons.injEq] at hx; exact absurd hx.2 h0
        | cons y init => exact h4 init x (List.cons.inj hx).2
    | some text =>
      obtain ⟨e1, e2⟩ := parseLines_exact cfg d.now hu ha (lines text) res
      obtain ⟨o1, o2⟩ := parseLines_exact cfg d.now hu ha (lines text) []
      have hnp := parseLines_no_panic cfg d.now hu ha (lines text) res
      have hg : goodPoints cfg d = pointsBefore cfg d.now (lines text) := by simp only [goodPoints, ht]
      simp only [handleDatagrams, ht, parseStatsd]
      rcases hq : parseLines cfg d.now (lines text) res with ⟨v, ms⟩
      rw [hq] at e1 e2 hnp
      simp only at e1 e2 hnp
      cases v with
      | panicked => exact absurd rfl hnp
      | accepted =>
        have hall : allGood cfg d := ⟨text, ht, (e2.1 rfl).1⟩
        refine Or.inr ?_
        rcases ih [] with ⟨h1, h2⟩ | ⟨f, a, h1, h0, h2, h3, h4⟩
        · refine ⟨[d], ds, rfl, by simp, by simp [h1, e1, hg], h2, fun init x hx => ?_⟩
          cases init with
          | nil => simp only [List.nil_append, List.cons.injEq, and_true] at hx; rw [← hx]; exact hall
          | cons y init => simp at hx
        · refine ⟨d :: f, a, by rw [h1]; rfl, by simp, by simp [h2, e1, hg], h3, fun init x hx => ?_⟩
          cases init with
          | nil => simp only [List.nil_append, List.cons.injEq] at hx; exact absurd hx.2 h0
          | cons y init => exact h4 init x (List.cons.inj hx).2
      | rejected =>
        have ho : ownPoints cfg d = [] := by
          simp only [ownPoints, ht, parseStatsd]
          split
          · next pts hp =>
            rw [hp] at o2
            exfalso
            have h := o2.1 rfl
            have h' := e2.2 ⟨h.1, Or.inr (by simpa using h.2)⟩
            cases h'
          · rfl
        simp only
        rcases ih ms with ⟨h1, h2⟩ | ⟨f, a, h1, h0, h2, h3, h4⟩
        · exact Or.inl ⟨h1, by simp only [List.mem_cons, forall_eq_or_imp]; exact ⟨ho, h2⟩⟩
        · refine Or.inr ⟨d :: f, a, by rw [h1]; rfl, by simp, by rw [h2, e1]; simp [hg], h3, fun init x hx => ?_⟩
          cases init with
          | nil => simp only [List.nil_append, List.cons.injEq] at hx; exact absurd hx.2 h0
          | cons y init => exact h4 init x (List.cons.inj hx).2

/-- **C69**: with a usable configuration no datagram, whatever it contains, brings the
source down. -/
theorem C69_no_panic_partial (cfg : Config F) (ds : List Datagram) (hu : cfg.Usable)
    (ha : cfg.AsciiNumbers) : (handleDatagrams cfg ds []).2 = true := by
  have key : ∀ (ds : List Datagram) (res : List (Telemetry F)), (handleDatagrams cfg ds res).2 = true := by
    intro ds
    induction ds with
    | nil => intro res; rfl
    | cons d ds ih =>
      intro res
      simp only [handleDatagrams]
      cases d.text with
      | none => exact ih res
      | some text =>
        have hnp := parseLines_no_panic cfg d.now hu ha (lines text) res
        simp only [parseStatsd]
        rcases hq : parseLines cfg d.now (lines text) res with ⟨v', pts'⟩
        rw [hq] at hnp
        cases v' with
        | accepted => exact ih []
        | rejected => exact ih _
        | panicked => exact absurd rfl hnp
  exact key ds []

private theorem typed_noPoint (cfg : Config F) (now : Int) (r : Reading) (x : F) (signed : Bool) :
    (∃ e, (typed cfg now r x signed).harden now = .error e) ↔ r.NoPoint cfg := by
  obtain ⟨name, value, ty, rate⟩ := r
  have htimer : (∃ e, (timer cfg name (base now name x)).harden now = .error e) ↔
      match cfg.histogramMasks.find? fun mb => mb.1 name with
      | some mb => F64.histNew (F64.sort mb.2) = none
      | none => F64.ge cfg.summarizeErrorBound (F64.ofNat 1) = true := by
    cases hf : cfg.histogramMasks.find? fun mb => mb.1 name with
    | none =>
      simp only [timer, hf]
      cases hge : F64.ge cfg.summarizeErrorBound (F64.ofNat 1) <;>
        simp [SoftTelemetry.harden, base, Telemetry.default, Telemetry.thaw, SoftTelemetry.setValue, hge]
    | some mb =>
      obtain ⟨mask, bounds⟩ := mb
      simp only [timer, hf]
      cases hn : F64.histNew (F64.sort bounds) <;>
        simp [SoftTelemetry.harden, base, Telemetry.default, Telemetry.thaw, SoftTelemetry.setValue, SoftTelemetry.setBounds, hn]
  cases ty with
  | counter =>
    simp [typed, Reading.NoPoint, SoftTelemetry.harden, base, Telemetry.default, Telemetry.thaw, SoftTelemetry.setValue]
  | gauge =>
    cases signed <;>
      simp [typed, Reading.NoPoint, SoftTelemetry.harden, base, Telemetry.default, Telemetry.thaw, SoftTelemetry.setValue]
  | timer =>
    simp only [typed, Reading.NoPoint, true_or, true_and]
    exact htimer
  | histogram =>
    simp only [typed, Reading.NoPoint, or_true, true_and]
    exact htimer

/-- **C69 (exact, a line).**  A line panics the source exactly if it is a valid reading of a timer
or histogram for which the configuration has no point; with any configuration. -/
theorem C69_exact_line_partial (cfg : Config F) (now : Int) (ha : cfg.AsciiNumbers) (src : Str) :
    parseLine cfg now src = .panic ↔ ∃ r : Reading, r.Valid cfg ∧ src = r.text ∧ r.NoPoint cfg := by
  constructor
  · intro h
    obtain ⟨r, hv, rfl⟩ := parseLine_point cfg now src ha (by simp [h])
    refine ⟨r, hv, rfl, ?_⟩
    obtain ⟨x, -, e2⟩ := parseLine_text cfg now r hv ha
    rw [e2] at h
    rw [← typed_noPoint cfg now r x (decide (r.value.head? = some '+' ∨ r.value.head? = some '-'))]
    split at h
    · cases h
    · next e he => exact ⟨e, he⟩
  · rintro ⟨r, hv, rfl, hn⟩
    obtain ⟨x, -, e2⟩ := parseLine_text cfg now r hv ha
    obtain ⟨e, he⟩ := (typed_noPoint cfg now r x (decide (r.value.head? = some '+' ∨ r.value.head? = some '-'))).2 hn
    rw [e2, he]

/-- **C69 (exact).**  With any configuration, a batch of datagrams brings the source down exactly
if one of them has such a line after nothing but valid readings that the configuration has points
for.  Missing for C69: that there are no such lines (`C69_error_bound_false`). -/
theorem C69_exact_partial (cfg : Config F) (ds : List Datagram) (ha : cfg.AsciiNumbers) :
    (handleDatagrams cfg ds []).2 = false ↔
      ∃ d ∈ ds, ∃ text, d.text = some text ∧
        ∃ (rs : List Reading) (r : Reading) (post : List Str),
          lines text = rs.map Reading.text ++ r.text :: post ∧
          (∀ q ∈ rs, q.Valid cfg ∧ ¬ q.NoPoint cfg) ∧ r.Valid cfg ∧ r.NoPoint cfg := by
  have hlines : ∀ (now : Int) (ls : List Str) (res : List (Telemetry F)),
      (parseLines cfg now ls res).1 = .panicked ↔
        ∃ (rs : List Reading) (r : Reading) (post : List Str),
          ls = rs.map Reading.text ++ r.text :: post ∧
          (∀ q ∈ rs, q.Valid cfg ∧ ¬ q.NoPoint cfg) ∧ r.Valid cfg ∧ r.NoPoint cfg := by
    intro now ls
    induction ls with
    | nil =>
      intro res
      simp only [parseLines]
      constructor
      · split <;> simp
      · rintro ⟨rs, r, post, h, -⟩
        cases rs <;> simp at h
    | cons l ls ih =>
      intro res
      simp only [parseLines]
      cases hl : parseLine cfg now l with
      | bad =>
        simp only [false_iff, not_exists, not_and, reduceCtorEq]
        intro rs r post h hrs hv hn
        cases rs with
        | nil =>
          simp only [List.map_nil, List.nil_append, List.cons.injEq] at h
          have := (C69_exact_line_partial cfg now ha l).2 ⟨r, hv, h.1, hn⟩
          rw [hl] at this; cases this
        | cons q rs =>
          simp only [List.map_cons, List.cons_append, List.cons.injEq] at h
          obtain ⟨x, -, e2⟩ := parseLine_text cfg now q (hrs q (by simp)).1 ha
          rw [← h.1, hl] at e2
          split at e2 <;> cases e2
      | panic =>
        simp only [true_iff]
        obtain ⟨r, hv, e, hn⟩ := (C69_exact_line_partial cfg now ha l).1 hl
        exact ⟨[], r, ls, by simp [e], by simp, hv, hn⟩
      | point t =>
        simp only
        rw [ih]
        have hnp : ∀ q : Reading, q.Valid cfg → l = q.text → ¬ q.NoPoint cfg := by
          intro q hv e hn
          have := (C69_exact_line_partial cfg now ha l).2 ⟨q, hv, e, hn⟩
          rw [hl] at this; cases this
        constructor
        · rintro ⟨rs, r, post, h, hrs, hv, hn⟩
          obtain ⟨q, q1, q2⟩ := parseLine_point cfg now l ha (by simp [hl])
          refine ⟨q :: rs, r, post, by simp [h, q2], ?_, hv, hn⟩
          intro q' hq'
          rcases List.mem_cons.1 hq' with rfl | hq'
          · exact ⟨q1, hnp _ q1 q2⟩
          · exact hrs q' hq'
        · rintro ⟨rs, r, post, h, hrs, hv, hn⟩
          cases rs with
          | nil =>
            simp only [List.map_nil, List.nil_append, List.cons.injEq] at h
            exact absurd hn (hnp r hv h.1)
          | cons q rs =>
            simp only [List.map_cons, List.cons_append, List.cons.injEq] at h
            exact ⟨rs, r, post, h.2, fun q' hq' => hrs q' (by simp [hq']), hv, hn⟩
  have key : ∀ (ds : List Datagram) (res : List (Telemetry F)),
      (handleDatagrams cfg ds res).2 = false ↔
        ∃ d ∈ ds, ∃ text, d.text = some text ∧
          ∃ (rs : List Reading) (r : Reading) (post : List Str),
            lines text = rs.map Reading.text ++ r.text :: post ∧
            (∀ q ∈ rs, q.Valid cfg ∧ ¬ q.NoPoint cfg) ∧ r.Valid cfg ∧ r.NoPoint cfg := by
    intro ds
    induction ds with
    | nil => intro res; simp [handleDatagrams]
    | cons d ds ih =>
      intro res
      simp only [handleDatagrams, List.mem_cons, exists_eq_or_imp]
      cases ht : d.text with
      | none => simp only [ih res, reduceCtorEq, false_and, exists_false, false_or]
      | some text =>
        simp only [Option.some.injEq, exists_eq_left', parseStatsd]
        rw [← hlines d.now (lines text) res]
        rcases hq : parseLines cfg d.now (lines text) res with ⟨v, pts⟩
        cases v with
        | accepted => simpa using ih []
        | rejected => simpa using ih pts
        | panicked => simp
  exact key ds []

example : (Reading.mk ['h'] ['1'] .timer none).NoPoint { demo with summarizeErrorBound := 1, histogramMasks := [] } ∧
    (Reading.mk ['h'] ['1'] .timer none).Valid { demo with summarizeErrorBound := 1, histogramMasks := [] } ∧
    (handleDatagrams { demo with summarizeErrorBound := 1 } [⟨some "t:1|c\nt:1|ms".toList, 0⟩] []).2 = false ∧
    (handleDatagrams { demo with summarizeErrorBound := 1 } [⟨some "t:1|c\nh:1|ms\nt:1|x\nt:1|ms".toList, 0⟩] []).2 = true := by
  refine ⟨?_, ⟨by decide, by decide, by decide, by decide, by simp⟩, by decide, by decide⟩
  exact ⟨Or.inl rfl, (by decide : F64.ge (1 : Int) (F64.ofNat 1) = true)⟩

/-- **C69 is false of the code for some configurations it accepts**: with an error bound of
one or more, every well-formed timer without a mapping panics the source: a datagram that starts with one is the last one the
source looks at, and nothing of it is sent. -/
theorem C69_error_bound_false (cfg : Config F) (now : Int) (ha : cfg.AsciiNumbers)
    (hb : F64.ge cfg.summarizeErrorBound (F64.ofNat 1) = true) (r : Reading) (hv : r.Valid cfg)
    (ht : r.ty = .timer) (hm : ∀ mb ∈ cfg.histogramMasks, mb.1 r.name = false) :
    parseLine cfg now r.text = .panic ∧
    ∀ (text : Str) (ls : List Str) (ds : List Datagram) (res : List (Telemetry F)), lines text = r.text :: ls →
      handleDatagrams cfg (⟨some text, now⟩ :: ds) res = ([], false) := by
  obtain ⟨x, e1, e2⟩ := parseLine_text cfg now r hv ha
  have hf : cfg.histogramMasks.find? (fun mb => mb.1 r.name) = none := by
    rw [List.find?_eq_none]
    intro mb hmb
    simp [hm mb hmb]
  have hp : parseLine cfg now r.text = .panic := by
    rw [e2]
    simp only [typed, ht, timer, hf]
    simp [SoftTelemetry.harden, base, Telemetry.default, Telemetry.thaw, SoftTelemetry.setValue, hb]
  refine ⟨hp, ?_⟩
  intro text ls ds res hl
  simp [handleDatagrams, parseStatsd, hl, parseLines, hp]

end

/-- What goes out with an accepted packet, and what a batch keeps to itself. -/
example : (handleDatagrams demo [⟨some "x:1|c\nbad\nz:1|c".toList, 0⟩, ⟨none, 0⟩, ⟨some "y:2|c".toList, 0⟩, ⟨some "v:1|c\n:".toList, 0⟩] []).1.map (·.name) =
    ["x".toList, "y".toList] := by decide

example : (handleDatagrams { demo with summarizeErrorBound := 1 } [⟨some "t:1|ms".toList, 0⟩] []).2 = false := by
  decide

end Verif
