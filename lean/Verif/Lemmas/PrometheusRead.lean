import Verif.Spec.PrometheusText
import Verif.Lemmas.PrometheusText
/-!
# Reading the exposition text back
-/
namespace Verif
namespace Prometheus
section
variable {F : Type} [F64 F]

theorem span_append {p : Char → Bool} (a b : Str) (ha : ∀ c ∈ a, p c = true) (hb : ∀ c, b.head? = some c → p c = false) :
    (a ++ b).takeWhile p = a ∧ (a ++ b).dropWhile p = b := by
  induction a with
  | nil =>
    cases b with
    | nil => exact ⟨rfl, rfl⟩
    | cons c b => simp [List.takeWhile_cons, List.dropWhile_cons, hb c rfl]
  | cons x a ih =>
    obtain ⟨i1, i2⟩ := ih fun c hc => ha c (List.mem_cons_of_mem _ hc)
    simp [List.takeWhile_cons, List.dropWhile_cons, ha x (List.mem_cons_self ..), i1, i2]

/-- All but the opening brace of the labels. -/
def tailText (kv : Str × Str) (rest : List (Str × Str)) : Str :=
  kvText kv ++ (rest.flatMap fun kv => [',', ' '] ++ kvText kv) ++ ['}']

theorem readLabels_text : ∀ (rest : List (Str × Str)) (kv : Str × Str) (fuel : Nat) (after : Str), rest.length < fuel →
    CleanTag kv → (∀ x ∈ rest, CleanTag x) → readLabels fuel (tailText kv rest ++ after) = some (kv :: rest, after) := by
  intro rest
  induction rest with
  | nil =>
    intro kv fuel after hf hk _
    obtain ⟨fuel, rfl⟩ : ∃ n, fuel = n + 1 := ⟨fuel - 1, by simp at hf; omega⟩
    have e : tailText kv [] ++ after = kv.1 ++ '=' :: '"' :: (kv.2 ++ '"' :: '}' :: after) := by simp [tailText, kvText]
    rw [e]
    obtain ⟨a1, a2⟩ := span_append (p := fun c => decide (c ≠ '=')) kv.1 ('=' :: '"' :: (kv.2 ++ '"' :: '}' :: after))
      (fun c hc => by simp; rintro rfl; exact hk.1 hc) (fun c hc => by simp at hc; simp [← hc])
    obtain ⟨b1, b2⟩ := span_append (p := fun c => decide (c ≠ '"')) kv.2 ('"' :: '}' :: after)
      (fun c hc => by simp; rintro rfl; exact hk.2.2.1 hc) (fun c hc => by simp at hc; simp [← hc])
    simp only [readLabels, a1, a2, b1, b2]
  | cons x rest ih =>
    intro kv fuel after hf hk hr
    obtain ⟨fuel, rfl⟩ : ∃ n, fuel = n + 1 := ⟨fuel - 1, by simp at hf; omega⟩
    have e : tailText kv (x :: rest) ++ after = kv.1 ++ '=' :: '"' :: (kv.2 ++ '"' :: ',' :: ' ' :: (tailText x rest ++ after)) := by
      simp [tailText, kvText]
    rw [e]
    obtain ⟨a1, a2⟩ := span_append (p := fun c => decide (c ≠ '=')) kv.1 ('=' :: '"' :: (kv.2 ++ '"' :: ',' :: ' ' :: (tailText x rest ++ after)))
      (fun c hc => by simp; rintro rfl; exact hk.1 hc) (fun c hc => by simp at hc; simp [← hc])
    obtain ⟨b1, b2⟩ := span_append (p := fun c => decide (c ≠ '"')) kv.2 ('"' :: ',' :: ' ' :: (tailText x rest ++ after))
      (fun c hc => by simp; rintro rfl; exact hk.2.2.1 hc) (fun c hc => by simp at hc; simp [← hc])
    simp only [readLabels, a1, a2, b1, b2]
    rw [ih x fuel after (by simp only [List.length_cons] at hf; omega) (hr x (List.mem_cons_self ..)) (fun y hy => hr y (List.mem_cons_of_mem _ hy))]
    rfl

/-- A line that can be read back. -/
def CleanLine (ext : Ext F) : Line F → Prop
  | .type name tname => (∀ c ∈ name, NameChar c) ∧ '\n' ∉ tname
  | .sample name labels v => (∀ c ∈ name, NameChar c) ∧ (∀ kv ∈ labels, CleanTag kv) ∧
    match v with | .nat n => '\n' ∉ ext.showN n | .real x => '\n' ∉ ext.showF x

theorem nameChar_ne {c d : Char} (h : NameChar c) (hd : ¬ NameChar d) : c ≠ d := fun e => hd (e ▸ h)

theorem not_nameChar : ¬ NameChar ' ' ∧ ¬ NameChar '{' ∧ ¬ NameChar '#' ∧ ¬ NameChar '\n' := by
  refine ⟨?_, ?_, ?_, ?_⟩ <;> simp only [NameChar] <;> decide

/-- The text of a line without its line feed. -/
def Line.bare (ext : Ext F) : Line F → Str
  | .type name tname => ['#', ' ', 'T', 'Y', 'P', 'E', ' '] ++ name ++ ' ' :: tname
  | .sample name labels v => name ++ labelsText labels ++ ' ' :: (match v with | .nat n => ext.showN n | .real x => ext.showF x)

theorem text_bare (ext : Ext F) (l : Line F) : Line.text ext l = l.bare ext ++ ['\n'] := by
  cases l with
  | type name tname => simp [Line.text, Line.bare]
  | sample name labels v => cases v <;> simp [Line.text, Line.bare]

theorem bare_clean (ext : Ext F) (l : Line F) (h : CleanLine ext l) : '\n' ∉ l.bare ext := by
  have hn : ∀ name : Str, (∀ c ∈ name, NameChar c) → '\n' ∉ name := fun name hc hm => not_nameChar.2.2.2 (hc _ hm)
  have hkv : ∀ kv : Str × Str, CleanTag kv → '\n' ∉ kvText kv := by
    intro kv hk
    simp [kvText, hk.2.1, hk.2.2.2]
  cases l with
  | type name tname =>
    have h1 := hn name h.1
    have h2 := h.2
    simp [Line.bare, h1, h2]
  | sample name labels v =>
    have h1 := hn name h.1
    have h3 : '\n' ∉ labelsText labels := by
      cases labels with
      | nil => simp [labelsText]
      | cons kv rest =>
        have h5 := hkv kv (h.2.1 kv (List.mem_cons_self ..))
        simp only [labelsText, List.cons_append, List.mem_cons, List.mem_append, List.mem_flatMap, List.not_mem_nil, or_false, not_or, not_exists, not_and]
        refine ⟨by decide, ⟨h5, fun x hx => ?_⟩, by decide⟩
        simp [hkv x (h.2.1 x (List.mem_cons_of_mem _ hx))]
    have h4 : '\n' ∉ (match v with | .nat n => ext.showN n | .real x => ext.showF x) := by
      have := h.2.2
      cases v <;> exact this
    simp only [Line.bare, List.mem_append, List.mem_cons, not_or]
    exact ⟨⟨h1, h3⟩, by decide, h4⟩

theorem readLine_bare (ext : Ext F) (l : Line F) (h : CleanLine ext l) : readLine (l.bare ext) = some (see ext l) := by
  cases l with
  | type name tname =>
    have e : (Line.type name tname : Line F).bare ext = "# TYPE ".toList ++ (name ++ ' ' :: tname) := by simp [Line.bare]
    rw [e]
    have t : ("# TYPE ".toList ++ (name ++ ' ' :: tname)).take 7 = "# TYPE ".toList := by simp
    have d : ("# TYPE ".toList ++ (name ++ ' ' :: tname)).drop 7 = name ++ ' ' :: tname := by simp
    obtain ⟨a1, a2⟩ := span_append (p := fun c => decide (c ≠ ' ')) name (' ' :: tname)
      (fun c hc => by simpa using nameChar_ne (h.1 c hc) not_nameChar.1) (fun c hc => by simp at hc; simp [← hc])
    simp only [readLine, t, d, if_true, a1, a2, see]
  | sample name labels v =>
    have key : ∀ val : Str, readLine (name ++ labelsText labels ++ ' ' :: val) = some (.sample name labels val) := by
      intro val
      have hne : (name ++ labelsText labels ++ ' ' :: val).take 7 ≠ "# TYPE ".toList := by
        have : (name ++ labelsText labels ++ ' ' :: val).head? ≠ some '#' := by
          cases name with
          | nil => cases labels <;> simp [labelsText]
          | cons c name =>
            simp only [List.cons_append, List.head?_cons, ne_eq, Option.some.injEq]
            exact nameChar_ne (h.1 c (List.mem_cons_self ..)) not_nameChar.2.2.1
        intro e
        apply this
        cases hs : (name ++ labelsText labels ++ ' ' :: val) with
        | nil => rw [hs] at e; simp at e
        | cons c s =>
          rw [hs] at e
          have := congrArg List.head? e
          simpa using this
      have hp : ∀ c ∈ name, decide (c ≠ '{' ∧ c ≠ ' ') = true := fun c hc => by
        simpa using ⟨nameChar_ne (h.1 c hc) not_nameChar.2.1, nameChar_ne (h.1 c hc) not_nameChar.1⟩
      cases labels with
      | nil =>
        obtain ⟨a1, a2⟩ := span_append (p := fun c => decide (c ≠ '{' ∧ c ≠ ' ')) name (' ' :: val) hp (fun c hc => by simp at hc; simp [← hc])
        simp only [labelsText, List.append_nil] at hne ⊢
        simp only [readLine, hne, if_false, a1, a2]
      | cons kv rest =>
        have e : name ++ labelsText (kv :: rest) ++ ' ' :: val = name ++ '{' :: (tailText kv rest ++ ' ' :: val) := by
          simp [labelsText, tailText]
        rw [e] at hne ⊢
        obtain ⟨a1, a2⟩ := span_append (p := fun c => decide (c ≠ '{' ∧ c ≠ ' ')) name ('{' :: (tailText kv rest ++ ' ' :: val)) hp
          (fun c hc => by simp at hc; simp [← hc])
        have hl := readLabels_text rest kv (tailText kv rest ++ ' ' :: val).length (' ' :: val) (by
            have : ∀ rest : List (Str × Str), rest.length ≤ (rest.flatMap fun kv => [',', ' '] ++ kvText kv).length := by
              intro rest
              induction rest with
              | nil => simp
              | cons x rest ih => simp only [List.flatMap_cons, List.length_append, List.length_cons]; omega
            have := this rest
            simp only [tailText, List.length_append, List.length_cons]
            omega)
          (h.2.1 kv (List.mem_cons_self ..)) (fun x hx => h.2.1 x (List.mem_cons_of_mem _ hx))
        simp only [readLine, hne, if_false, a1, a2, hl]
    cases v with
    | nat n => exact key _
    | real x => exact key _

theorem readText_lines (ext : Ext F) : ∀ (ls : List (Line F)) (fuel : Nat), ls.length ≤ fuel → (∀ l ∈ ls, CleanLine ext l) →
    readText fuel (ls.flatMap (Line.text ext)) = some (ls.map (see ext)) := by
  intro ls
  induction ls with
  | nil => intro fuel _ _; cases fuel <;> rfl
  | cons l ls ih =>
    intro fuel hf hc
    obtain ⟨fuel, rfl⟩ : ∃ n, fuel = n + 1 := ⟨fuel - 1, by simp at hf; omega⟩
    have e : (l :: ls).flatMap (Line.text ext) = l.bare ext ++ '\n' :: ls.flatMap (Line.text ext) := by
      simp [text_bare]
    have hl := hc l (List.mem_cons_self ..)
    obtain ⟨a1, a2⟩ := span_append (p := fun c => decide (c ≠ '\n')) (l.bare ext) ('\n' :: ls.flatMap (Line.text ext))
      (fun c hm => by simp; rintro rfl; exact bare_clean ext l hl hm) (fun c hm => by simp at hm; simp [← hm])
    have hi := ih fuel (by simp only [List.length_cons] at hf; omega) (fun x hx => hc x (List.mem_cons_of_mem _ hx))
    have hne : (l.bare ext ++ '\n' :: ls.flatMap (Line.text ext)) ≠ [] := by simp
    rw [e]
    cases hs : l.bare ext ++ '\n' :: ls.flatMap (Line.text ext) with
    | nil => exact absurd hs hne
    | cons c s =>
      rw [hs] at a1 a2
      simp only [readText, a1, a2, readLine_bare ext l hl, hi, List.map_cons]

theorem text_length (ext : Ext F) (ls : List (Line F)) : ls.length ≤ (ls.flatMap (Line.text ext)).length := by
  induction ls with
  | nil => simp
  | cons l ls ih => simp only [List.flatMap_cons, List.length_append, List.length_cons, text_bare]; simp only [List.length_nil]; omega

end
end Prometheus
end Verif
