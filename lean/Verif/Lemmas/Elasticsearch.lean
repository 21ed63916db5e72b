import Verif.Spec.Elasticsearch
import Verif.Lemmas.Tags
namespace Verif
namespace Elastic

/-- What a list of answers does to one waiting line. -/
def age (limit : Nat) (items : List Item) (l : Line) : Option Line :=
  if said true l.uuid items = 0 ∧ (limit < 255 → l.attempts + said false l.uuid items ≤ limit) then
    some { l with attempts := (l.attempts + said false l.uuid items) % 256 }
  else none

theorem said_cons (ok : Bool) (u : Nat) (it : Item) (its : List Item) :
    said ok u (it :: its) = said ok u its + (if it = ⟨ok, some u⟩ then 1 else 0) := by
  simp [said, List.countP_cons]

theorem said_append (ok : Bool) (u : Nat) (a b : List Item) :
    said ok u (a ++ b) = said ok u a + said ok u b := by
  simp [said]

theorem age_nil (limit : Nat) (hl : limit ≤ 255) (l : Line) (h : l.attempts ≤ limit) : age limit [] l = some l := by
  have : l.attempts % 256 = l.attempts := Nat.mod_eq_of_lt (by omega)
  simp [age, said, h, this]

theorem age_append (limit : Nat) (a b : List Item) (l : Line) :
    (age limit a l).bind (age limit b) = age limit (a ++ b) l := by
  by_cases h : said true l.uuid a = 0 ∧ (limit < 255 → l.attempts + said false l.uuid a ≤ limit)
  · simp only [age, if_pos h, Option.bind_some, said_append]
    by_cases h2 : said true l.uuid b = 0 ∧
        (limit < 255 → (l.attempts + said false l.uuid a) % 256 + said false l.uuid b ≤ limit)
    · rw [if_pos h2, if_pos (by omega)]
      congr 2; omega
    · rw [if_neg h2, if_neg (by omega)]
  · simp only [age, if_neg h, Option.bind_none, said_append]
    rw [if_neg (by omega)]

theorem position_none : ∀ (b : List Line) (u : Nat), (∀ l ∈ b, l.uuid ≠ u) → position b u = b.length
  | [], _, _ => rfl
  | l :: b, u, h => by
    rw [position, if_neg (h l (List.mem_cons_self ..)),
      position_none b u (fun x hx => h x (List.mem_cons_of_mem _ hx))]
    rfl

theorem position_split : ∀ (A B : List Line) (l : Line), (∀ x ∈ A, x.uuid ≠ l.uuid) →
    position (A ++ l :: B) l.uuid = A.length
  | [], _, l, _ => by simp [position]
  | a :: A, B, l, h => by
    rw [List.cons_append, position, if_neg (h a (List.mem_cons_self ..)),
      position_split A B l (fun x hx => h x (List.mem_cons_of_mem _ hx))]
    rfl

/-- Ids are distinct. -/
def Distinct (b : List Line) : Prop := (b.map (·.uuid)).Nodup

theorem split_at (b : List Line) (u : Nat) (h : ∃ l ∈ b, l.uuid = u) :
    ∃ A l B, b = A ++ l :: B ∧ l.uuid = u ∧ ∀ x ∈ A, x.uuid ≠ u := by
  induction b with
  | nil => obtain ⟨l, hl, _⟩ := h; simp at hl
  | cons a b ih =>
    by_cases ha : a.uuid = u
    · exact ⟨[], a, b, rfl, ha, by simp⟩
    · obtain ⟨l, hl, hu⟩ := h
      rcases List.mem_cons.mp hl with rfl | hl
      · exact absurd hu ha
      · obtain ⟨A, l, B, e, h1, h2⟩ := ih ⟨l, hl, hu⟩
        refine ⟨a :: A, l, B, by rw [e]; rfl, h1, fun x hx => ?_⟩
        rcases List.mem_cons.mp hx with rfl | hx
        · exact ha
        · exact h2 x hx

theorem age_other (limit : Nat) (hl : limit ≤ 255) (it : Item) (u : Nat) (hid : it.id = some u) (l : Line)
    (ha : l.attempts ≤ limit) (h : l.uuid ≠ u) : age limit [it] l = some l := by
  have h1 : ∀ ok, said ok l.uuid [it] = 0 := by
    intro ok
    rw [said_cons, if_neg]
    · rfl
    · intro e
      rw [e] at hid
      simp only [Option.some.injEq] at hid
      exact h hid
  have : l.attempts % 256 = l.attempts := Nat.mod_eq_of_lt (by omega)
  simp [age, h1, ha, this]

theorem filterMap_age_other (limit : Nat) (hl : limit ≤ 255) (it : Item) (u : Nat) (hid : it.id = some u) :
    ∀ b : List Line, (∀ l ∈ b, l.attempts ≤ limit) → (∀ l ∈ b, l.uuid ≠ u) →
      b.filterMap (age limit [it]) = b
  | [], _, _ => rfl
  | l :: b, ha, h => by
    rw [List.filterMap_cons, age_other limit hl it u hid l (ha l (List.mem_cons_self ..))
      (h l (List.mem_cons_self ..))]
    simp only
    rw [filterMap_age_other limit hl it u hid b (fun x hx => ha x (List.mem_cons_of_mem _ hx))
      (fun x hx => h x (List.mem_cons_of_mem _ hx))]

/-- One item has its effect on the one line with its id; it panics exactly if there is none. -/
theorem onItem_spec (limit : Nat) (hl : limit ≤ 255) (b : List Line) (hd : Distinct b)
    (ha : ∀ l ∈ b, l.attempts ≤ limit) (it : Item) :
    ((∃ l ∈ b, it.id = some l.uuid) → onItem limit b it = some (b.filterMap (age limit [it]))) ∧
    ((¬ ∃ l ∈ b, it.id = some l.uuid) → onItem limit b it = none) := by
  obtain ⟨ok, id⟩ := it
  cases id with
  | none => exact ⟨fun ⟨l, _, h⟩ => by simp at h, fun _ => rfl⟩
  | some u =>
    constructor
    · rintro ⟨l0, hl0, hu0⟩
      simp only [Option.some.injEq] at hu0
      obtain ⟨A, l, B, rfl, rfl, hA⟩ := split_at b u ⟨l0, hl0, hu0.symm⟩
      have hB : ∀ x ∈ B, x.uuid ≠ l.uuid := by
        simp only [Distinct, List.map_append, List.map_cons] at hd
        have := (List.nodup_append.mp hd).2.1
        rw [List.nodup_cons] at this
        intro x hx e
        exact this.1 (List.mem_map.mpr ⟨x, hx, e⟩)
      have haA : ∀ x ∈ A, x.attempts ≤ limit := fun x hx => ha x (by simp [hx])
      have haB : ∀ x ∈ B, x.attempts ≤ limit := fun x hx => ha x (by simp [hx])
      have hal : l.attempts ≤ limit := ha l (by simp)
      have hpos := position_split A B l hA
      have hget : (A ++ l :: B)[A.length]? = some l := by simp
      simp only [onItem, hpos, hget]
      rw [List.filterMap_append, List.filterMap_cons,
        filterMap_age_other limit hl ⟨ok, some l.uuid⟩ l.uuid rfl A haA hA,
        filterMap_age_other limit hl ⟨ok, some l.uuid⟩ l.uuid rfl B haB hB]
      have herase : ∀ x : Line, (A ++ x :: B).eraseIdx A.length = A ++ B := by
        intro x
        rw [List.eraseIdx_append_of_length_le (Nat.le_refl _)]
        simp
      have hset : ∀ x : Line, (A ++ l :: B).set A.length x = A ++ x :: B := by
        intro x
        rw [List.set_append_right _ _ (Nat.le_refl _)]
        simp
      cases ok with
      | true =>
        have : age limit [⟨true, some l.uuid⟩] l = none := by
          simp [age, said]
        simp only [this, if_true, herase]
      | false =>
        simp only [Bool.false_eq_true, if_false, hset]
        by_cases h : (l.attempts + 1) % 256 > limit
        · have : age limit [⟨false, some l.uuid⟩] l = none := by
            simp [age, said]; omega
          simp only [this, if_pos h, herase]
        · have : age limit [⟨false, some l.uuid⟩] l = some { l with attempts := (l.attempts + 1) % 256 } := by
            simp [age, said]; omega
          simp only [this, if_neg h]
    · intro h
      have : position b u = b.length := position_none b u (fun l hl e => h ⟨l, hl, by rw [e]⟩)
      simp [onItem, this]

theorem age_keeps (limit : Nat) (hl : limit ≤ 255) (items : List Item) (l l' : Line) (h : age limit items l = some l') :
    l'.uuid = l.uuid ∧ l'.line = l.line ∧ l'.attempts ≤ limit := by
  by_cases hc : said true l.uuid items = 0 ∧ (limit < 255 → l.attempts + said false l.uuid items ≤ limit)
  · simp only [age, if_pos hc, Option.some.injEq] at h
    subst h
    exact ⟨rfl, rfl, by simp only; omega⟩
  · simp only [age, if_neg hc] at h; simp at h

theorem uuids_sublist (limit : Nat) (hl : limit ≤ 255) (items : List Item) : ∀ b : List Line,
    ((b.filterMap (age limit items)).map (·.uuid)).Sublist (b.map (·.uuid))
  | [] => List.Sublist.slnil
  | l :: b => by
    rw [List.filterMap_cons, List.map_cons]
    cases h : age limit items l with
    | none => exact (uuids_sublist limit hl items b).cons _
    | some l' =>
      simp only [List.map_cons, (age_keeps limit hl items l l' h).1]
      exact (uuids_sublist limit hl items b).cons_cons _

theorem aged_ok (limit : Nat) (hl : limit ≤ 255) (items : List Item) (b : List Line) :
    ∀ l ∈ b.filterMap (age limit items), l.attempts ≤ limit := by
  intro l hm
  obtain ⟨x, _, hx⟩ := List.mem_filterMap.mp hm
  exact (age_keeps limit hl items x l hx).2.2

theorem filterMap_age (limit : Nat) (i j : List Item) (b : List Line) :
    (b.filterMap (age limit i)).filterMap (age limit j) = b.filterMap (age limit (i ++ j)) := by
  rw [List.filterMap_filterMap]
  congr 1
  funext l
  exact age_append limit i j l

theorem filterMap_age_nil (limit : Nat) (hl : limit ≤ 255) (b : List Line) (ha : ∀ l ∈ b, l.attempts ≤ limit) :
    b.filterMap (age limit []) = b := by
  induction b with
  | nil => rfl
  | cons l b ih =>
    rw [List.filterMap_cons, age_nil limit hl l (ha l (List.mem_cons_self ..))]
    simp only
    rw [ih (fun x hx => ha x (List.mem_cons_of_mem _ hx))]

theorem onItems_spec (limit : Nat) (hl : limit ≤ 255) : ∀ (items : List Item) (b b' : List Line),
    Distinct b → (∀ l ∈ b, l.attempts ≤ limit) → onItems limit b items = some b' →
    b' = b.filterMap (age limit items)
  | [], b, b', _, ha, h => by
    simp only [onItems, Option.some.injEq] at h
    rw [filterMap_age_nil limit hl b ha, h]
  | it :: items, b, b', hd, ha, h => by
    obtain ⟨h1, h2⟩ := onItem_spec limit hl b hd ha it
    by_cases hm : ∃ l ∈ b, it.id = some l.uuid
    · simp only [onItems, h1 hm] at h
      have := onItems_spec limit hl items _ b' (List.Sublist.nodup (uuids_sublist limit hl [it] b) hd)
        (aged_ok limit hl [it] b) h
      rw [this, filterMap_age]
      rfl
    · simp only [onItems, h2 hm] at h
      simp at h

/-- Answers about different lines, all of them waiting, never panic. -/
theorem onItems_some (limit : Nat) (hl : limit ≤ 255) : ∀ (items : List Item) (b : List Line),
    Distinct b → (∀ l ∈ b, l.attempts ≤ limit) → (items.map (·.id)).Nodup →
    (∀ it ∈ items, ∃ l ∈ b, it.id = some l.uuid) → ∃ b', onItems limit b items = some b'
  | [], b, _, _, _, _ => ⟨b, rfl⟩
  | it :: items, b, hd, ha, hn, hm => by
    obtain ⟨h1, _⟩ := onItem_spec limit hl b hd ha it
    simp only [onItems, h1 (hm it (List.mem_cons_self ..))]
    rw [List.map_cons, List.nodup_cons] at hn
    refine onItems_some limit hl items _ (List.Sublist.nodup (uuids_sublist limit hl [it] b) hd)
      (aged_ok limit hl [it] b) hn.2 (fun it' hit' => ?_)
    obtain ⟨l, hlb, hid⟩ := hm it' (List.mem_cons_of_mem _ hit')
    obtain ⟨u, hu⟩ : ∃ u, it.id = some u := by
      obtain ⟨x, _, hx⟩ := hm it (List.mem_cons_self ..)
      exact ⟨_, hx⟩
    have hne : l.uuid ≠ u := by
      intro e
      apply hn.1
      rw [hu, ← e, ← hid]
      exact List.mem_map.mpr ⟨it', hit', rfl⟩
    exact ⟨l, List.mem_filterMap.mpr ⟨l, hlb, age_other limit hl it u hu l (ha l hlb) hne⟩, hid⟩

/-- The effect of a flush on the buffer. -/
theorem flush_buffer (ext : Ext) (s s' : State) (hl : s.limit ≤ 255) (hd : Distinct s.buffer)
    (ha : ∀ l ∈ s.buffer, l.attempts ≤ s.limit) (resp : Response) (docs : Option (List Doc))
    (h : flush ext s resp = some (s', docs)) :
    s' = { s with buffer := s.buffer.filterMap (age s.limit (answers [.flush resp])) } := by
  have hnil := filterMap_age_nil s.limit hl s.buffer ha
  by_cases hb : s.buffer = []
  · simp only [flush, if_pos hb, Option.some.injEq, Prod.mk.injEq] at h
    rw [← h.1, hb]
    obtain ⟨b, l, p, t, tg⟩ := s
    simp only at hb
    rw [hb]
    rfl
  · simp only [flush, if_neg hb] at h
    cases hbody : bulkBody ext s with
    | none => rw [hbody] at h; simp at h
    | some ds =>
      rw [hbody] at h
      cases resp with
      | sendError =>
        simp only [Option.some.injEq, Prod.mk.injEq] at h
        simp only [answers, hnil]; exact h.1.symm
      | error =>
        simp only [Option.some.injEq, Prod.mk.injEq] at h
        simp only [answers, hnil]; exact h.1.symm
      | bulk items =>
        cases ho : onItems s.limit s.buffer items with
        | none => simp [ho] at h
        | some b =>
          simp only [ho, Option.some.injEq, Prod.mk.injEq] at h
          rw [← h.1]
          simp only [answers, List.append_nil]
          rw [← onItems_spec s.limit hl items s.buffer b hd ha ho]

theorem answers_flush (resp : Response) (ops : List Op) :
    answers (.flush resp :: ops) = answers [.flush resp] ++ answers ops := by
  cases resp <;> simp [answers]

/-- What is waiting, for every limit the code can have. -/
def waitingAny (limit : Nat) : List Op → List Line
  | [] => []
  | .flush _ :: ops => waitingAny limit ops
  | .line u l :: ops =>
    (if said true u (answers ops) = 0 ∧ (limit < 255 → said false u (answers ops) ≤ limit) then
      [⟨said false u (answers ops) % 256, u, l⟩] else []) ++ waitingAny limit ops

theorem waitingAny_eq (limit : Nat) (hl : limit < 255) : ∀ ops, waitingAny limit ops = waiting limit ops
  | [] => rfl
  | .flush _ :: ops => waitingAny_eq limit hl ops
  | .line u l :: ops => by
    rw [waitingAny, waiting, waitingAny_eq limit hl ops]
    congr 1
    by_cases h : said true u (answers ops) = 0 ∧ said false u (answers ops) ≤ limit
    · rw [if_pos h, if_pos ⟨h.1, fun _ => h.2⟩, Nat.mod_eq_of_lt (by omega)]
    · rw [if_neg h, if_neg (fun h' => h ⟨h'.1, h'.2 hl⟩)]

theorem waitingAny_255 : ∀ ops, waitingAny 255 ops = unacknowledged ops
  | [] => rfl
  | .flush _ :: ops => waitingAny_255 ops
  | .line u l :: ops => by
    rw [waitingAny, unacknowledged, waitingAny_255 ops]
    simp

/-- The whole history: every waiting line is decided by the answers that follow it. -/
theorem run_spec (ext : Ext) : ∀ (ops : List Op) (s s' : State), s.limit ≤ 255 →
    (s.buffer.map (·.uuid) ++ ids ops).Nodup → (∀ l ∈ s.buffer, l.attempts ≤ s.limit) →
    run ext s ops = some s' →
    s' = { s with buffer := s.buffer.filterMap (age s.limit (answers ops)) ++ waitingAny s.limit ops }
  | [], s, s', hl, _, ha, h => by
    simp only [run, Option.some.injEq] at h
    simp only [answers, waitingAny, List.append_nil, filterMap_age_nil s.limit hl s.buffer ha]
    exact h.symm
  | .line u l :: ops, s, s', hl, hd, ha, h => by
    simp only [run] at h
    have := run_spec ext ops (deliverLine s u l) s' hl (by
      simpa [deliverLine, ids] using hd) (by
      intro x hx
      simp only [deliverLine, List.mem_append, List.mem_singleton] at hx
      rcases hx with hx | rfl
      · exact ha x hx
      · exact Nat.zero_le _) h
    rw [this]
    simp only [deliverLine, answers, waitingAny, List.filterMap_append, List.append_assoc]
    congr 2
    simp only [List.filterMap_cons, List.filterMap_nil, age, Nat.zero_add]
    by_cases hc : said true u (answers ops) = 0 ∧ (s.limit < 255 → said false u (answers ops) ≤ s.limit)
    · simp only [if_pos hc]
    · simp only [if_neg hc]
  | .flush resp :: ops, s, s', hl, hd, ha, h => by
    simp only [run] at h
    cases hf : flush ext s resp with
    | none => rw [hf] at h; simp at h
    | some r =>
      obtain ⟨s1, docs⟩ := r
      rw [hf] at h
      have hdist : Distinct s.buffer := (List.nodup_append.mp hd).1
      have h1 := flush_buffer ext s s1 hl hdist ha resp docs hf
      have := run_spec ext ops s1 s' (by rw [h1]; exact hl) (by
        rw [h1]
        exact ((uuids_sublist s.limit hl _ s.buffer).append (List.Sublist.refl _)).nodup hd) (by
        rw [h1]
        exact aged_ok s.limit hl _ s.buffer) h
      rw [this, h1]
      simp only [filterMap_age, answers_flush resp ops, waitingAny]

end Elastic
end Verif
