import Verif.Spec.ElasticCounts
import Verif.Props.Counters
import Verif.Props.Elasticsearch
/-!
# C152: the counters of the Elasticsearch sink account for every line

Theorems range over every history of the sink, and every answer of the server.
-/
namespace Verif
open Counters (Answer Action Adds elasticAdds under addedTo)
open Elastic (State Ext Line Item onItem onItems position)
open ElasticCounts (Op arrived refusals)

private theorem sum_eraseIdx : ∀ (b : List Line) (i : Nat) (l : Line), b[i]? = some l →
    (b.map (·.attempts)).sum = ((b.eraseIdx i).map (·.attempts)).sum + l.attempts ∧ b.length = (b.eraseIdx i).length + 1
  | [], i, l, h => by simp at h
  | x :: b, 0, l, h => by simp at h; subst h; simp; omega
  | x :: b, i + 1, l, h => by
    obtain ⟨h1, h2⟩ := sum_eraseIdx b i l (by simpa using h)
    simp only [List.map_cons, List.sum_cons, List.eraseIdx_cons_succ, List.length_cons]
    omega

private theorem sum_set : ∀ (b : List Line) (i : Nat) (l l' : Line), b[i]? = some l →
    ((b.set i l').map (·.attempts)).sum + l.attempts = (b.map (·.attempts)).sum + l'.attempts
  | [], i, l, l', h => by simp at h
  | x :: b, 0, l, l', h => by simp at h; subst h; simp; omega
  | x :: b, i + 1, l, l', h => by
    have := sum_set b i l l' (by simpa using h)
    simp only [List.set_cons_succ, List.map_cons, List.sum_cons]
    omega

/-- What one item does to the accounts: `d` is how many lines it drops. -/
private theorem item_law {limit : Nat} (hl : limit < 255) {b b' : List Line} (hb : ∀ l ∈ b, l.attempts ≤ limit) {it : Item} (h : onItem limit b it = some b') :
    (∀ l ∈ b', l.attempts ≤ limit) ∧ ∃ d, b.length = b'.length + (if it.ok then 1 else 0) + d ∧
      (limit + 1) * d + (b'.map (·.attempts)).sum ≤ (b.map (·.attempts)).sum + (if it.ok then 0 else 1) ∧
      (b.map (·.attempts)).sum + (if it.ok then 0 else 1) ≤ (limit + 1) * d + (b'.map (·.attempts)).sum + limit * (if it.ok then 1 else 0) := by
  unfold onItem at h
  cases hid : it.id with
  | none => rw [hid] at h; cases h
  | some u =>
    rw [hid] at h
    simp only at h
    cases hx : b[position b u]? with
    | none => rw [hx] at h; cases h
    | some l =>
      rw [hx] at h
      simp only at h
      have hmem : l ∈ b := List.mem_of_getElem? hx
      have hlt : position b u < b.length := (List.getElem?_eq_some_iff.1 hx).1
      have hla := hb l hmem
      by_cases hok : it.ok = true
      · simp only [hok, if_true, Option.some.injEq] at h ⊢
        subst h
        obtain ⟨h1, h2⟩ := sum_eraseIdx b _ l hx
        exact ⟨fun x hx => hb x (List.mem_of_mem_eraseIdx hx), 0, by omega, by omega, by omega⟩
      · simp only [hok, Bool.false_eq_true, if_false, Option.some.injEq, Nat.mod_eq_of_lt (show l.attempts + 1 < 256 by omega)] at h ⊢
        have hget : (b.set (position b u) { l with attempts := l.attempts + 1 })[position b u]? = some { l with attempts := l.attempts + 1 } := by
          simp [List.getElem?_set_self hlt]
        have hs := sum_set b _ l { l with attempts := l.attempts + 1 } hx
        simp only at hs
        by_cases ha : l.attempts + 1 > limit
        · rw [if_pos ha] at h
          subst h
          obtain ⟨h1, h2⟩ := sum_eraseIdx _ _ _ hget
          simp only [List.length_set] at h1 h2
          refine ⟨fun x hx => ?_, 1, by omega, by omega, by omega⟩
          rw [List.eraseIdx_set_eq] at hx
          exact hb x (List.mem_of_mem_eraseIdx hx)
        · rw [if_neg ha] at h
          subst h
          refine ⟨fun x hx => ?_, 0, by simp, by omega, by omega⟩
          rcases List.mem_or_eq_of_mem_set hx with h | rfl
          · exact hb x h
          · simp only; omega

private theorem items_law {limit : Nat} (hl : limit < 255) (items : List Item) : ∀ {b b' : List Line}, (∀ l ∈ b, l.attempts ≤ limit) → onItems limit b items = some b' →
    (∀ l ∈ b', l.attempts ≤ limit) ∧ ∃ d, b.length = b'.length + items.countP (·.ok) + d ∧
      (limit + 1) * d + (b'.map (·.attempts)).sum ≤ (b.map (·.attempts)).sum + items.countP (!·.ok) ∧
      (b.map (·.attempts)).sum + items.countP (!·.ok) ≤ (limit + 1) * d + (b'.map (·.attempts)).sum + limit * items.countP (·.ok) := by
  induction items with
  | nil => intro b b' hb h; simp only [onItems, Option.some.injEq] at h; subst h; exact ⟨hb, 0, by simp, by simp, by simp⟩
  | cons it items ih =>
    intro b b' hb h
    rw [onItems] at h
    cases h1 : onItem limit b it with
    | none => rw [h1] at h; cases h
    | some b1 =>
      rw [h1] at h
      obtain ⟨g1, d1, g2, g3, g3'⟩ := item_law hl hb h1
      obtain ⟨g4, d2, g5, g6, g6'⟩ := ih g1 h
      refine ⟨g4, d1 + d2, ?_, ?_, ?_⟩
      · rw [List.countP_cons]; omega
      rotate_left
      · rw [List.countP_cons, List.countP_cons, Nat.mul_add, Nat.mul_add]
        cases ho : it.ok <;> simp only [ho, Bool.not_true, Bool.not_false, Bool.false_eq_true, if_true, if_false] at g3' ⊢ <;> omega
      · rw [List.countP_cons, Nat.mul_add]
        cases ho : it.ok <;> simp only [ho, Bool.not_true, Bool.not_false, Bool.false_eq_true, if_true, if_false] at g3 ⊢ <;> omega

private theorem delivered_at (xs : Adds) : under "cernan.sinks.elasticsearch.records.total_delivered" xs = addedTo "ELASTIC_RECORDS_TOTAL_DELIVERED" xs :=
  Counters.under_at 14 "ELASTIC_RECORDS_TOTAL_DELIVERED" rfl xs

private theorem failed_at (xs : Adds) : under "cernan.sinks.elasticsearch.records.total_failed" xs = addedTo "ELASTIC_RECORDS_TOTAL_FAILED" xs :=
  Counters.under_at 15 "ELASTIC_RECORDS_TOTAL_FAILED" rfl xs

/-- One flush. -/
private theorem flush_law (ext : Ext) {s s' : State} (hl : s.limit < 255) (hb : ∀ l ∈ s.buffer, l.attempts ≤ s.limit) {a : Answer} {req : Option (List Elastic.Doc)}
    (h : Elastic.flush ext s a.response = some (s', req)) :
    s'.limit = s.limit ∧ (∀ l ∈ s'.buffer, l.attempts ≤ s.limit) ∧
    (req = none → s' = s) ∧
    (∀ docs, req = some docs → ∃ d, s.buffer.length = s'.buffer.length + addedTo "ELASTIC_RECORDS_TOTAL_DELIVERED" (elasticAdds a) + d ∧
      (s.limit + 1) * d + refusals s' ≤ refusals s + addedTo "ELASTIC_RECORDS_TOTAL_FAILED" (elasticAdds a) ∧
      refusals s + addedTo "ELASTIC_RECORDS_TOTAL_FAILED" (elasticAdds a) ≤
        (s.limit + 1) * d + refusals s' + s.limit * addedTo "ELASTIC_RECORDS_TOTAL_DELIVERED" (elasticAdds a)) := by
  unfold Elastic.flush at h
  by_cases he : s.buffer = []
  · simp only [he, if_true, Option.some.injEq, Prod.mk.injEq] at h
    obtain ⟨rfl, rfl⟩ := h
    exact ⟨rfl, hb, fun _ => rfl, fun docs h => by cases h⟩
  · rw [if_neg he] at h
    cases hd : Elastic.bulkBody ext s with
    | none => rw [hd] at h; cases h
    | some docs =>
      rw [hd] at h
      cases a with
      | bulk items =>
        simp only [Answer.response] at h
        cases hi : onItems s.limit s.buffer (items.map (·.1)) with
        | none => rw [hi] at h; cases h
        | some b =>
          rw [hi] at h
          simp only [Option.some.injEq, Prod.mk.injEq] at h
          obtain ⟨rfl, rfl⟩ := h
          obtain ⟨g1, d, g2, g3, g4⟩ := items_law hl _ hb hi
          obtain ⟨-, c1, c2, -⟩ := C100_elastic_items items
          rw [delivered_at] at c1
          rw [failed_at] at c2
          refine ⟨rfl, g1, fun h => (by cases h), fun _ _ => ⟨d, ?_, ?_, ?_⟩⟩
          · rw [c1]; rw [List.countP_map] at g2; exact g2
          · rw [c2]; rw [List.countP_map] at g3; exact g3
          · rw [c1, c2]; rw [List.countP_map, List.countP_map] at g4; exact g4
      | sendError =>
        simp only [Answer.response, Option.some.injEq, Prod.mk.injEq] at h
        obtain ⟨rfl, rfl⟩ := h
        exact ⟨rfl, hb, fun h => (by cases h), fun _ _ => ⟨0, by simp [elasticAdds, addedTo], by simp [elasticAdds, addedTo], by simp [elasticAdds, addedTo, refusals]⟩⟩
      | client =>
        simp only [Answer.response, Option.some.injEq, Prod.mk.injEq] at h
        obtain ⟨rfl, rfl⟩ := h
        exact ⟨rfl, hb, fun h => (by cases h), fun _ _ => ⟨0, by simp [elasticAdds, addedTo], by simp [elasticAdds, addedTo], by simp [elasticAdds, addedTo, refusals]⟩⟩
      | api e =>
        simp only [Answer.response, Option.some.injEq, Prod.mk.injEq] at h
        obtain ⟨rfl, rfl⟩ := h
        have hn : ∀ n, n = "ELASTIC_RECORDS_TOTAL_DELIVERED" ∨ n = "ELASTIC_RECORDS_TOTAL_FAILED" → addedTo n (elasticAdds (.api e)) = 0 := by
          rintro n (rfl | rfl) <;> cases e <;> decide +kernel
        refine ⟨rfl, hb, fun h => (by cases h), fun _ _ => ⟨0, ?_, ?_, ?_⟩⟩
        · rw [hn _ (.inl rfl)]; simp
        · rw [hn _ (.inr rfl)]; simp
        · rw [hn _ (.inr rfl)]; simp only [refusals]; omega

private theorem run_law (ext : Ext) (ops : List Op) : ∀ {s s' : State} {xs xs' : Adds}, s.limit < 255 → (∀ l ∈ s.buffer, l.attempts ≤ s.limit) →
    ElasticCounts.run ext s xs ops = some (s', xs') →
    ∃ d, arrived ops + s.buffer.length + addedTo "ELASTIC_RECORDS_TOTAL_DELIVERED" xs = s'.buffer.length + addedTo "ELASTIC_RECORDS_TOTAL_DELIVERED" xs' + d ∧
      (s.limit + 1) * d + refusals s' + addedTo "ELASTIC_RECORDS_TOTAL_FAILED" xs ≤ refusals s + addedTo "ELASTIC_RECORDS_TOTAL_FAILED" xs' ∧
      refusals s + addedTo "ELASTIC_RECORDS_TOTAL_FAILED" xs' + s.limit * addedTo "ELASTIC_RECORDS_TOTAL_DELIVERED" xs ≤
        (s.limit + 1) * d + refusals s' + addedTo "ELASTIC_RECORDS_TOTAL_FAILED" xs + s.limit * addedTo "ELASTIC_RECORDS_TOTAL_DELIVERED" xs' := by
  induction ops with
  | nil =>
    intro s s' xs xs' hl hb h
    simp only [ElasticCounts.run, Option.some.injEq, Prod.mk.injEq] at h
    obtain ⟨rfl, rfl⟩ := h
    exact ⟨0, by simp [arrived], by simp, by simp⟩
  | cons o ops ih =>
    intro s s' xs xs' hl hb h
    cases o with
    | line u l =>
      rw [ElasticCounts.run] at h
      obtain ⟨d, g1, g2, g3⟩ := ih (s := Elastic.deliverLine s u l) hl (by
        intro m hm
        simp only [Elastic.deliverLine, List.mem_append, List.mem_singleton] at hm
        rcases hm with hm | rfl
        · exact hb m hm
        · exact Nat.zero_le _) h
      have e1 : arrived (.line u l :: ops) = arrived ops + 1 := by simp [arrived]
      have e2 : (Elastic.deliverLine s u l).buffer.length = s.buffer.length + 1 := by simp [Elastic.deliverLine]
      have e3 : refusals (Elastic.deliverLine s u l) = refusals s := by simp [refusals, Elastic.deliverLine]
      have e4 : (Elastic.deliverLine s u l).limit = s.limit := rfl
      rw [e3, e4] at g2 g3
      exact ⟨d, by omega, g2, g3⟩
    | flush a =>
      rw [ElasticCounts.run] at h
      have e1 : arrived (.flush a :: ops) = arrived ops := by simp [arrived]
      rw [e1]
      cases hf : Elastic.flush ext s a.response with
      | none => rw [hf] at h; cases h
      | some r =>
        obtain ⟨s1, req⟩ := r
        rw [hf] at h
        obtain ⟨f1, f2, f3, f4⟩ := flush_law ext hl hb hf
        cases req with
        | none =>
          obtain rfl := f3 rfl
          exact ih hl hb h
        | some docs =>
          obtain ⟨d1, k1, k2, k3⟩ := f4 docs rfl
          obtain ⟨d, g1, g2, g3⟩ := ih (by rw [f1]; exact hl) (by rw [f1]; exact f2) h
          rw [Counters.addedTo_append] at g1 g2
          rw [Counters.addedTo_append, Counters.addedTo_append] at g3
          rw [f1] at g2 g3
          rw [Nat.mul_add] at g3
          refine ⟨d1 + d, by omega, ?_, ?_⟩ <;> rw [Nat.mul_add] <;> omega

/-- **C152.**  Whatever the server answers: the lines that have arrived are those that wait, those counted as delivered and those dropped; and for each line dropped more refusals than the limit
have been counted as failed, beside those of the lines that wait; the failures that remain are at most the limit for each line delivered. -/
theorem C152_accounts (ext : Ext) (limit : Nat) (hl : limit < 255) (pfx : Option Str) (type : Str) (tags : TagMap) (ops : List Op) (s : State) (xs : Adds)
    (h : ElasticCounts.run ext (Elastic.init limit pfx type tags) [] ops = some (s, xs)) :
    ∃ dropped, arrived ops = s.buffer.length + under "cernan.sinks.elasticsearch.records.total_delivered" xs + dropped ∧
      (limit + 1) * dropped + refusals s ≤ under "cernan.sinks.elasticsearch.records.total_failed" xs ∧
      under "cernan.sinks.elasticsearch.records.total_failed" xs ≤
        (limit + 1) * dropped + refusals s + limit * under "cernan.sinks.elasticsearch.records.total_delivered" xs := by
  obtain ⟨d, g1, g2, g3⟩ := run_law ext ops (by exact hl) (by simp [Elastic.init]) h
  rw [delivered_at, failed_at]
  have e : addedTo "ELASTIC_RECORDS_TOTAL_DELIVERED" [] = 0 := rfl
  have e' : addedTo "ELASTIC_RECORDS_TOTAL_FAILED" [] = 0 := rfl
  have e2 : refusals (Elastic.init limit pfx type tags) = 0 := rfl
  have e3 : (Elastic.init limit pfx type tags).buffer.length = 0 := rfl
  have e4 : (Elastic.init limit pfx type tags).limit = limit := rfl
  rw [e, e3] at g1
  rw [e', e2, e4] at g2 g3
  rw [e] at g3
  exact ⟨d, by omega, by omega, by omega⟩

/-- **C152 (what the counters tell).**  The lines dropped so far are at most as many as the failures counted divided by the limit and one more; and if no failure is counted, every line that has
arrived waits or is counted as delivered. -/
theorem C152_bound (ext : Ext) (limit : Nat) (hl : limit < 255) (pfx : Option Str) (type : Str) (tags : TagMap) (ops : List Op) (s : State) (xs : Adds)
    (h : ElasticCounts.run ext (Elastic.init limit pfx type tags) [] ops = some (s, xs)) :
    s.buffer.length + under "cernan.sinks.elasticsearch.records.total_delivered" xs ≤ arrived ops ∧
    arrived ops ≤ s.buffer.length + under "cernan.sinks.elasticsearch.records.total_delivered" xs + under "cernan.sinks.elasticsearch.records.total_failed" xs / (limit + 1) := by
  obtain ⟨d, g1, g2, -⟩ := C152_accounts ext limit hl pfx type tags ops s xs h
  refine ⟨by omega, ?_⟩
  have : d ≤ under "cernan.sinks.elasticsearch.records.total_failed" xs / (limit + 1) := by
    rw [Nat.le_div_iff_mul_le (by omega), Nat.mul_comm]
    omega
  omega

/-- **C152 (no retries).**  If a line is dropped when it is first refused, the counters tell everything: failures are lines dropped. -/
theorem C152_no_retries (ext : Ext) (pfx : Option Str) (type : Str) (tags : TagMap) (ops : List Op) (s : State) (xs : Adds)
    (h : ElasticCounts.run ext (Elastic.init 0 pfx type tags) [] ops = some (s, xs)) :
    arrived ops = s.buffer.length + under "cernan.sinks.elasticsearch.records.total_delivered" xs + under "cernan.sinks.elasticsearch.records.total_failed" xs := by
  obtain ⟨d, g1, g2, g3⟩ := C152_accounts ext 0 (by decide) pfx type tags ops s xs h
  have hz : refusals s = 0 := by
    have key : ∀ ops {s s' : State} {xs xs' : Adds}, s.limit = 0 → (∀ l ∈ s.buffer, l.attempts ≤ 0) → ElasticCounts.run ext s xs ops = some (s', xs') → ∀ l ∈ s'.buffer, l.attempts ≤ 0 := by
      intro ops
      induction ops with
      | nil => intro s s' xs xs' _ hb h; simp only [ElasticCounts.run, Option.some.injEq, Prod.mk.injEq] at h; rw [← h.1]; exact hb
      | cons o ops ih =>
        intro s s' xs xs' hl hb h
        cases o with
        | line u l =>
          refine ih (s := Elastic.deliverLine s u l) hl (fun m hm => ?_) h
          simp only [Elastic.deliverLine, List.mem_append, List.mem_singleton] at hm
          rcases hm with hm | rfl
          · exact hb m hm
          · exact Nat.zero_le _
        | flush a =>
          rw [ElasticCounts.run] at h
          cases hf : Elastic.flush ext s a.response with
          | none => rw [hf] at h; cases h
          | some r =>
            obtain ⟨s1, req⟩ := r
            rw [hf] at h
            obtain ⟨f1, f2, -⟩ := flush_law ext (by rw [hl]; decide) (by rw [hl]; exact hb) hf
            rw [hl] at f1 f2
            cases req with
            | none => exact ih f1 f2 h
            | some docs => exact ih f1 f2 h
    have hk := key ops (s := Elastic.init 0 pfx type tags) rfl (by simp [Elastic.init]) h
    have : ∀ b : List Line, (∀ l ∈ b, l.attempts ≤ 0) → (b.map (·.attempts)).sum = 0 := by
      intro b
      induction b with
      | nil => intro _; rfl
      | cons x b ih =>
        intro hb
        have h1 := hb x (by simp)
        have h2 := ih fun l hl => hb l (by simp [hl])
        simp only [List.map_cons, List.sum_cons]
        omega
    exact this _ hk
  rw [hz] at g2 g3
  omega

private theorem never_item {b b' : List Line} {it : Item} (h : onItem 255 b it = some b') : b.length = b'.length + (if it.ok then 1 else 0) := by
  unfold onItem at h
  cases hid : it.id with
  | none => rw [hid] at h; cases h
  | some u =>
    rw [hid] at h
    simp only at h
    cases hx : b[position b u]? with
    | none => rw [hx] at h; cases h
    | some l =>
      rw [hx] at h
      simp only at h
      by_cases hok : it.ok = true
      · simp only [hok, if_true, Option.some.injEq] at h ⊢
        subst h
        exact (sum_eraseIdx b _ l hx).2
      · have : ¬ (l.attempts + 1) % 256 > 255 := by omega
        simp only [hok, Bool.false_eq_true, if_false, this, Option.some.injEq] at h ⊢
        subst h
        simp

/-- **C152 (retries without end).**  At the largest limit no line is ever dropped: what has arrived waits or is counted as delivered, whatever the failures. -/
theorem C152_never_dropped (ext : Ext) (pfx : Option Str) (type : Str) (tags : TagMap) (ops : List Op) (s : State) (xs : Adds)
    (h : ElasticCounts.run ext (Elastic.init 255 pfx type tags) [] ops = some (s, xs)) :
    arrived ops = s.buffer.length + under "cernan.sinks.elasticsearch.records.total_delivered" xs := by
  rw [delivered_at]
  have items : ∀ (items : List Item) {b b' : List Line}, onItems 255 b items = some b' → b.length = b'.length + items.countP (·.ok) := by
    intro items
    induction items with
    | nil => intro b b' h; simp only [onItems, Option.some.injEq] at h; subst h; simp
    | cons it items ih =>
      intro b b' h
      rw [onItems] at h
      cases h1 : onItem 255 b it with
      | none => rw [h1] at h; cases h
      | some b1 =>
        rw [h1] at h
        have := never_item h1
        have := ih h
        rw [List.countP_cons]
        omega
  have key : ∀ ops {s s' : State} {xs xs' : Adds}, s.limit = 255 → ElasticCounts.run ext s xs ops = some (s', xs') →
      arrived ops + s.buffer.length + addedTo "ELASTIC_RECORDS_TOTAL_DELIVERED" xs = s'.buffer.length + addedTo "ELASTIC_RECORDS_TOTAL_DELIVERED" xs' := by
    intro ops
    induction ops with
    | nil => intro s s' xs xs' _ h; simp only [ElasticCounts.run, Option.some.injEq, Prod.mk.injEq] at h; rw [← h.1, ← h.2]; simp [arrived]
    | cons o ops ih =>
      intro s s' xs xs' hl h
      cases o with
      | line u l =>
        have := ih (s := Elastic.deliverLine s u l) hl h
        have e1 : arrived (.line u l :: ops) = arrived ops + 1 := by simp [arrived]
        have e2 : (Elastic.deliverLine s u l).buffer.length = s.buffer.length + 1 := by simp [Elastic.deliverLine]
        omega
      | flush a =>
        rw [ElasticCounts.run] at h
        have e1 : arrived (.flush a :: ops) = arrived ops := by simp [arrived]
        rw [e1]
        unfold Elastic.flush at h
        by_cases he : s.buffer = []
        · simp only [he, if_true] at h
          have := ih hl h
          rw [he] at this
          simpa [he] using this
        · rw [if_neg he] at h
          cases hd : Elastic.bulkBody ext s with
          | none => rw [hd] at h; cases h
          | some docs =>
            rw [hd] at h
            cases a with
            | bulk its =>
              simp only [Answer.response] at h
              cases hi : onItems s.limit s.buffer (its.map (·.1)) with
              | none => rw [hi] at h; cases h
              | some b =>
                rw [hi] at h
                have g := ih (by exact hl) h
                rw [hl] at hi
                have g2 := items _ hi
                obtain ⟨-, c1, -⟩ := C100_elastic_items its
                rw [delivered_at] at c1
                rw [Counters.addedTo_append, c1] at g
                rw [List.countP_map] at g2
                simp only at g
                have g3 : List.countP ((fun x : Item => x.ok) ∘ fun x : Item × Action => x.1) its = List.countP (fun x => x.1.ok) its := rfl
                omega
            | sendError =>
              have g := ih (by exact hl) h
              rw [Counters.addedTo_append] at g
              have : addedTo "ELASTIC_RECORDS_TOTAL_DELIVERED" (elasticAdds .sendError) = 0 := by simp [elasticAdds, addedTo]
              omega
            | client =>
              have g := ih (by exact hl) h
              rw [Counters.addedTo_append] at g
              have : addedTo "ELASTIC_RECORDS_TOTAL_DELIVERED" (elasticAdds .client) = 0 := by simp [elasticAdds, addedTo]
              omega
            | api e =>
              have g := ih (by exact hl) h
              rw [Counters.addedTo_append] at g
              have : addedTo "ELASTIC_RECORDS_TOTAL_DELIVERED" (elasticAdds (.api e)) = 0 := by cases e <;> decide +kernel
              omega
  have := key ops (s := Elastic.init 255 pfx type tags) rfl h
  have e : addedTo "ELASTIC_RECORDS_TOTAL_DELIVERED" [] = 0 := rfl
  have e3 : (Elastic.init 255 pfx type tags).buffer.length = 0 := rfl
  omega

/-- Three lines at limit 1: one is refused twice and dropped, one is written after a refusal, and one, refused once, waits. -/
private def countedOps : List Op :=
  [.flush .client, .line 1 (esLine 5 "a"), .line 2 (esLine 6 "b"), .flush .sendError, .line 3 (esLine 7 "c"),
   .flush (.bulk [(⟨false, some 1⟩, .index), (⟨false, some 2⟩, .create)]), .flush (.api .parsing),
   .flush (.bulk [(⟨true, some 2⟩, .index), (⟨false, some 1⟩, .index), (⟨false, some 3⟩, .index)])]

example : (ElasticCounts.run esExt (Elastic.init 1 none [] []) [] countedOps).map (fun r => (r.1.buffer.length, refusals r.1,
    under "cernan.sinks.elasticsearch.records.total_delivered" r.2, under "cernan.sinks.elasticsearch.records.total_failed" r.2)) = some (1, 1, 1, 4) ∧
    arrived countedOps = 3 := by decide +kernel

/-- The bound of `C152_bound` is reached. -/
example : (ElasticCounts.run esExt (Elastic.init 1 none [] []) [] [.line 1 (esLine 5 "a"), .flush (.bulk [(⟨false, some 1⟩, .index)]),
      .flush (.bulk [(⟨false, some 1⟩, .index)])]).map (fun r => (r.1.buffer.length,
    under "cernan.sinks.elasticsearch.records.total_delivered" r.2, under "cernan.sinks.elasticsearch.records.total_failed" r.2 / 2)) = some (0, 0, 1) := by decide +kernel

/-- The upper bound of `C152_accounts` is reached: a line is refused once and then written. -/
example : (ElasticCounts.run esExt (Elastic.init 1 none [] []) [] [.line 1 (esLine 5 "a"), .flush (.bulk [(⟨false, some 1⟩, .index)]),
      .flush (.bulk [(⟨true, some 1⟩, .index)])]).map (fun r => (refusals r.1,
    under "cernan.sinks.elasticsearch.records.total_delivered" r.2, under "cernan.sinks.elasticsearch.records.total_failed" r.2)) = some (0, 1, 1) := by decide +kernel

/-- Limit 0: one written, one dropped, one waiting.  Limit 255: the same answers drop nothing. -/
example : ([0, 255].map fun limit => (ElasticCounts.run esExt (Elastic.init limit none [] []) [] [.line 1 (esLine 5 "a"), .line 2 (esLine 6 "b"),
      .flush (.bulk [(⟨false, some 2⟩, .index), (⟨true, some 1⟩, .index)]), .line 3 (esLine 7 "c")]).map (fun r => (r.1.buffer.length,
    under "cernan.sinks.elasticsearch.records.total_delivered" r.2, under "cernan.sinks.elasticsearch.records.total_failed" r.2))) = [some (1, 1, 1), some (2, 1, 1)] := by decide +kernel

end Verif
