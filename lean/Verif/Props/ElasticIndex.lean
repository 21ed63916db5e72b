import Verif.Spec.ElasticIndex
import Verif.Props.Elasticsearch
/-!
# C138: a line is indexed once, however often it is sent
-/
namespace Verif
open Elastic

/-- The document of a line, by the settings of the sink. -/
private def DocFor (ext : Ext) (pfx : Option Str) (type : Str) (tags : TagMap) (u : Nat) (l : LogLine) (d : Doc) : Prop :=
  docOf ext (init 0 pfx type tags) ⟨0, u, l⟩ = some d

private theorem docOf_settings (ext : Ext) (s : State) (m : Line) {pfx type tags} (h : s.indexPrefix = pfx ∧ s.indexType = type ∧ s.tags = tags) :
    docOf ext s m = docOf ext (init 0 pfx type tags) ⟨0, m.uuid, m.line⟩ := by
  obtain ⟨rfl, rfl, rfl⟩ := h
  rfl

private theorem docOf_id {ext : Ext} {s : State} {m : Line} {d : Doc} (h : docOf ext s m = some d) : d.id = ext.showId m.uuid := by
  simp only [docOf] at h
  split at h
  · simp only [Option.some.injEq] at h; rw [← h]
  · simp at h

private theorem docsOf_mem (ext : Ext) (s : State) : ∀ (ms : List Line) (ds : List Doc), docsOf ext s ms = some ds →
    ∀ d ∈ ds, ∃ m ∈ ms, docOf ext s m = some d := by
  intro ms
  induction ms with
  | nil => intro ds h; simp only [docsOf, Option.some.injEq] at h; subst h; simp
  | cons m ms ih =>
    intro ds h d hd
    simp only [docsOf] at h
    cases h1 : docOf ext s m with
    | none => rw [h1] at h; simp at h
    | some d1 =>
      cases h2 : docsOf ext s ms with
      | none => rw [h1, h2] at h; simp at h
      | some ds1 =>
        rw [h1, h2] at h
        simp only [Option.some.injEq] at h
        subst h
        rcases List.mem_cons.1 hd with rfl | hd
        · exact ⟨m, by simp, h1⟩
        · obtain ⟨m', hm', e⟩ := ih ds1 h2 d hd
          exact ⟨m', by simp [hm'], e⟩

private theorem onItem_sub {limit : Nat} {b b' : List Line} {it : Item} (h : onItem limit b it = some b') :
    ∀ m ∈ b', ∃ m' ∈ b, m'.uuid = m.uuid ∧ m'.line = m.line := by
  simp only [onItem] at h
  cases hid : it.id with
  | none => rw [hid] at h; simp at h
  | some u =>
    rw [hid] at h
    simp only at h
    cases hg : b[position b u]? with
    | none => rw [hg] at h; simp at h
    | some l =>
      rw [hg] at h
      have hl : l ∈ b := List.mem_of_getElem? hg
      have hset : ∀ m ∈ b.set (position b u) { l with attempts := (l.attempts + 1) % 256 }, ∃ m' ∈ b, m'.uuid = m.uuid ∧ m'.line = m.line := by
        intro m hm
        rcases List.mem_or_eq_of_mem_set hm with hm | rfl
        · exact ⟨m, hm, rfl, rfl⟩
        · exact ⟨l, hl, rfl, rfl⟩
      intro m hm
      by_cases hok : it.ok = true
      · simp only [hok, if_true, Option.some.injEq] at h
        subst h
        exact ⟨m, List.mem_of_mem_eraseIdx hm, rfl, rfl⟩
      · simp only [hok, Bool.false_eq_true, if_false, Option.some.injEq] at h
        subst h
        split at hm
        · exact hset m (List.mem_of_mem_eraseIdx hm)
        · exact hset m hm

private theorem onItems_sub (limit : Nat) (its : List Item) : ∀ {b b' : List Line}, onItems limit b its = some b' →
    ∀ m ∈ b', ∃ m' ∈ b, m'.uuid = m.uuid ∧ m'.line = m.line := by
  induction its with
  | nil => intro b b' h m hm; simp only [onItems, Option.some.injEq] at h; subst h; exact ⟨m, hm, rfl, rfl⟩
  | cons it its ih =>
    intro b b' h m hm
    simp only [onItems] at h
    cases h1 : onItem limit b it with
    | none => rw [h1] at h; simp at h
    | some b1 =>
      rw [h1] at h
      obtain ⟨m1, hm1, e1, e2⟩ := ih h m hm
      obtain ⟨m2, hm2, f1, f2⟩ := onItem_sub h1 m1 hm1
      exact ⟨m2, hm2, f1.trans e1, f2.trans e2⟩

/-- What a flush leaves alone, and where its documents are from. -/
private theorem flush_facts {ext : Ext} {s s' : State} {resp : Response} {docs : Option (List Doc)} (h : flush ext s resp = some (s', docs)) :
    s'.indexPrefix = s.indexPrefix ∧ s'.indexType = s.indexType ∧ s'.tags = s.tags ∧ s'.limit = s.limit ∧
    (∀ m ∈ s'.buffer, ∃ m' ∈ s.buffer, m'.uuid = m.uuid ∧ m'.line = m.line) ∧
    ∀ d ∈ docs.getD [], ∃ m ∈ s.buffer, docOf ext s m = some d := by
  simp only [flush] at h
  by_cases he : s.buffer = []
  · simp only [he, if_true, Option.some.injEq, Prod.mk.injEq] at h
    obtain ⟨rfl, rfl⟩ := h
    simp [he]
  · simp only [he, if_false, bulkBody] at h
    cases hd : docsOf ext s s.buffer with
    | none => rw [hd] at h; simp at h
    | some ds =>
      rw [hd] at h
      have hm := docsOf_mem ext s _ _ hd
      cases resp with
      | sendError =>
        simp only [Option.some.injEq, Prod.mk.injEq] at h
        obtain ⟨rfl, rfl⟩ := h
        exact ⟨rfl, rfl, rfl, rfl, fun m hm => ⟨m, hm, rfl, rfl⟩, hm⟩
      | error =>
        simp only [Option.some.injEq, Prod.mk.injEq] at h
        obtain ⟨rfl, rfl⟩ := h
        exact ⟨rfl, rfl, rfl, rfl, fun m hm => ⟨m, hm, rfl, rfl⟩, hm⟩
      | bulk items =>
        simp only at h
        cases ho : onItems s.limit s.buffer items with
        | none => rw [ho] at h; simp at h
        | some b =>
          rw [ho] at h
          simp only [Option.some.injEq, Prod.mk.injEq] at h
          obtain ⟨rfl, rfl⟩ := h
          exact ⟨rfl, rfl, rfl, rfl, onItems_sub _ _ ho, hm⟩

private theorem put_keys (d : Doc) (store : List Doc) (h : (store.map fun e => (e.index, e.id)).Nodup) :
    ((put d store).map fun e => (e.index, e.id)).Nodup := by
  simp only [put, List.map_append, List.map_cons, List.map_nil]
  rw [List.nodup_append]
  refine ⟨h.sublist (List.filter_sublist.map _), by simp, ?_⟩
  intro a ha b hb
  rw [List.mem_singleton] at hb
  subst hb
  obtain ⟨e, he, rfl⟩ := List.mem_map.1 ha
  have := (List.mem_filter.1 he).2
  simp only [decide_eq_true_eq] at this
  intro heq
  simp only [Prod.mk.injEq] at heq
  exact this heq

private theorem put_mem (d : Doc) (store : List Doc) : ∀ e ∈ put d store, e ∈ store ∨ e = d := by
  intro e he
  simp only [put, List.mem_append, List.mem_singleton] at he
  rcases he with he | he
  · exact .inl (List.mem_filter.1 he).1
  · exact .inr he

private theorem put_has (d : Doc) (store : List Doc) (x : Str) (h : (∃ e ∈ store, e.id = x) ∨ d.id = x) : ∃ e ∈ put d store, e.id = x := by
  rcases h with ⟨e, he, hx⟩ | h
  · by_cases hk : e.index = d.index ∧ e.id = d.id
    · exact ⟨d, by simp [put], hk.2 ▸ hx⟩
    · exact ⟨e, by simp only [put, List.mem_append]; exact .inl (List.mem_filter.2 ⟨he, decide_eq_true hk⟩), hx⟩
  · exact ⟨d, by simp [put], h⟩

private theorem carryOut_facts (c : Doc → Bool) (docs store : List Doc) (h : (store.map fun e => (e.index, e.id)).Nodup) :
    ((carryOut c docs store).map fun e => (e.index, e.id)).Nodup ∧ (∀ e ∈ carryOut c docs store, e ∈ store ∨ e ∈ docs) ∧
    ∀ x, ((∃ e ∈ store, e.id = x) ∨ ∃ d ∈ docs, d.id = x ∧ c d = true) → ∃ e ∈ carryOut c docs store, e.id = x := by
  have gen : ∀ (ds store : List Doc), (store.map fun e => (e.index, e.id)).Nodup →
      ((ds.foldl (fun st d => put d st) store).map fun e => (e.index, e.id)).Nodup ∧
      (∀ e ∈ ds.foldl (fun st d => put d st) store, e ∈ store ∨ e ∈ ds) ∧
      ∀ x, ((∃ e ∈ store, e.id = x) ∨ ∃ d ∈ ds, d.id = x) → ∃ e ∈ ds.foldl (fun st d => put d st) store, e.id = x := by
    intro ds
    induction ds with
    | nil => intro store h; exact ⟨h, fun e he => .inl he, fun x hx => by simpa using hx⟩
    | cons d ds ih =>
      intro store h
      obtain ⟨i1, i2, i3⟩ := ih (put d store) (put_keys d store h)
      refine ⟨i1, ?_, ?_⟩
      · intro e he
        rcases i2 e he with he | he
        · rcases put_mem d store e he with he | rfl
          · exact .inl he
          · exact .inr (by simp)
        · exact .inr (by simp [he])
      · intro x hx
        apply i3
        rcases hx with hx | ⟨d', hd', hx⟩
        · exact .inl (put_has d store x (.inl hx))
        · rcases List.mem_cons.1 hd' with rfl | hd'
          · exact .inl (put_has _ store x (.inr hx))
          · exact .inr ⟨d', hd', hx⟩
  obtain ⟨g1, g2, g3⟩ := gen (docs.filter c) store h
  refine ⟨g1, fun e he => (g2 e he).imp id (fun h => (List.mem_filter.1 h).1), fun x hx => g3 x (hx.imp id ?_)⟩
  rintro ⟨d, hd, hx, hc⟩
  exact ⟨d, List.mem_filter.2 ⟨hd, hc⟩, hx⟩

/-- What holds along a history in which `before` were delivered. -/
private structure Kept (ext : Ext) (pfx : Option Str) (type : Str) (tags : TagMap) (before : List (Nat × LogLine)) (s : State) (store : List Doc) : Prop where
  settings : s.indexPrefix = pfx ∧ s.indexType = type ∧ s.tags = tags
  waits : ∀ m ∈ s.buffer, (m.uuid, m.line) ∈ before
  keys : (store.map fun e => (e.index, e.id)).Nodup
  docs : ∀ d ∈ store, ∃ u l, (u, l) ∈ before ∧ DocFor ext pfx type tags u l d

private theorem kept_run {ext : Ext} {pfx : Option Str} {type : Str} {tags : TagMap} (ops : List (Op × (Doc → Bool))) :
    ∀ {before : List (Nat × LogLine)} {s s' : State} {store store' : List Doc}, Kept ext pfx type tags before s store →
    runServer ext s store ops = some (s', store') → Kept ext pfx type tags (before ++ linesOf ops) s' store' := by
  induction ops with
  | nil =>
    intro before s s' store store' k h
    simp only [runServer, Option.some.injEq, Prod.mk.injEq] at h
    obtain ⟨rfl, rfl⟩ := h
    simpa [linesOf] using k
  | cons o ops ih =>
    intro before s s' store store' k h
    obtain ⟨o, c⟩ := o
    cases o with
    | line u l =>
      simp only [runServer] at h
      have := @ih (before ++ [(u, l)]) (deliverLine s u l) _ _ _ ⟨k.settings, ?_, k.keys, ?_⟩ h
      · simpa [linesOf] using this
      · intro m hm
        simp only [deliverLine, List.mem_append, List.mem_singleton] at hm ⊢
        rcases hm with hm | rfl
        · exact .inl (k.waits m hm)
        · exact .inr rfl
      · intro d hd
        obtain ⟨u', l', h1, h2⟩ := k.docs d hd
        exact ⟨u', l', by simp [h1], h2⟩
    | flush resp =>
      simp only [runServer] at h
      cases hf : flush ext s resp with
      | none => rw [hf] at h; simp at h
      | some r =>
        obtain ⟨s1, docs⟩ := r
        rw [hf] at h
        obtain ⟨f1, f2, f3, -, f4, f5⟩ := flush_facts hf
        obtain ⟨c1, c2, -⟩ := carryOut_facts c (docs.getD []) store k.keys
        refine ih ⟨⟨f1.trans k.settings.1, f2.trans k.settings.2.1, f3.trans k.settings.2.2⟩, ?_, c1, ?_⟩ h
        · intro m hm
          obtain ⟨m', hm', e1, e2⟩ := f4 m hm
          rw [← e1, ← e2]
          exact k.waits m' hm'
        · intro d hd
          rcases c2 d hd with hd | hd
          · exact k.docs d hd
          · obtain ⟨m, hm, e⟩ := f5 d hd
            exact ⟨m.uuid, m.line, k.waits m hm, by rw [DocFor, ← docOf_settings ext s m k.settings]; exact e⟩

private theorem linesOf_ids (ops : List (Op × (Doc → Bool))) : (linesOf ops).map Prod.fst = ids (ops.map Prod.fst) := by
  induction ops with
  | nil => rfl
  | cons o ops ih => obtain ⟨o, c⟩ := o; cases o <;> simp [linesOf, ids, ih]

private theorem same_line {ps : List (Nat × LogLine)} (h : (ps.map Prod.fst).Nodup) {u : Nat} {l l' : LogLine} (h1 : (u, l) ∈ ps) (h2 : (u, l') ∈ ps) :
    l = l' := by
  induction ps with
  | nil => simp at h1
  | cons p ps ih =>
    simp only [List.map_cons, List.nodup_cons] at h
    rcases List.mem_cons.1 h1 with e1 | h1 <;> rcases List.mem_cons.1 h2 with e2 | h2
    · rw [← e1] at e2; simp only [Prod.mk.injEq, true_and] at e2; exact e2.symm
    · exact absurd (List.mem_map.2 ⟨_, h2, by rw [← e1]⟩) h.1
    · exact absurd (List.mem_map.2 ⟨_, h1, by rw [← e2]⟩) h.1
    · exact ih h.2 h1 h2

private theorem kept_ids {ext : Ext} (hid : ∀ u v, ext.showId u = ext.showId v → u = v) {pfx : Option Str} {type : Str} {tags : TagMap} {lines : List (Nat × LogLine)}
    (hids : (lines.map Prod.fst).Nodup) {s : State} {store : List Doc} (k : Kept ext pfx type tags lines s store) : (store.map (·.id)).Nodup := by
  have hk := k.keys
  have gen : ∀ st : List Doc, (st.map fun e => (e.index, e.id)).Nodup → (∀ d ∈ st, d ∈ store) → (st.map (·.id)).Nodup := by
    intro st
    induction st with
    | nil => intro _ _; simp
    | cons d st ih =>
      intro hn hsub
      simp only [List.map_cons, List.nodup_cons] at hn ⊢
      refine ⟨fun hm => ?_, ih hn.2 (fun e he => hsub e (by simp [he]))⟩
      obtain ⟨e, he, heq⟩ := List.mem_map.1 hm
      obtain ⟨u, l, h1, h2⟩ := k.docs d (hsub d (by simp))
      obtain ⟨v, l', g1, g2⟩ := k.docs e (hsub e (by simp [he]))
      have huv : v = u := hid _ _ (by rw [← docOf_id g2, ← docOf_id h2]; exact heq)
      subst huv
      have := same_line hids h1 g1
      subst this
      have : some d = some e := h2.symm.trans g2
      simp only [Option.some.injEq] at this
      subst this
      exact hn.1 (List.mem_map.2 ⟨d, he, rfl⟩)
  exact gen store hk (fun d hd => hd)

/-- **C138** (no duplicates) Whatever the server carries out of each request, whatever it answers and however often lines are sent again, the server holds
at most one document per delivered line: no two documents have the same id, and each is the document of a delivered line. -/
theorem C138_no_duplicates (ext : Ext) (hid : ∀ u v, ext.showId u = ext.showId v → u = v) (limit : Nat) (pfx : Option Str) (type : Str) (tags : TagMap)
    (ops : List (Op × (Doc → Bool))) (hids : (ids (ops.map Prod.fst)).Nodup) (s : State) (store : List Doc)
    (h : runServer ext (init limit pfx type tags) [] ops = some (s, store)) :
    (store.map (·.id)).Nodup ∧
    ∀ d ∈ store, ∃ u l, (u, l) ∈ linesOf ops ∧ d.id = ext.showId u ∧ docOf ext (init limit pfx type tags) ⟨0, u, l⟩ = some d := by
  have k := kept_run (pfx := pfx) (type := type) (tags := tags) (before := []) ops
    ⟨⟨rfl, rfl, rfl⟩, by simp [init], by simp, by simp⟩ h
  rw [List.nil_append] at k
  rw [← linesOf_ids] at hids
  refine ⟨kept_ids hid hids k, fun d hd => ?_⟩
  obtain ⟨u, l, h1, h2⟩ := k.docs d hd
  exact ⟨u, l, h1, docOf_id h2, h2⟩

/-- **C138** (over restarts) The same of a sink that is stopped or killed at any moments and started again, any number of times, as long as the ids it draws are distinct over all its
lives. -/
theorem C138_restarts (ext : Ext) (hid : ∀ u v, ext.showId u = ext.showId v → u = v) (limit : Nat) (pfx : Option Str) (type : Str) (tags : TagMap)
    (lives : List (List (Op × (Doc → Bool)))) (hids : (lives.flatMap fun ops => ids (ops.map Prod.fst)).Nodup) (store : List Doc)
    (h : runLives ext (init limit pfx type tags) [] lives = some store) :
    (store.map (·.id)).Nodup ∧
    ∀ d ∈ store, ∃ u l, (u, l) ∈ lives.flatMap linesOf ∧ d.id = ext.showId u ∧ docOf ext (init limit pfx type tags) ⟨0, u, l⟩ = some d := by
  have key : ∀ (lives : List (List (Op × (Doc → Bool)))) {before : List (Nat × LogLine)} {st st' : List Doc}, Kept ext pfx type tags before (init limit pfx type tags) st →
      runLives ext (init limit pfx type tags) st lives = some st' → Kept ext pfx type tags (before ++ lives.flatMap linesOf) (init limit pfx type tags) st' := by
    intro lives
    induction lives with
    | nil => intro before st st' k h; simp only [runLives, Option.some.injEq] at h; subst h; simpa using k
    | cons ops lives ih =>
      intro before st st' k h
      rw [runLives] at h
      cases hr : runServer ext (init limit pfx type tags) st ops with
      | none => rw [hr] at h; cases h
      | some r =>
        obtain ⟨s1, st1⟩ := r
        rw [hr] at h
        have k1 := kept_run ops k hr
        have := ih (before := before ++ linesOf ops) (st := st1) ⟨⟨rfl, rfl, rfl⟩, by simp [init], k1.keys, k1.docs⟩ h
        simpa [List.flatMap_cons] using this
  have k := key lives (before := []) (st := []) ⟨⟨rfl, rfl, rfl⟩, by simp [init], by simp, by simp⟩ h
  rw [List.nil_append] at k
  have hids' : ((lives.flatMap linesOf).map Prod.fst).Nodup := by
    rw [List.map_flatMap]
    simp only [linesOf_ids]
    exact hids
  refine ⟨kept_ids hid hids' k, fun d hd => ?_⟩
  obtain ⟨u, l, h1, h2⟩ := k.docs d hd
  exact ⟨u, l, h1, docOf_id h2, h2⟩

private theorem run_server {ext : Ext} (ops : List (Op × (Doc → Bool))) : ∀ {s s' : State} {store store' : List Doc},
    runServer ext s store ops = some (s', store') → run ext s (ops.map Prod.fst) = some s' := by
  induction ops with
  | nil => intro s s' store store' h; simp only [runServer, Option.some.injEq, Prod.mk.injEq] at h; simp [run, h.1]
  | cons o ops ih =>
    intro s s' store store' h
    obtain ⟨o, c⟩ := o
    cases o with
    | line u l => exact ih h
    | flush resp =>
      simp only [runServer] at h
      cases hf : flush ext s resp with
      | none => rw [hf] at h; simp at h
      | some r =>
        rw [hf] at h
        simp only [List.map_cons, run, hf]
        exact ih h

/-- a document once there, or acknowledged, is there in the end -/
private theorem stays {ext : Ext} (ops : List (Op × (Doc → Bool))) : ∀ {s s' : State} {store store' : List Doc},
    (store.map fun e => (e.index, e.id)).Nodup → Truthful ext s ops →
    runServer ext s store ops = some (s', store') → ∀ u, ((∃ d ∈ store, d.id = ext.showId u) ∨ 0 < said true u (answers (ops.map Prod.fst))) →
      ∃ d ∈ store', d.id = ext.showId u := by
  induction ops with
  | nil =>
    intro s s' store store' hk ht h u hu
    simp only [runServer, Option.some.injEq, Prod.mk.injEq] at h
    obtain ⟨-, rfl⟩ := h
    simpa [answers, said] using hu
  | cons o ops ih =>
    intro s s' store store' hk ht h u hu
    obtain ⟨o, c⟩ := o
    cases o with
    | line v l => exact ih hk ht h u hu
    | flush resp =>
      simp only [runServer] at h
      simp only [Truthful] at ht
      cases hf : flush ext s resp with
      | none => rw [hf] at h; simp at h
      | some r =>
        obtain ⟨s1, docs⟩ := r
        rw [hf] at h ht
        obtain ⟨t1, t2⟩ := ht
        obtain ⟨c1, -, c3⟩ := carryOut_facts c (docs.getD []) store hk
        refine ih c1 t2 h u ?_
        rcases hu with hu | hu
        · exact .inl (c3 _ (.inl hu))
        · cases resp with
          | sendError => exact .inr (by simpa [answers] using hu)
          | error => exact .inr (by simpa [answers] using hu)
          | bulk items =>
            simp only [List.map_cons, answers, said, List.countP_append] at hu
            by_cases h0 : 0 < items.countP fun it => decide (it = ⟨true, some u⟩)
            · rw [List.countP_pos_iff] at h0
              obtain ⟨it, hit, he⟩ := h0
              simp only [decide_eq_true_eq] at he
              subst he
              exact .inl (c3 _ (.inr (t1 items rfl u hit)))
            · exact .inr (by simp only [said]; omega)

private theorem answers_after (before after : List Op) (u : Nat) (l : LogLine) (b : Bool) :
    said b u (answers after) ≤ said b u (answers (before ++ .line u l :: after)) := by
  induction before with
  | nil => exact Nat.le_refl _
  | cons o before ih =>
    cases o with
    | line v m => exact ih
    | flush resp =>
      cases resp with
      | sendError => exact ih
      | error => exact ih
      | bulk items =>
        simp only [List.cons_append, answers, said, List.countP_append] at ih ⊢
        omega

private theorem unacknowledged_has (before after : List Op) (u : Nat) (l : LogLine) (h : said true u (answers after) = 0) :
    ∃ n, (⟨n, u, l⟩ : Line) ∈ unacknowledged (before ++ .line u l :: after) := by
  induction before with
  | nil => exact ⟨said false u (answers after) % 256, by simp [unacknowledged, h]⟩
  | cons o before ih =>
    obtain ⟨n, hn⟩ := ih
    cases o with
    | line v m => exact ⟨n, by simp only [List.cons_append, unacknowledged, List.mem_append]; exact .inr hn⟩
    | flush resp => exact ⟨n, hn⟩

/-- the only document with that id is that of the line -/
private theorem one_doc {ext : Ext} {store : List Doc} (hn : (store.map (·.id)).Nodup) {d : Doc} (hd : d ∈ store) :
    store.filter (fun e => decide (e.id = d.id)) = [d] := by
  induction store with
  | nil => simp at hd
  | cons e store ih =>
    simp only [List.map_cons, List.nodup_cons] at hn
    rcases List.mem_cons.1 hd with rfl | hd
    · have : store.filter (fun e => decide (e.id = d.id)) = [] := by
        rw [List.filter_eq_nil_iff]
        intro e he
        simp only [decide_eq_true_eq]
        intro heq
        exact hn.1 (List.mem_map.2 ⟨e, he, heq⟩)
      simp [this]
    · have hne : e.id ≠ d.id := fun heq => hn.1 (List.mem_map.2 ⟨d, hd, heq.symm⟩)
      simp [hne, ih hn.2 hd]

/-- **C138** (nothing forgotten) With a server that says it has written a line only if it has, every line ever delivered still waits in the sink, or was
refused more often than the limit since, or is held by the server: as exactly one document, the one of that line. -/
theorem C138_indexed_once (ext : Ext) (hid : ∀ u v, ext.showId u = ext.showId v → u = v) (limit : Nat) (hlim : limit ≤ 255) (pfx : Option Str)
    (type : Str) (tags : TagMap) (before after : List (Op × (Doc → Bool))) (u : Nat) (l : LogLine) (c : Doc → Bool)
    (hids : (ids ((before ++ (.line u l, c) :: after).map Prod.fst)).Nodup)
    (htrue : Truthful ext (init limit pfx type tags) (before ++ (.line u l, c) :: after)) (s : State) (store : List Doc)
    (h : runServer ext (init limit pfx type tags) [] (before ++ (.line u l, c) :: after) = some (s, store)) :
    (∃ n, ⟨n, u, l⟩ ∈ s.buffer) ∨ limit < said false u (answers (after.map Prod.fst)) ∨
    ∃ d, docOf ext (init limit pfx type tags) ⟨0, u, l⟩ = some d ∧ store.filter (fun e => decide (e.id = ext.showId u)) = [d] := by
  have hrun := run_server _ h
  have hmap : (before ++ (.line u l, c) :: after).map Prod.fst = before.map Prod.fst ++ .line u l :: after.map Prod.fst := by simp
  by_cases hack : said true u (answers (after.map Prod.fst)) = 0
  · by_cases href : limit < said false u (answers (after.map Prod.fst))
    · exact .inr (.inl href)
    left
    rw [hmap] at hrun hids
    by_cases hl : limit < 255
    · exact (C53_line_partial ext limit hl pfx type tags _ _ u l hids s hrun).2 ⟨hack, by omega⟩
    · have : limit = 255 := by omega
      subst this
      rw [C53_waiting_255_partial ext pfx type tags _ hids s hrun]
      exact unacknowledged_has _ _ u l hack
  · right; right
    obtain ⟨hn, hdocs⟩ := C138_no_duplicates ext hid limit pfx type tags _ hids s store h
    obtain ⟨d, hd, hdid⟩ := stays _ (by simp) htrue h u (.inr (by
      have := answers_after (before.map Prod.fst) (after.map Prod.fst) u l true
      rw [hmap]
      omega))
    obtain ⟨v, l', hv, hvid, hdoc⟩ := hdocs d hd
    have huv : v = u := hid _ _ (hvid.symm.trans hdid)
    subst huv
    have hmem : (v, l) ∈ linesOf (before ++ (.line v l, c) :: after) := by
      clear h hrun hids htrue hv hmap hdocs
      induction before with
      | nil => simp [linesOf]
      | cons o before ih => obtain ⟨o, c'⟩ := o; cases o <;> simp_all [linesOf]
    rw [← linesOf_ids] at hids
    have := same_line hids hv hmem
    subst this
    exact ⟨d, hdoc, by rw [← hdid]; exact one_doc (ext := ext) hn hd⟩

/-- ids written as strokes -/
private def strokes : Ext := { esExt with showId := fun n => List.replicate n 'i' }

private theorem strokes_inj : ∀ u v, strokes.showId u = strokes.showId v → u = v := by
  intro u v h
  have := congrArg List.length h
  simpa [strokes] using this

/-- A request that seems to fail although the server carries it out, a second line, a request that is half carried out, and a refusal. -/
private def resent : List (Op × (Doc → Bool)) :=
  [(.line 1 (esLine 5 "a"), fun _ => false), (.flush .sendError, fun _ => true), (.line 2 (esLine 6 "b"), fun _ => false),
   (.flush (.bulk [⟨true, some 1⟩, ⟨false, some 2⟩]), fun d => d.id = ['i']), (.flush .error, fun _ => true)]

example : (ids (resent.map Prod.fst)).Nodup := by decide
-- both are held, once each; the second also still waits
example : (runServer strokes (init 3 none [] []) [] resent).map (fun r => (r.1.buffer, r.2.map (fun d => (d.id, d.body.get "payload".toList)))) =
    some ([⟨1, 2, esLine 6 "b"⟩], [(['i'], some ['a']), (['i', 'i'], some ['b'])]) := by decide
example : Truthful strokes (init 3 none [] []) resent := by
  refine ⟨fun items h => by simp at h, ?_, ⟨fun items h => by simp at h, trivial⟩⟩
  intro items h u hu
  simp only [Response.bulk.injEq] at h
  subst h
  simp only [List.mem_cons, List.not_mem_nil, or_false, Item.mk.injEq, true_and, Option.some.injEq, Bool.true_eq_false, false_and] at hu
  subst hu
  exact ⟨⟨['D'], [], ['i'], [("uuid".toList, ['i']), ("path".toList, ['p']), ("payload".toList, ['a']), ("timestamp".toList, ['T'])]⟩,
    by decide, rfl, rfl⟩
example := C138_no_duplicates strokes strokes_inj 3 none [] [] resent (by decide)

end Verif
