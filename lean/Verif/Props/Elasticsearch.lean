import Verif.Lemmas.Elasticsearch
import Verif.Props.Tags
/-!
# C53, C76, C77: the Elasticsearch sink
-/
namespace Verif
open Elastic

/-! ## C53: lines wait until acknowledged or exhausted -/

/-- After any history that did not end in a panic, exactly the lines that should be waiting are
waiting, in order of arrival, each with its number of refusals: failed requests count for
nothing.  Missing: the largest configurable limit, 255 (`C53_limit_255_false`). -/
theorem C53_waiting_partial (ext : Ext) (limit : Nat) (hl : limit < 255) (pfx : Option Str)
    (type : Str) (tags : TagMap) (ops : List Op) (hids : (ids ops).Nodup) (s : State)
    (h : run ext (init limit pfx type tags) ops = some s) : s.buffer = waiting limit ops := by
  have := run_spec ext ops (init limit pfx type tags) s (Nat.le_of_lt hl) (by simpa [init] using hids)
    (by simp [init]) h
  rw [this]
  simpa [init] using waitingAny_eq limit hl ops

/-- What happens with the limit 255 instead: a line waits until it is acknowledged, however often it
is refused, and its refusals are counted modulo 256.  (`C53_limit_255_false` is a run of this kind.) -/
theorem C53_waiting_255_partial (ext : Ext) (pfx : Option Str)
    (type : Str) (tags : TagMap) (ops : List Op) (hids : (ids ops).Nodup) (s : State)
    (h : run ext (init 255 pfx type tags) ops = some s) : s.buffer = unacknowledged ops := by
  have := run_spec ext ops (init 255 pfx type tags) s (Nat.le_refl _) (by simpa [init] using hids)
    (by simp [init]) h
  rw [this]
  simpa [init] using waitingAny_255 ops

/-- In words about one line: it is waiting iff it arrived, and since then was not acknowledged and
was refused at most as often as the limit says. -/
theorem C53_line_partial (ext : Ext) (limit : Nat) (hl : limit < 255) (pfx : Option Str)
    (type : Str) (tags : TagMap) (before after : List Op) (u : Nat) (l : LogLine)
    (hids : (ids (before ++ .line u l :: after)).Nodup) (s : State)
    (h : run ext (init limit pfx type tags) (before ++ .line u l :: after) = some s) :
    (∃ n, ⟨n, u, l⟩ ∈ s.buffer) ↔
      said true u (answers after) = 0 ∧ said false u (answers after) ≤ limit := by
  rw [C53_waiting_partial ext limit hl pfx type tags _ hids s h]
  have hidsapp : ∀ a b : List Op, ids (a ++ b) = ids a ++ ids b := by
    intro a b
    induction a with
    | nil => rfl
    | cons op a ih => cases op <;> simp [ids, ih]
  have hwapp : ∀ b : List Op, ∀ a x, x ∈ waiting limit (a ++ b) → x ∈ waiting limit b ∨ x.uuid ∈ ids a := by
    intro b a x
    induction a with
    | nil => exact Or.inl
    | cons op a ih =>
      cases op with
      | flush r => simpa [waiting, ids] using ih
      | line v m =>
        intro hx
        simp only [List.cons_append, waiting, List.mem_append] at hx
        rcases hx with hx | hx
        · split at hx
          · rw [List.mem_singleton] at hx; right; rw [hx]; exact List.mem_cons_self ..
          · simp at hx
        · rcases ih hx with h | h
          · exact Or.inl h
          · exact Or.inr (List.mem_cons_of_mem _ h)
  have hwr : ∀ b : List Op, ∀ a x, x ∈ waiting limit b → x ∈ waiting limit (a ++ b) := by
    intro b a x hx
    induction a with
    | nil => exact hx
    | cons op a ih =>
      cases op with
      | flush r => simpa [waiting] using ih
      | line v m => simp only [List.cons_append, waiting, List.mem_append]; exact Or.inr ih
  have hwids : ∀ a x, x ∈ waiting limit a → x.uuid ∈ ids a := by
    intro a x hx
    have := hwapp [] a x (by simpa using hx)
    simpa [waiting] using this
  rw [hidsapp] at hids
  obtain ⟨_, h2, h3⟩ := List.nodup_append.mp hids
  simp only [ids, List.nodup_cons] at h2
  constructor
  · rintro ⟨n, hn⟩
    rcases hwapp _ _ _ hn with h | h
    · simp only [waiting, List.mem_append] at h
      rcases h with h | h
      · split at h
        · assumption
        · simp at h
      · exact absurd (hwids _ _ h) h2.1
    · exact absurd rfl (h3 u h u (by simp [ids]))
  · intro hc
    refine ⟨_, hwr _ before ⟨said false u (answers after), u, l⟩ ?_⟩
    simp only [waiting, if_pos hc]
    simp

/-- a world for the examples: times up to 99 can be formatted -/
def esExt : Ext where
  time := fun t => if t ≤ 99 then some ['T'] else none
  date := fun t => if t ≤ 99 then some ['D'] else none
  showId := fun n => (toString n).toList

/-- a log line for the examples -/
def esLine (t : Int) (v : String) : LogLine := ⟨t, "p".toList, v.toList, [], none⟩

/-- Three lines, a failed request, an acknowledgement, two refusals at limit 1. -/
def esOps : List Op :=
  [.line 1 (esLine 5 "a"), .line 2 (esLine 6 "b"), .flush .sendError, .line 3 (esLine 7 "c"),
   .flush (.bulk [⟨true, some 2⟩, ⟨false, some 1⟩, ⟨false, some 3⟩]),
   .flush (.bulk [⟨false, some 1⟩])]

example : (ids esOps).Nodup := by decide
example : (run esExt (init 1 none [] []) esOps).map (·.buffer) =
    some [⟨1, 3, esLine 7 "c"⟩] := by decide
example : waiting 1 esOps = [⟨1, 3, esLine 7 "c"⟩] := by decide

/-- Disagreement: with the limit 255 a line the server always refuses is kept forever (the `u8`
counter wraps; in a build with overflow checks the sink panics instead). -/
theorem C53_limit_255_false (ext : Ext) (pfx : Option Str) (type : Str) (tags : TagMap) (u : Nat)
    (l : LogLine) (ht : (ext.time l.time).isSome) (hd : (ext.date l.time).isSome) (n : Nat) :
    ∃ s, run ext (init 255 pfx type tags)
        (.line u l :: List.replicate n (.flush (.bulk [⟨false, some u⟩]))) = some s ∧
      s.buffer = [⟨n % 256, u, l⟩] := by
  obtain ⟨t, ht⟩ := Option.isSome_iff_exists.mp ht
  obtain ⟨d, hd⟩ := Option.isSome_iff_exists.mp hd
  have key : ∀ (n k : Nat) (s : State), s.limit = 255 → s.buffer = [⟨k % 256, u, l⟩] →
      ∃ s', run ext s (List.replicate n (.flush (.bulk [⟨false, some u⟩]))) = some s' ∧
        s'.buffer = [⟨(k + n) % 256, u, l⟩] := by
    intro n
    induction n with
    | zero => intro k s _ hb; exact ⟨s, rfl, hb⟩
    | succ n ih =>
      intro k s hl hb
      have hbody : ∃ ds, bulkBody ext s = some ds := by
        simp [bulkBody, hb, docsOf, docOf, indexName, ht, hd]
      obtain ⟨ds, hds⟩ := hbody
      have hmod : (k % 256 + 1) % 256 = (k + 1) % 256 := by omega
      have hle : ¬ (k + 1) % 256 > 255 := by omega
      have hitem : onItems 255 [⟨k % 256, u, l⟩] [⟨false, some u⟩] =
          some [⟨(k + 1) % 256, u, l⟩] := by
        simp [onItems, onItem, position, hmod, hle]
      have hf : flush ext s (.bulk [⟨false, some u⟩]) =
          some ({ s with buffer := [⟨(k + 1) % 256, u, l⟩] }, some ds) := by
        simp [flush, hb, hds, hl, hitem]
      obtain ⟨s', h1, h2⟩ := ih (k + 1) { s with buffer := [⟨(k + 1) % 256, u, l⟩] } hl rfl
      refine ⟨s', ?_, ?_⟩
      · rw [List.replicate_succ, run, hf]; exact h1
      · rw [h2, show k + 1 + n = k + (n + 1) by omega]
  obtain ⟨s, h1, h2⟩ := key n 0 (deliverLine (init 255 pfx type tags) u l) rfl rfl
  exact ⟨s, h1, by rw [h2, Nat.zero_add]⟩

/-! ## C76: the documents -/

private theorem tags_lookup (own : Option TagMap) (defaults : TagMap) (ho : OwnOk own)
    (hd : defaults.Ok) : TagMap.Ok (tagIter own defaults).collect ∧
      ∀ k, TagMap.get (tagIter own defaults).collect k = getFromTags own k defaults := by
  obtain ⟨out, ⟨N, hN⟩, hnd, _, hget⟩ := C01_tag_layering own defaults ho hd
  have : out = (tagIter own defaults).collect := by
    rw [← hN (max N (tagIter own defaults).fuel) (Nat.le_max_left ..)]
    exact TagIter.take_collect own defaults _ (Nat.le_max_right ..)
  subst this
  refine ⟨hnd, fun k => ?_⟩
  cases h : getFromTags own k defaults with
  | some v => exact (TagMap.get_iff_mem hnd).mpr ((hget k v).mpr h)
  | none =>
    rw [TagMap.get_eq_none]
    intro v hv
    rw [(hget k v).mp hv] at h
    simp at h

private theorem get4 (a b c d u v w x k : Str) :
    TagMap.get [(a, u), (b, v), (c, w), (d, x)] k =
      if a = k then some u else if b = k then some v else if c = k then some w
        else if d = k then some x else none := by
  simp only [TagMap.get]

/-- A flush with lines waiting sends one request with one document per waiting line, in order;
its id and index are the line's, and its body maps a key to the line's field of that name, else
to its own or the sink's tag, else to the line's id, path, text or time. -/
theorem C76_documents (ext : Ext) (s s' : State) (resp : Response) (docs : List Doc)
    (hd : s.tags.Ok) (hb : ∀ m ∈ s.buffer, OwnOk m.line.tags ∧ m.line.fields.Ok)
    (h : flush ext s resp = some (s', some docs)) :
    docs.length = s.buffer.length ∧
    ∀ (i : Nat) (m : Line) (d : Doc), s.buffer[i]? = some m → docs[i]? = some d →
      d.id = ext.showId m.uuid ∧ d.type = s.indexType ∧
      (∃ date, ext.date m.line.time = some date ∧
        d.index = (match s.indexPrefix with | some p => p ++ '-' :: date | none => date)) ∧
      ∃ time, ext.time m.line.time = some time ∧
        ∀ k, d.body.get k =
          ((m.line.fields.get k).or (getFromTags m.line.tags k s.tags)).or
            (if "uuid".toList = k then some (ext.showId m.uuid)
             else if "path".toList = k then some m.line.path
             else if "payload".toList = k then some m.line.value
             else if "timestamp".toList = k then some time else none) := by
  have hdocs : docsOf ext s s.buffer = some docs := by
    by_cases he : s.buffer = []
    · simp [flush, he] at h
    · simp only [flush, if_neg he, bulkBody] at h
      cases hb : docsOf ext s s.buffer with
      | none => rw [hb] at h; simp at h
      | some ds =>
        rw [hb] at h
        cases resp with
        | sendError => simp only [Option.some.injEq, Prod.mk.injEq] at h; rw [h.2]
        | error => simp only [Option.some.injEq, Prod.mk.injEq] at h; rw [h.2]
        | bulk items =>
          cases ho : onItems s.limit s.buffer items with
          | none => simp [ho] at h
          | some b => simp only [ho, Option.some.injEq, Prod.mk.injEq] at h; rw [h.2]
  have key : ∀ (ms : List Line) (ds : List Doc), docsOf ext s ms = some ds →
      ds.length = ms.length ∧ ∀ (i : Nat) (m : Line) (d : Doc), ms[i]? = some m → ds[i]? = some d →
        docOf ext s m = some d := by
    intro ms
    induction ms with
    | nil => intro ds h; simp only [docsOf, Option.some.injEq] at h; subst h; simp
    | cons m ms ih =>
      intro ds h
      cases h1 : docOf ext s m with
      | none => simp [docsOf, h1] at h
      | some d =>
        cases h2 : docsOf ext s ms with
        | none => simp [docsOf, h1, h2] at h
        | some ds' =>
          simp only [docsOf, h1, h2, Option.some.injEq] at h
          subst h
          obtain ⟨h3, h4⟩ := ih ds' h2
          refine ⟨by simp [h3], fun i m' d' hm' hd' => ?_⟩
          cases i with
          | zero =>
            simp only [List.getElem?_cons_zero, Option.some.injEq] at hm' hd'
            rw [← hm', ← hd', h1]
          | succ i =>
            simp only [List.getElem?_cons_succ] at hm' hd'
            exact h4 i m' d' hm' hd'
  obtain ⟨h1, h2⟩ := key s.buffer docs hdocs
  refine ⟨h1, fun i m d hm hdoc => ?_⟩
  have hdoc := h2 i m d hm hdoc
  obtain ⟨ho, hf⟩ := hb m (List.mem_of_getElem? hm)
  simp only [docOf, indexName] at hdoc
  cases hdate : ext.date m.line.time with
  | none => rw [hdate] at hdoc; simp at hdoc
  | some date =>
    cases htime : ext.time m.line.time with
    | none => rw [hdate, htime] at hdoc; simp at hdoc
    | some time =>
      rw [hdate, htime] at hdoc
      simp only [Option.map_some, Option.some.injEq] at hdoc
      subst hdoc
      refine ⟨rfl, rfl, ⟨date, rfl, by cases s.indexPrefix <;> rfl⟩, time, rfl, fun k => ?_⟩
      obtain ⟨ht1, ht2⟩ := tags_lookup m.line.tags s.tags ho hd
      simp only
      rw [TagMap.get_setAll _ _ hf, TagMap.get_setAll _ _ ht1, ht2]
      cases TagMap.get m.line.fields k with
      | some v => rfl
      | none =>
        cases getFromTags m.line.tags k s.tags with
        | some v => rfl
        | none => exact get4 ..

/-- Disagreement: a tag called `payload` replaces the text of the line. -/
theorem C76_text_lost_false :
    (flush esExt (deliverLine (init 3 none [] []) 1
        { esLine 5 "the text" with tags := some [("payload".toList, "tag".toList)] }) .error).map
      (fun r => r.2.map (·.map (·.body.get "payload".toList))) = some (some [some "tag".toList]) := by
  decide

example : (flush esExt (deliverLine (init 3 (some "idx".toList) "ty".toList [("a".toList, "1".toList), ("b".toList, "2".toList)]) 1
        { esLine 5 "x" with tags := some [("b".toList, "3".toList)], fields := [("f".toList, "4".toList)] }) .error).map (·.2) =
    some (some [⟨"idx-D".toList, "ty".toList, "1".toList,
      [("uuid".toList, "1".toList), ("path".toList, "p".toList), ("payload".toList, "x".toList),
       ("timestamp".toList, "T".toList), ("b".toList, "3".toList), ("a".toList, "1".toList),
       ("f".toList, "4".toList)]⟩]) := by decide

/-! ## C77: no answer and no line takes the sink down -/

/-- Partial: with an honest server, lines whose times can be formatted no history panics (the limit is a `u8`, so
at most 255).  Missing: see the two disagreements. -/
theorem C77_no_panic_partial (ext : Ext) (limit : Nat) (hl : limit ≤ 255) (pfx : Option Str)
    (type : Str) (tags : TagMap) (ops : List Op) (hids : (ids ops).Nodup)
    (ht : ∀ u l, Op.line u l ∈ ops → (ext.time l.time).isSome ∧ (ext.date l.time).isSome)
    (hh : ∀ before resp after s, ops = before ++ .flush resp :: after →
      run ext (init limit pfx type tags) before = some s → Honest s.buffer resp) :
    ∃ s, run ext (init limit pfx type tags) ops = some s := by
  have hidsapp : ∀ a b : List Op, ids (a ++ b) = ids a ++ ids b := by
    intro a b
    induction a with
    | nil => rfl
    | cons op a ih => cases op <;> simp [ids, ih]
  have hrunapp : ∀ (a b : List Op) (s s' : State), run ext s a = some s' →
      run ext s (a ++ b) = run ext s' b := by
    intro a b
    induction a with
    | nil => intro s s' h; simp only [run, Option.some.injEq] at h; rw [h]; rfl
    | cons op a ih =>
      intro s s' h
      cases op with
      | line u l => exact ih _ _ h
      | flush r =>
        simp only [run, List.cons_append] at h ⊢
        cases hf : flush ext s r with
        | none => rw [hf] at h; simp at h
        | some x => rw [hf] at h; exact ih _ _ h
  have key : ∀ n, n ≤ ops.length → ∃ s, run ext (init limit pfx type tags) (ops.take n) = some s := by
    intro n
    induction n with
    | zero => intro _; exact ⟨_, rfl⟩
    | succ n ih =>
      intro hn
      obtain ⟨s, hs⟩ := ih (by omega)
      have hsplit : ops.take (n + 1) = ops.take n ++ [ops[n]] := by
        rw [List.take_append_getElem]
      have hmem : ops = ops.take n ++ ops[n] :: ops.drop (n + 1) := by
        rw [← List.drop_eq_getElem_cons, List.take_append_drop]
      rw [hsplit, hrunapp _ _ _ _ hs]
      have hndt : (ids (ops.take n)).Nodup := by
        have : ids ops = ids (ops.take n) ++ ids (ops.drop n) := by
          rw [← hidsapp, List.take_append_drop]
        rw [this] at hids
        exact (List.nodup_append.mp hids).1
      have hspec := run_spec ext (ops.take n) (init limit pfx type tags) s hl
        (by simpa [init] using hndt) (by simp [init]) hs
      have hbuf : s.buffer = waitingAny limit (ops.take n) := by rw [hspec]; rfl
      have hlim : s.limit = limit := by rw [hspec]; rfl
      have hw : ∀ (a : List Op), ((waitingAny limit a).map (·.uuid)).Sublist (ids a) ∧
          (∀ x ∈ waitingAny limit a, x.attempts ≤ limit ∧ Op.line x.uuid x.line ∈ a) := by
        intro a
        induction a with
        | nil => exact ⟨List.Sublist.slnil, by simp [waitingAny]⟩
        | cons op a ih =>
          cases op with
          | flush r => exact ⟨ih.1, fun x hx => ⟨(ih.2 x hx).1, List.mem_cons_of_mem _ (ih.2 x hx).2⟩⟩
          | line u l =>
            simp only [waitingAny, ids]
            split
            · next hc =>
              refine ⟨ih.1.cons_cons _, fun x hx => ?_⟩
              rcases List.mem_cons.mp hx with rfl | hx
              · exact ⟨by simp only; omega, List.mem_cons_self ..⟩
              · exact ⟨(ih.2 x hx).1, List.mem_cons_of_mem _ (ih.2 x hx).2⟩
            · exact ⟨ih.1.cons _, fun x hx => ⟨(ih.2 x hx).1, List.mem_cons_of_mem _ (ih.2 x hx).2⟩⟩
      obtain ⟨hw1, hw2⟩ := hw (ops.take n)
      cases hop : ops[n] with
      | line u l => exact ⟨_, rfl⟩
      | flush resp =>
        have hhon := hh (ops.take n) resp (ops.drop (n + 1)) s (by rw [← hop]; exact hmem) hs
        simp only [run]
        suffices ∃ r, flush ext s resp = some r by
          obtain ⟨⟨s', d⟩, hr⟩ := this
          exact ⟨s', by rw [hr]⟩
        by_cases hb : s.buffer = []
        · exact ⟨_, by rw [flush, if_pos hb]⟩
        · have hdocs : ∀ ms : List Line, (∀ m ∈ ms, Op.line m.uuid m.line ∈ ops) →
              ∃ ds, docsOf ext s ms = some ds := by
            intro ms
            induction ms with
            | nil => intro _; exact ⟨_, rfl⟩
            | cons m ms ih =>
              intro h
              obtain ⟨ds, hds⟩ := ih (fun x hx => h x (List.mem_cons_of_mem _ hx))
              obtain ⟨h1, h2⟩ := ht m.uuid m.line (h m (List.mem_cons_self ..))
              obtain ⟨t, h1⟩ := Option.isSome_iff_exists.mp h1
              obtain ⟨d, h2⟩ := Option.isSome_iff_exists.mp h2
              exact ⟨_, by simp only [docsOf, docOf, indexName, h1, h2, hds, Option.map_some]; rfl⟩
          obtain ⟨ds, hds⟩ := hdocs s.buffer (fun m hm => by
            rw [hbuf] at hm
            exact List.mem_of_mem_take (hw2 m hm).2)
          simp only [flush, if_neg hb, bulkBody, hds]
          cases resp with
          | sendError => exact ⟨_, rfl⟩
          | error => exact ⟨_, rfl⟩
          | bulk items =>
            obtain ⟨b', hb'⟩ := onItems_some limit hl items s.buffer
              (by rw [hbuf]; exact hw1.nodup hndt) (by rw [hbuf]; exact fun x hx => (hw2 x hx).1)
              hhon.1 hhon.2
            simp only [hlim, hb']
            exact ⟨_, rfl⟩
  obtain ⟨s, hs⟩ := key ops.length (Nat.le_refl _)
  exact ⟨s, by rwa [List.take_length] at hs⟩

/-- The hypotheses hold of the example history. -/
example : ∀ u l, Op.line u l ∈ esOps → (esExt.time l.time).isSome ∧ (esExt.date l.time).isSome := by
  intro u l h
  simp only [esOps, List.mem_cons, Op.line.injEq, reduceCtorEq, List.not_mem_nil, or_false, false_or] at h
  rcases h with ⟨_, rfl⟩ | ⟨_, rfl⟩ | ⟨_, rfl⟩ <;> decide
example : Honest [⟨0, 1, esLine 5 "a"⟩, ⟨0, 2, esLine 6 "b"⟩, ⟨0, 3, esLine 7 "c"⟩]
    (.bulk [⟨true, some 2⟩, ⟨false, some 1⟩, ⟨false, some 3⟩]) := by
  refine ⟨by decide, fun it hit => ?_⟩
  simp only [List.mem_cons, List.not_mem_nil, or_false] at hit
  rcases hit with rfl | rfl | rfl
  · exact ⟨⟨0, 2, esLine 6 "b"⟩, by simp, rfl⟩
  · exact ⟨⟨0, 1, esLine 5 "a"⟩, by simp, rfl⟩
  · exact ⟨⟨0, 3, esLine 7 "c"⟩, by simp, rfl⟩

/-- Disagreement: an answer about a line that is not waiting, or a second answer about a line
that was acknowledged, takes the sink down. -/
theorem C77_answers_false (ext : Ext) (s : State) (A B : List Item) (it : Item)
    (hit : ∀ b, onItems s.limit s.buffer A = some b → ∀ l ∈ b, it.id ≠ some l.uuid)
    (hb : s.buffer ≠ []) : flush ext s (.bulk (A ++ it :: B)) = none := by
  have happ : ∀ (A : List Item) (b : List Line), (∀ b', onItems s.limit b A = some b' →
      ∀ l ∈ b', it.id ≠ some l.uuid) → onItems s.limit b (A ++ it :: B) = none := by
    intro A
    induction A with
    | nil =>
      intro b h
      have hb := h b rfl
      have : onItem s.limit b it = none := by
        cases hid : it.id with
        | none => simp [onItem, hid]
        | some u =>
          have : position b u = b.length := position_none b u (fun l hl e => hb l hl (by rw [hid, e]))
          simp [onItem, hid, this]
      simp only [List.nil_append, onItems, this]
    | cons a A ih =>
      intro b h
      simp only [List.cons_append, onItems]
      cases ha : onItem s.limit b a with
      | none => rfl
      | some b1 => exact ih b1 (fun b' hb' => h b' (by simp only [onItems, ha]; exact hb'))
  simp only [flush, if_neg hb]
  cases bulkBody ext s with
  | none => rfl
  | some ds => simp only [happ A s.buffer hit]

example : flush esExt (deliverLine (init 3 none [] []) 1 (esLine 5 "a"))
    (.bulk [⟨true, some 1⟩, ⟨true, some 1⟩]) = none := by decide

/-- Disagreement: a line with a time that the date library cannot represent takes the sink
down at the next flush. -/
theorem C77_time_false :
    flush esExt (deliverLine (init 3 none [] []) 1 (esLine 100 "a")) .error = none := by decide

private theorem onItem_none (limit : Nat) (b : List Line) (it : Item) :
    onItem limit b it = none ↔ ∀ l ∈ b, it.id ≠ some l.uuid := by
  have hpos : ∀ (b : List Line) (u : Nat), b[position b u]? = none ↔ ∀ l ∈ b, l.uuid ≠ u := by
    intro b u
    induction b with
    | nil => simp [position]
    | cons l b ih =>
      simp only [position]
      by_cases h : l.uuid = u
      · simp [h]
      · simp only [h, if_false, List.getElem?_cons_succ, ih, List.mem_cons, forall_eq_or_imp]
        exact ⟨fun h' => ⟨h, h'⟩, fun h' => h'.2⟩
  cases hid : it.id with
  | none => simp [onItem, hid]
  | some u =>
    have h1 := hpos b u
    simp only [onItem, hid]
    cases hx : b[position b u]? with
    | none =>
      simp only [true_iff]
      intro l hl e
      exact h1.1 hx l hl (Option.some.inj e).symm
    | some l =>
      simp only
      constructor
      · intro h; split at h <;> cases h
      · intro h
        have : b[position b u]? = none := h1.2 (fun l hl e => h l hl (by rw [e]))
        rw [hx] at this; cases this

private theorem onItems_none (limit : Nat) (its : List Item) : ∀ b : List Line,
    onItems limit b its = none ↔ ∃ A it B b', its = A ++ it :: B ∧ onItems limit b A = some b' ∧
      ∀ l ∈ b', it.id ≠ some l.uuid := by
  induction its with
  | nil =>
    intro b
    simp only [onItems, reduceCtorEq, false_iff]
    rintro ⟨A, it, B, b', h, -⟩
    simp at h
  | cons x its ih =>
    intro b
    simp only [onItems]
    cases hx : onItem limit b x with
    | none =>
      simp only [true_iff]
      exact ⟨[], x, its, b, rfl, rfl, (onItem_none limit b x).1 hx⟩
    | some b1 =>
      simp only [ih b1]
      constructor
      · rintro ⟨A, it, B, b', h1, h2, h3⟩
        exact ⟨x :: A, it, B, b', by simp [h1], by simp only [onItems, hx, h2], h3⟩
      · rintro ⟨A, it, B, b', h1, h2, h3⟩
        cases A with
        | nil =>
          simp only [onItems, Option.some.injEq] at h2
          subst h2
          simp only [List.nil_append, List.cons.injEq] at h1
          rw [h1.1, (onItem_none limit b it).2 h3] at hx
          cases hx
        | cons a A =>
          simp only [List.cons_append, List.cons.injEq] at h1
          obtain ⟨rfl, h1⟩ := h1
          simp only [onItems, hx] at h2
          exact ⟨A, it, B, b', h1, h2, h3⟩

theorem bulkBody_none (ext : Ext) (s : State) (hb : s.buffer ≠ []) :
    bulkBody ext s = none ↔ ∃ l ∈ s.buffer, ext.time l.line.time = none ∨ ext.date l.line.time = none := by
  simp only [bulkBody, if_neg hb]
  generalize s.buffer = ms
  induction ms with
  | nil => simp [docsOf]
  | cons m ms ih =>
    simp only [docsOf, List.mem_cons, exists_eq_or_imp, ← ih]
    cases hd : ext.date m.line.time with
    | none => simp [docOf, indexName, hd]
    | some d =>
      cases ht : ext.time m.line.time with
      | none => simp [docOf, indexName, hd, ht]
      | some t =>
        simp only [docOf, indexName, hd, ht, Option.map_some]
        cases docsOf ext s ms <;> simp

/-- **C77 (exact, partial).** After any history that did not panic, with a limit below 255, a flush
takes the sink down exactly if lines are waiting and either the time of one of them cannot be
represented, or one of the answers is about a line that is not waiting (any more) when its turn
comes, that is after the answers before it.  Missing for C77: that these do no harm. -/
theorem C77_exact_partial (ext : Ext) (limit : Nat) (hl : limit < 255) (pfx : Option Str)
    (type : Str) (tags : TagMap) (ops : List Op) (hids : (ids ops).Nodup) (s : State)
    (h : run ext (init limit pfx type tags) ops = some s) (resp : Response) :
    run ext (init limit pfx type tags) (ops ++ [.flush resp]) = none ↔
      waiting limit ops ≠ [] ∧
        ((∃ l ∈ waiting limit ops, ext.time l.line.time = none ∨ ext.date l.line.time = none) ∨
          ∃ A it B, resp = .bulk (A ++ it :: B) ∧
            ∀ l ∈ waiting limit (ops ++ [.flush (.bulk A)]), it.id ≠ some l.uuid) := by
  have hrunapp : ∀ (a b : List Op) (s s' : State), run ext s a = some s' →
      run ext s (a ++ b) = run ext s' b := by
    intro a b
    induction a with
    | nil => intro s s' h; simp only [run, Option.some.injEq] at h; rw [h]; rfl
    | cons op a ih =>
      intro s s' h
      cases op with
      | line u l => exact ih _ _ h
      | flush r =>
        simp only [run, List.cons_append] at h ⊢
        cases hf : flush ext s r with
        | none => rw [hf] at h; simp at h
        | some x => rw [hf] at h; exact ih _ _ h
  have hidsf : ∀ r, (ids (ops ++ [.flush r])).Nodup := by
    intro r
    have : ∀ a : List Op, ids (a ++ [.flush r]) = ids a := by
      intro a
      induction a with
      | nil => rfl
      | cons op a ih => cases op <;> simp [ids, ih]
    rw [this]; exact hids
  have hbuf := C53_waiting_partial ext limit hl pfx type tags ops hids s h
  have hlim : s.limit = limit := by
    have := run_spec ext ops (init limit pfx type tags) s (Nat.le_of_lt hl) (by simpa [init] using hids)
      (by simp [init]) h
    rw [this]; rfl
  rw [hrunapp _ _ _ _ h, ← hbuf]
  have hrun1 : run ext s [.flush resp] = none ↔ flush ext s resp = none := by
    simp only [run]
    cases flush ext s resp <;> simp
  rw [hrun1]
  by_cases hb : s.buffer = []
  · simp [flush, hb]
  simp only [hb, ne_eq, not_false_iff, true_and]
  rw [← bulkBody_none ext s hb]
  simp only [flush, if_neg hb]
  cases hd : bulkBody ext s with
  | none => simp
  | some docs =>
    simp only [reduceCtorEq, false_or]
    cases resp with
    | sendError => simp
    | error => simp
    | bulk items =>
      have hw : ∀ A b', onItems s.limit s.buffer A = some b' →
          waiting limit (ops ++ [.flush (.bulk A)]) = b' := by
        intro A b' hA
        have hr : run ext (init limit pfx type tags) (ops ++ [.flush (.bulk A)]) = some { s with buffer := b' } := by
          rw [hrunapp _ _ _ _ h]
          simp only [run, flush, if_neg hb, hd, hA]
        exact (C53_waiting_partial ext limit hl pfx type tags _ (hidsf _) _ hr).symm
      have hi := onItems_none s.limit items s.buffer
      simp only
      have hg : (match onItems s.limit s.buffer items with
          | none => none
          | some b => some ({ s with buffer := b }, some docs)) = none ↔ onItems s.limit s.buffer items = none := by
        cases onItems s.limit s.buffer items <;> simp
      refine hg.trans ?_
      rw [hi]
      constructor
      · rintro ⟨A, it, B, b', h1, h2, h3⟩
        exact ⟨A, it, B, by rw [h1], by rw [hw A b' h2]; exact h3⟩
      · rintro ⟨A, it, B, h1, h3⟩
        simp only [Response.bulk.injEq] at h1
        cases hA : onItems s.limit s.buffer A with
        | some b' => exact ⟨A, it, B, b', h1, hA, by rw [← hw A b' hA]; exact h3⟩
        | none =>
          obtain ⟨A', it', B', b', e1, e2, e3⟩ := (onItems_none s.limit A s.buffer).1 hA
          exact ⟨A', it', B' ++ it :: B, b', by rw [h1, e1]; simp, e2, e3⟩

/-- The third answer is about a line that the first two exhausted. -/
example : let ops := [Op.line 1 (esLine 5 "a"), .line 2 (esLine 6 "b")]
    (run esExt (init 1 none [] []) ops).isSome ∧ (ids ops).Nodup ∧
    run esExt (init 1 none [] []) (ops ++ [.flush (.bulk [⟨false, some 1⟩, ⟨false, some 1⟩, ⟨true, some 1⟩])]) = none ∧
    (run esExt (init 1 none [] []) (ops ++ [.flush (.bulk [⟨false, some 1⟩, ⟨true, some 2⟩, ⟨true, some 1⟩])])).isSome := by
  decide

end Verif
