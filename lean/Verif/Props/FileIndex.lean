import Verif.Spec.FileIndex
import Verif.Props.ElasticIndex
import Verif.Props.Files
/-!
# C141: the index holds the lines of a watched file
-/
namespace Verif
open Elastic File

private theorem split_at {ops : List (Op × (Doc → Bool))} {u : Nat} {l : LogLine} (h : (u, l) ∈ linesOf ops) :
    ∃ before c after, ops = before ++ (.line u l, c) :: after := by
  induction ops with
  | nil => simp [linesOf] at h
  | cons o ops ih =>
    obtain ⟨o, c⟩ := o
    cases o with
    | line v m =>
      simp only [linesOf, List.mem_cons, Prod.mk.injEq] at h
      rcases h with ⟨rfl, rfl⟩ | h
      · exact ⟨[], c, ops, rfl⟩
      · obtain ⟨b, c', a, e⟩ := ih h
        exact ⟨(.line v m, c) :: b, c', a, by rw [e]; rfl⟩
    | flush r =>
      obtain ⟨b, c', a, e⟩ := ih h
      exact ⟨(.flush r, c) :: b, c', a, by rw [e]; rfl⟩

private theorem said_after (before after : List (Op × (Doc → Bool))) (u : Nat) (b : Bool) :
    said b u (answers (after.map Prod.fst)) ≤ said b u (answers ((before ++ after).map Prod.fst)) := by
  induction before with
  | nil => exact Nat.le_refl _
  | cons o before ih =>
    obtain ⟨o, c⟩ := o
    cases o with
    | line v m => exact ih
    | flush resp =>
      cases resp with
      | sendError => exact ih
      | error => exact ih
      | bulk items =>
        simp only [List.cons_append, List.map_cons, answers, said, List.countP_append] at ih ⊢
        omega

private theorem ids_fst (ops : List (Op × (Doc → Bool))) : (linesOf ops).map Prod.fst = ids (ops.map Prod.fst) := by
  induction ops with
  | nil => rfl
  | cons o ops ih => obtain ⟨o, c⟩ := o; cases o <;> simp [linesOf, ids, ih]

private theorem all_some {α β : Type} (f : α → Option β) (xs : List α) (h : ∀ x ∈ xs, ∃ y, f x = some y) : ∃ ys : List β, xs.map f = ys.map some := by
  induction xs with
  | nil => exact ⟨[], rfl⟩
  | cons x xs ih =>
    obtain ⟨y, hy⟩ := h x (by simp)
    obtain ⟨ys, hys⟩ := ih (fun z hz => h z (by simp [hz]))
    exact ⟨y :: ys, by simp [hy, hys]⟩

/-- **C141** (the index) With a server that says it has written a line only if it has: when nothing waits in the sink and no line was refused more often
than the limit, the server holds the documents of the lines delivered, one for each, and nothing else. -/
theorem C141_index (ext : Ext) (hid : ∀ u v, ext.showId u = ext.showId v → u = v) (limit : Nat) (hlim : limit ≤ 255) (pfx : Option Str)
    (type : Str) (tags : TagMap) (ops : List (Op × (Doc → Bool))) (hids : (ids (ops.map Prod.fst)).Nodup)
    (htrue : Truthful ext (init limit pfx type tags) ops) (s : State) (store : List Doc)
    (h : runServer ext (init limit pfx type tags) [] ops = some (s, store)) (hidle : s.buffer = [])
    (href : ∀ u, said false u (answers (ops.map Prod.fst)) ≤ limit) :
    ∃ docs : List Doc, (linesOf ops).map (fun x => docOf ext (init limit pfx type tags) ⟨0, x.1, x.2⟩) = docs.map some ∧ store.Perm docs := by
  obtain ⟨hn, hdocs⟩ := C138_no_duplicates ext hid limit pfx type tags ops hids s store h
  have held : ∀ x ∈ linesOf ops, ∃ d ∈ store, docOf ext (init limit pfx type tags) ⟨0, x.1, x.2⟩ = some d ∧ d.id = ext.showId x.1 := by
    rintro ⟨u, l⟩ hx
    obtain ⟨b, c, a, e⟩ := split_at hx
    rw [e] at h hids htrue
    rcases C138_indexed_once ext hid limit hlim pfx type tags b a u l c hids htrue s store h with ⟨n, hw⟩ | hr | ⟨d, h1, h2⟩
    · rw [hidle] at hw; simp at hw
    · have h1 := said_after (b ++ [(.line u l, c)]) a u false
      have h2 := href u
      rw [e] at h2
      simp only [List.append_assoc, List.singleton_append] at h1
      omega
    · have : d ∈ store.filter (fun e => decide (e.id = ext.showId u)) := by rw [h2]; simp
      obtain ⟨h3, h4⟩ := List.mem_filter.1 this
      exact ⟨d, h3, h1, by simpa using h4⟩
  obtain ⟨docs, hd⟩ := all_some (fun x : Nat × LogLine => docOf ext (init limit pfx type tags) ⟨0, x.1, x.2⟩) (linesOf ops)
    (fun x hx => (held x hx).imp fun d hd => hd.2.1)
  refine ⟨docs, hd, ?_⟩
  -- the documents have the ids of the lines
  have hdid : docs.map (·.id) = (linesOf ops).map fun x => ext.showId x.1 := by
    have gen : ∀ (ls : List (Nat × LogLine)) (ds : List Doc), ls.map (fun x => docOf ext (init limit pfx type tags) ⟨0, x.1, x.2⟩) = ds.map some →
        (∀ x ∈ ls, x ∈ linesOf ops) → ds.map (·.id) = ls.map fun x => ext.showId x.1 := by
      intro ls
      induction ls with
      | nil => intro ds h _; cases ds <;> simp_all
      | cons x ls ih =>
        intro ds h hs
        cases ds with
        | nil => simp at h
        | cons d ds =>
          simp only [List.map_cons, List.cons.injEq] at h ⊢
          obtain ⟨d', -, g1, g2⟩ := held x (hs x (by simp))
          rw [g1] at h
          simp only [Option.some.injEq] at h
          exact ⟨by rw [← h.1, g2], ih ds h.2 (fun y hy => hs y (by simp [hy]))⟩
    exact gen _ _ hd (fun x hx => hx)
  have hdn : docs.Nodup := by
    have : (docs.map (·.id)).Nodup := by
      rw [hdid]
      rw [← ids_fst] at hids
      have : (linesOf ops).map (fun x => ext.showId x.1) = ((linesOf ops).map Prod.fst).map ext.showId := by simp
      rw [this]
      generalize (linesOf ops).map Prod.fst = us at hids
      induction us with
      | nil => simp
      | cons u us ih =>
        simp only [List.map_cons, List.nodup_cons] at hids ⊢
        refine ⟨fun hm => ?_, ih hids.2⟩
        obtain ⟨v, hv, e⟩ := List.mem_map.1 hm
        rw [hid _ _ e] at hv
        exact hids.1 hv
    clear hd hdid held
    induction docs with
    | nil => simp
    | cons d docs ih =>
      simp only [List.map_cons, List.nodup_cons] at this ⊢
      exact ⟨fun hm => this.1 (List.mem_map.2 ⟨d, hm, rfl⟩), ih this.2⟩
  have hsn : store.Nodup := by
    clear hdocs held h
    induction store with
    | nil => simp
    | cons d store ih =>
      simp only [List.map_cons, List.nodup_cons] at hn ⊢
      exact ⟨fun hm => hn.1 (List.mem_map.2 ⟨d, hm, rfl⟩), ih hn.2⟩
  rw [List.perm_ext_iff_of_nodup hsn hdn]
  intro d
  have hmem : d ∈ docs ↔ some d ∈ (linesOf ops).map (fun x => docOf ext (init limit pfx type tags) ⟨0, x.1, x.2⟩) := by rw [hd]; simp
  rw [hmem, List.mem_map]
  constructor
  · intro hds
    obtain ⟨u, l, h1, -, h2⟩ := hdocs d hds
    exact ⟨(u, l), h1, h2⟩
  · rintro ⟨x, hx, e⟩
    obtain ⟨d', h1, h2, -⟩ := held x hx
    rw [e] at h2
    simp only [Option.some.injEq] at h2
    rw [h2]; exact h1

/-- what a document says of its line -/
theorem doc_says {ext : Ext} {limit : Nat} {pfx : Option Str} {type : Str} {tags : TagMap} {u : Nat} {l : LogLine} {d : Doc}
    (ht : tags.Ok) (hl : OwnOk l.tags ∧ l.fields.Ok) (h : docOf ext (init limit pfx type tags) ⟨0, u, l⟩ = some d) :
    (Unshadowed tags l "path".toList → d.body.get "path".toList = some l.path) ∧
    (Unshadowed tags l "payload".toList → d.body.get "payload".toList = some l.value) := by
  have hb : docOf ext { init limit pfx type tags with buffer := [⟨0, u, l⟩] } ⟨0, u, l⟩ = some d := h
  have hf : flush ext { init limit pfx type tags with buffer := [⟨0, u, l⟩] } .sendError =
      some ({ init limit pfx type tags with buffer := [⟨0, u, l⟩] }, some [d]) := by
    simp only [flush, bulkBody, docsOf, hb]
    rfl
  obtain ⟨-, hd⟩ := C76_documents ext _ _ _ _ ht (by simpa using hl) hf
  obtain ⟨-, -, -, time, -, hg⟩ := hd 0 ⟨0, u, l⟩ d rfl rfl
  constructor
  · rintro ⟨h1, h2⟩
    have := hg "path".toList
    simp only [h1, h2, init] at this
    rw [this]; rfl
  · rintro ⟨h1, h2⟩
    have := hg "payload".toList
    simp only [h1, h2, init] at this
    rw [this]; rfl

/-- **C141** Lines are appended to a file that a file source watches, whatever happens to other files.  What the source sends reaches, among lines from
anywhere, an Elasticsearch sink in front of a server that says it has written a line only if it has.  When nothing waits in the sink any more
and no line was refused more often than the limit, then the documents of that path hold the appended lines but the blank ones, each line once,
however often requests failed, were answered in error or half carried out. -/
theorem C141_file_to_index (max : Nat) (p : Str) (i : Nat) (content : Text) (before : List (FS × List Str)) (first : FS × List Str)
    (hb : ∀ x ∈ before, p ∉ x.2) (hf : p ∈ first.2) (hs : Sees p i content first)
    (later : List ((FS × List Str) × List Text)) (hg : Grows p i content later) (quiet : List (FS × List Str))
    (hq : ∀ x ∈ quiet, Sees p i (content ++ joinLines (later.flatMap (·.2))) x) (hlen : (later.flatMap (·.2)).length ≤ quiet.length)
    (ext : Ext) (hid : ∀ u v, ext.showId u = ext.showId v → u = v) (limit : Nat) (hlim : limit ≤ 255) (pfx : Option Str)
    (type : Str) (tags : TagMap) (ops : List (Op × (Doc → Bool))) (hids : (ids (ops.map Prod.fst)).Nodup)
    (hc : (((linesOf ops).map Prod.snd).filter fun l => l.path = p).map (·.value) =
      ((Server.mk max [] 1 []).passes (before ++ first :: later.map (·.1) ++ quiet)).sentOf p)
    (ht : tags.Ok) (hl : ∀ x ∈ linesOf ops, (OwnOk x.2.tags ∧ x.2.fields.Ok) ∧ Unshadowed tags x.2 "path".toList ∧ Unshadowed tags x.2 "payload".toList)
    (htrue : Truthful ext (init limit pfx type tags) ops) (s : State) (store : List Doc)
    (h : runServer ext (init limit pfx type tags) [] ops = some (s, store)) (hidle : s.buffer = [])
    (href : ∀ u, said false u (answers (ops.map Prod.fst)) ≤ limit) :
    (payloadsOf p store).Perm (((later.flatMap (·.2)).filter (· ≠ [])).map some) := by
  obtain ⟨docs, hd, hperm⟩ := C141_index ext hid limit hlim pfx type tags ops hids htrue s store h hidle href
  obtain ⟨m, -, -, hall⟩ := C122_each_file max p i content before first hb hf hs later hg
  have hsent := hall quiet hq (by omega)
  have : (later.flatMap (·.2)).filter (· ≠ []) = (((linesOf ops).map Prod.snd).filter fun l => l.path = p).map (·.value) := by
    rw [hc, ← hsent]; simp [Server.passes]
  rw [this]
  refine ((hperm.filter _).map _).trans (List.Perm.of_eq ?_)
  have gen : ∀ (ls : List (Nat × LogLine)) (ds : List Doc), ls.map (fun x => docOf ext (init limit pfx type tags) ⟨0, x.1, x.2⟩) = ds.map some →
      (∀ x ∈ ls, x ∈ linesOf ops) → (ds.filter fun d => d.body.get "path".toList = some p).map (fun d => d.body.get "payload".toList) =
        (((ls.map Prod.snd).filter fun l => l.path = p).map (·.value)).map some := by
    intro ls
    induction ls with
    | nil => intro ds h _; cases ds <;> simp_all
    | cons x ls ih =>
      intro ds h hsub
      cases ds with
      | nil => simp at h
      | cons d ds =>
        simp only [List.map_cons, List.cons.injEq] at h
        have := ih ds h.2 (fun y hy => hsub y (by simp [hy]))
        obtain ⟨k1, k2, k3⟩ := hl x (hsub x (by simp))
        obtain ⟨d1, d2⟩ := doc_says ht k1 h.1
        simp only [List.map_cons, List.filter_cons, d1 k2, Option.some.injEq]
        by_cases hp : x.2.path = p
        · simp only [hp, decide_true, if_true, List.map_cons, d2 k3]
          rw [this]
        · simp only [hp, decide_false, Bool.false_eq_true, if_false]
          exact this
  exact gen _ _ hd (fun x hx => hx)

/-! ### A case: lines of two files, a request that seems to fail although it is carried out, one half carried out, a refusal, and a last one that writes
what is left -/
private def heldFS (a b : Text) : FS := ⟨fun n => if n = 0 then a else b, fun p => if p = ['a'] then some 0 else if p = ['b'] then some 1 else none⟩
private def heldFirst : FS × List Str := (heldFS [] "old\n".toList, [['a'], ['b']])
private def heldLater : List ((FS × List Str) × List Text) := [((heldFS "x\n".toList "old\n1\n\n2\n".toList, []), [['1'], [], ['2']])]
private def heldQuiet : List (FS × List Str) := List.replicate 3 (heldFS "x\n".toList "old\n1\n\n2\n".toList, [])
private def dashes : Ext := { esExt with showId := fun n => List.replicate n '-' }

private theorem dashes_inj : ∀ u v, dashes.showId u = dashes.showId v → u = v := by
  intro u v h
  have := congrArg List.length h
  simpa [dashes] using this

private def heldOps : List (Op × (Doc → Bool)) :=
  [(.line 1 (.new 5 ['b'] ['1']), fun _ => false), (.flush .sendError, fun _ => true), (.line 2 (.new 5 ['a'] ['x']), fun _ => false),
   (.line 3 (.new 6 ['b'] ['2']), fun _ => false),
   (.flush (.bulk [⟨true, some 1⟩, ⟨true, some 2⟩, ⟨false, some 3⟩]), fun d => d.id ≠ ['-', '-', '-']), (.flush .error, fun _ => true),
   (.flush (.bulk [⟨true, some 3⟩]), fun _ => true)]

/-- Non-vacuity of `C141_file_to_index` and `C141_index`. -/
example : ['b'] ∈ heldFirst.2 ∧ Sees ['b'] 1 "old\n".toList heldFirst ∧ Grows ['b'] 1 "old\n".toList heldLater ∧
    (∀ x ∈ heldQuiet, Sees ['b'] 1 ("old\n".toList ++ joinLines (heldLater.flatMap (·.2))) x) ∧ (ids (heldOps.map Prod.fst)).Nodup ∧
    (((linesOf heldOps).map Prod.snd).filter fun l => l.path = ['b']).map (·.value) =
      ((Server.mk 0 [] 1 []).passes ([] ++ heldFirst :: heldLater.map (·.1) ++ heldQuiet)).sentOf ['b'] ∧
    (runServer dashes (init 3 none [] []) [] heldOps).map (fun r => (r.1.buffer, payloadsOf ['b'] r.2, payloadsOf ['a'] r.2)) =
      some ([], [some ['1'], some ['2']], [some ['x']]) := by
  refine ⟨by decide, ⟨by decide, by decide⟩, ?_, ?_, by decide, by decide +kernel, by decide +kernel⟩
  · simp only [heldLater, Grows, and_true]
    refine ⟨?_, ⟨by decide, by decide⟩⟩
    intro l hl; revert l; simp
  · intro x hx
    rw [List.eq_of_mem_replicate hx]
    exact ⟨by decide, by decide⟩

private theorem held_truthful : Truthful dashes (init 3 none [] []) heldOps := by
  refine ⟨fun items h => by simp at h, ?_, fun items h => by simp at h, ?_, trivial⟩
  · intro items h u hu
    simp only [Response.bulk.injEq] at h
    subst h
    simp only [List.mem_cons, List.not_mem_nil, or_false, Item.mk.injEq, true_and, Option.some.injEq, Bool.true_eq_false, false_and] at hu
    rcases hu with rfl | rfl
    · exact ⟨⟨['D'], [], ['-'], [("uuid".toList, ['-']), ("path".toList, ['b']), ("payload".toList, ['1']), ("timestamp".toList, ['T'])]⟩,
        by decide, rfl, rfl⟩
    · exact ⟨⟨['D'], [], ['-', '-'], [("uuid".toList, ['-', '-']), ("path".toList, ['a']), ("payload".toList, ['x']), ("timestamp".toList, ['T'])]⟩,
        by decide, rfl, rfl⟩
  · intro items h u hu
    simp only [Response.bulk.injEq] at h
    subst h
    simp only [List.mem_cons, List.not_mem_nil, or_false, Item.mk.injEq, true_and, Option.some.injEq] at hu
    subst hu
    exact ⟨⟨['D'], [], ['-', '-', '-'], [("uuid".toList, ['-', '-', '-']), ("path".toList, ['b']), ("payload".toList, ['2']), ("timestamp".toList, ['T'])]⟩,
      by decide, rfl, rfl⟩

private theorem held_refused (u : Nat) : said false u (answers (heldOps.map Prod.fst)) ≤ 3 := by
  have : said false u (answers (heldOps.map Prod.fst)) = [(⟨false, some 3⟩ : Item)].countP fun it => decide (it = ⟨false, some u⟩) := by
    simp [said, answers, heldOps, List.countP_cons]
  rw [this]
  exact Nat.le_trans List.countP_le_length (by decide)

private theorem held_plain : ∀ x ∈ linesOf heldOps, (OwnOk x.2.tags ∧ x.2.fields.Ok) ∧
    Unshadowed [] x.2 "path".toList ∧ Unshadowed [] x.2 "payload".toList := by
  intro x hx
  simp only [heldOps, linesOf, List.mem_cons, List.not_mem_nil, or_false] at hx
  rcases hx with rfl | rfl | rfl <;> exact ⟨⟨by simp [LogLine.new, OwnOk], TagMap.Ok.nil⟩, ⟨rfl, rfl⟩, ⟨rfl, rfl⟩⟩

example (s store) (h : runServer dashes (init 3 none [] []) [] heldOps = some (s, store)) (hidle : s.buffer = []) :=
  C141_index dashes dashes_inj 3 (by decide) none [] [] heldOps (by decide) held_truthful s store h hidle held_refused

end Verif
