import Verif.Spec.Restarts
import Verif.Props.Files
import Verif.Props.FileIndex
/-!
# C153: a file source that is stopped, killed and started again
-/
namespace Verif
open File

/-- A prefix of what passes a filter is what passes it of a prefix. -/
private theorem prefix_filter {α : Type} (f : α → Bool) : ∀ (xs r : List α), r <+: xs.filter f → ∃ ys, ys <+: xs ∧ r = ys.filter f := by
  intro xs
  induction xs with
  | nil => intro r h; exact ⟨[], List.prefix_refl _, by simpa using h⟩
  | cons x xs ih =>
    intro r h
    by_cases hx : f x = true
    · rw [List.filter_cons_of_pos hx] at h
      cases r with
      | nil => exact ⟨[], List.nil_prefix, rfl⟩
      | cons y r =>
        rw [List.cons_prefix_cons] at h
        obtain ⟨rfl, h⟩ := h
        obtain ⟨ys, h1, rfl⟩ := ih r h
        exact ⟨y :: ys, List.cons_prefix_cons.2 ⟨rfl, h1⟩, by rw [List.filter_cons_of_pos hx]⟩
    · rw [List.filter_cons_of_neg hx] at h
      obtain ⟨ys, h1, h2⟩ := ih r h
      exact ⟨x :: ys, List.cons_prefix_cons.2 ⟨rfl, h1⟩, by rw [List.filter_cons_of_neg hx]; exact h2⟩

private theorem life (max : Nat) (p : Str) (i : Nat) (t : Text) (l : Life) (hb : ∀ x ∈ l.before, p ∉ x.2) (hf : p ∈ l.first.2)
    (hs : Sees p i t l.first) (hg : Grows p i t l.later) : ∃ r, r <+: l.watched ∧ l.sentOf max p = r.filter (· ≠ []) := by
  obtain ⟨n, -, h2, -⟩ := C122_each_file max p i t l.before l.first hb hf hs l.later hg
  have h2 : (l.server max).sentOf p = (l.watched.take n).filter (· ≠ []) := h2
  have hp : l.sentOf max p <+: (l.server max).sentOf p := by
    simp only [Life.sentOf, Server.sentOf]
    exact List.IsPrefix.map _ (List.IsPrefix.filter _ (List.take_prefix _ _))
  rw [h2] at hp
  obtain ⟨r, h3, h4⟩ := prefix_filter _ _ _ hp
  exact ⟨r, h3.trans (List.take_prefix _ _), h4⟩

/-- **C153.**  However often the source is started and comes to its end, at whatever moments: of each life there is a first part of the lines appended while it watched the file, and
what is sent over all lives is exactly these parts but for blank lines, in order. -/
theorem C153_restarts (max : Nat) (p : Str) (i : Nat) (lives : List Life) : ∀ (t : Text), Lives p i t lives →
    ∃ reads : List (List Text), reads.length = lives.length ∧ (∀ x ∈ lives.zip reads, x.2 <+: x.1.watched) ∧
      lives.flatMap (·.sentOf max p) = reads.flatten.filter (· ≠ []) := by
  induction lives with
  | nil => intro t _; exact ⟨[], rfl, by simp, rfl⟩
  | cons l lives ih =>
    intro t h
    obtain ⟨-, h2, h3, h4, h5, h6⟩ := h
    obtain ⟨r, g1, g2⟩ := life max p i _ l h2 h3 h4 h5
    obtain ⟨rs, k1, k2, k3⟩ := ih _ h6
    refine ⟨r :: rs, by simp [k1], ?_, ?_⟩
    · intro x hx
      rw [List.zip_cons_cons, List.mem_cons] at hx
      rcases hx with rfl | hx
      · exact g1
      · exact k2 x hx
    · rw [List.flatMap_cons, g2, k3, List.flatten_cons, List.filter_append]

/-- **C153 (at most once).**  Over all lives no line is sent more often than it was appended, none altered and none out of order. -/
theorem C153_at_most_once (max : Nat) (p : Str) (i : Nat) (lives : List Life) (t : Text) (h : Lives p i t lives) :
    (lives.flatMap (·.sentOf max p)).Sublist (lives.flatMap (·.appended)) := by
  obtain ⟨reads, h1, h2, h3⟩ := C153_restarts max p i lives t h
  rw [h3]
  refine (List.filter_sublist).trans ?_
  clear h h3
  induction lives generalizing reads with
  | nil => cases reads with
    | nil => simp
    | cons r rs => simp at h1
  | cons l lives ih => cases reads with
    | nil => simp at h1
    | cons r rs =>
      rw [List.flatten_cons, List.flatMap_cons]
      refine List.Sublist.append ?_ (ih rs (by simpa using h1) fun x hx => h2 x (by simp [hx]))
      exact ((h2 (l, r) (by simp)).sublist).trans (List.sublist_append_right _ _)

/-- **C153 (what is lost).**  The lines appended while no source watched the file are all lost: of the lines appended but the blank ones, as many as those remain unsent, at least, over all
lives. -/
theorem C153_missed_lost (max : Nat) (p : Str) (i : Nat) (lives : List Life) (t : Text) (h : Lives p i t lives) :
    (lives.flatMap (·.sentOf max p)).length + ((lives.flatMap (·.missed)).filter (· ≠ [])).length ≤ ((lives.flatMap (·.appended)).filter (· ≠ [])).length := by
  obtain ⟨reads, h1, h2, h3⟩ := C153_restarts max p i lives t h
  rw [h3]
  clear h h3
  induction lives generalizing reads with
  | nil => cases reads with
    | nil => simp
    | cons r rs => simp at h1
  | cons l lives ih => cases reads with
    | nil => simp at h1
    | cons r rs =>
      have := ih rs (by simpa using h1) fun x hx => h2 x (by simp [hx])
      have hr : (r.filter (· ≠ [])).length ≤ (l.watched.filter (· ≠ [])).length := (((h2 (l, r) (by simp)).sublist).filter _).length_le
      rw [List.flatten_cons, List.flatMap_cons, List.flatMap_cons]
      simp only [List.filter_append, List.length_append, Life.appended] at this ⊢
      omega

/-- **C153 (exactly once).**  Every line appended but the blank ones is sent over all lives iff none of those appended while no source watched the file, and none of those not yet read and sent when
a life ended, was not blank. -/
theorem C153_all_iff (max : Nat) (p : Str) (i : Nat) (lives : List Life) (t : Text) (h : Lives p i t lives) :
    lives.flatMap (·.sentOf max p) = (lives.flatMap (·.appended)).filter (· ≠ []) ↔
    ∀ l ∈ lives, l.missed.filter (· ≠ []) = [] ∧ l.sentOf max p = l.watched.filter (· ≠ []) := by
  constructor
  · have part : ∀ l ∈ lives, (l.sentOf max p).length ≤ (l.watched.filter (· ≠ [])).length ∧
        (l.sentOf max p <+: l.watched.filter (· ≠ [])) := by
      intro l hl
      induction lives generalizing t with
      | nil => cases hl
      | cons m lives ih =>
        obtain ⟨-, h2, h3, h4, h5, h6⟩ := h
        rw [List.mem_cons] at hl
        rcases hl with rfl | hl
        · obtain ⟨r, g1, g2⟩ := life max p i _ l h2 h3 h4 h5
          rw [g2]
          have := List.IsPrefix.filter (fun x : Text => decide (x ≠ [])) g1
          exact ⟨this.length_le, this⟩
        · exact ih _ h6 hl
    intro heq
    have hlen := congrArg List.length heq
    clear heq h
    have total : ∀ ls : List Life, (∀ l ∈ ls, (l.sentOf max p).length ≤ (l.watched.filter (· ≠ [])).length ∧ (l.sentOf max p <+: l.watched.filter (· ≠ []))) →
        (ls.flatMap (·.sentOf max p)).length ≤ ((ls.flatMap (·.appended)).filter (· ≠ [])).length := by
      intro ls
      induction ls with
      | nil => intro _; simp
      | cons l ls ih =>
        intro hp
        have a := ih fun x hx => hp x (by simp [hx])
        have b := (hp l (by simp)).1
        rw [List.flatMap_cons, List.flatMap_cons]
        simp only [List.filter_append, List.length_append, Life.appended] at a b ⊢
        omega
    induction lives with
    | nil => simp
    | cons l lives ih =>
      have a := total lives fun x hx => part x (by simp [hx])
      have b := part l (by simp)
      rw [List.flatMap_cons, List.flatMap_cons] at hlen
      simp only [List.filter_append, List.length_append, Life.appended] at hlen
      simp only [List.filter_append, Life.appended] at a
      intro m hm
      rw [List.mem_cons] at hm
      rcases hm with rfl | hm
      · have b1 := b.1
        refine ⟨List.eq_nil_of_length_eq_zero (by omega), ?_⟩
        have e := Nat.le_antisymm b1 (by omega)
        exact b.2.eq_of_length e
      · refine ih (fun x hx => part x (by simp [hx])) ?_ m hm
        simp only [List.filter_append, Life.appended]
        have b1 := b.1
        omega
  · intro hall
    clear h
    induction lives with
    | nil => rfl
    | cons l lives ih =>
      obtain ⟨h1, h2⟩ := hall l (by simp)
      rw [List.flatMap_cons, List.flatMap_cons, List.filter_append, ih fun x hx => hall x (by simp [hx]), Life.appended, List.filter_append, h1, h2, List.nil_append]

private theorem eq_dec {α : Type} [BEq α] [LawfulBEq α] [DecidableEq α] (a b : α) : (a == b) = decide (a = b) := by
  by_cases h : a = b <;> simp [h]

private theorem length_le_of_subset {α : Type} [DecidableEq α] : ∀ (a b : List α), a.Nodup → (∀ x ∈ a, x ∈ b) → a.length ≤ b.length
  | [], _, _, _ => Nat.zero_le _
  | x :: a, b, hn, hs => by
    rw [List.nodup_cons] at hn
    have hx := hs x (by simp)
    have := length_le_of_subset a (b.erase x) hn.2 fun y hy => (List.mem_erase_of_ne (fun e => hn.1 (by rw [← e]; exact hy))).2 (hs y (by simp [hy]))
    rw [List.length_erase_of_mem hx] at this
    have hpos := List.length_pos_of_mem hx
    simp only [List.length_cons]
    omega

/-- **C153 (to the index).**  The source and an Elasticsearch sink are started, stopped and killed together any number of times; of what the source has sent of the file a first part reaches the
sink in each life, among lines from anywhere.  Whatever the server carries out of each request and whatever it answers: over all lives the index holds no text under the path of the file more often
than it was appended. -/
theorem C153_index (max : Nat) (p : Str) (i : Nat) (t : Text) (lives : List (Life × List (Elastic.Op × (Elastic.Doc → Bool)))) (h : Lives p i t (lives.map (·.1)))
    (hc : ∀ x ∈ lives, (((Elastic.linesOf x.2).map Prod.snd).filter fun l => l.path = p).map (·.value) <+: x.1.sentOf max p)
    (ext : Elastic.Ext) (hid : ∀ u v, ext.showId u = ext.showId v → u = v) (limit : Nat) (pfx : Option Str) (type : Str) (tags : TagMap)
    (hids : (lives.flatMap fun x => Elastic.ids (x.2.map Prod.fst)).Nodup) (ht : tags.Ok)
    (hl : ∀ x ∈ lives, ∀ y ∈ Elastic.linesOf x.2, (OwnOk y.2.tags ∧ y.2.fields.Ok) ∧ Elastic.Unshadowed tags y.2 "path".toList ∧ Elastic.Unshadowed tags y.2 "payload".toList)
    (store : List Elastic.Doc) (hrun : Elastic.runLives ext (Elastic.init limit pfx type tags) [] (lives.map (·.2)) = some store) (v : Text) :
    (Elastic.payloadsOf p store).count (some v) ≤ (lives.flatMap (·.1.appended)).count v := by
  obtain ⟨hn, hd⟩ := C138_restarts ext hid limit pfx type tags (lives.map (·.2)) (by rw [List.flatMap_map]; exact hids) store hrun
  have hsub := C153_at_most_once max p i (lives.map (·.1)) t h
  rw [List.flatMap_map, List.flatMap_map] at hsub
  refine Nat.le_trans ?_ (hsub.count_le v)
  -- what reached the sink
  have reach : (lives.flatMap fun x => (((Elastic.linesOf x.2).map Prod.snd).filter fun l => l.path = p).map (·.value)).count v ≤
      (lives.flatMap fun x => x.1.sentOf max p).count v := by
    clear hrun hn hd hids hl hsub h
    induction lives with
    | nil => simp
    | cons x lives ih =>
      rw [List.flatMap_cons, List.flatMap_cons, List.count_append, List.count_append]
      have a := ((hc x (by simp)).sublist).count_le v
      have b := ih fun y hy => hc y (by simp [hy])
      omega
  refine Nat.le_trans ?_ reach
  -- the documents are those of distinct lines
  let says : Elastic.Doc → Bool := fun d => decide (d.body.get "path".toList = some p) && decide (d.body.get "payload".toList = some v)
  have h1 : (Elastic.payloadsOf p store).count (some v) = ((store.filter says).map (·.id)).length := by
    simp only [Elastic.payloadsOf, List.count_eq_countP, List.countP_map, List.countP_filter, List.length_map, ← List.countP_eq_length_filter]
    congr 1
    funext d
    simp only [says, Function.comp, eq_dec, Bool.and_comm]
  rw [h1]
  have h2 : (lives.flatMap fun x => (((Elastic.linesOf x.2).map Prod.snd).filter fun l => l.path = p).map (·.value)).count v =
      (((lives.flatMap fun x => Elastic.linesOf x.2).filter fun y => decide (y.2.path = p) && decide (y.2.value = v)).map fun y => ext.showId y.1).length := by
    clear hrun hn hd hids hl hsub h hc reach h1
    induction lives with
    | nil => rfl
    | cons x lives ih =>
      rw [List.flatMap_cons, List.flatMap_cons, List.count_append, List.filter_append, List.map_append, List.length_append, ih]
      congr 1
      simp only [List.count_eq_countP, List.countP_map, List.countP_filter, List.length_map, ← List.countP_eq_length_filter]
      congr 1
      funext y
      simp only [Function.comp, eq_dec, Bool.and_comm]
  rw [h2]
  refine length_le_of_subset _ _ ?_ ?_
  · exact hn.sublist (List.filter_sublist.map _)
  · intro id hid'
    obtain ⟨d, hds, rfl⟩ := List.mem_map.1 hid'
    obtain ⟨hds, hsays⟩ := List.mem_filter.1 hds
    obtain ⟨u, l, g1, g2, g3⟩ := hd d hds
    rw [List.flatMap_map] at g1
    obtain ⟨x, hx, hy⟩ := List.mem_flatMap.1 g1
    obtain ⟨k1, k2, k3⟩ := hl x hx (u, l) hy
    obtain ⟨d1, d2⟩ := doc_says ht k1 g3
    simp only [says, Bool.and_eq_true, decide_eq_true_eq, d1 k2, d2 k3, Option.some.injEq] at hsays
    refine List.mem_map.2 ⟨(u, l), List.mem_filter.2 ⟨g1, by simp [hsays.1, hsays.2]⟩, g2.symm⟩

/-! ### A case that meets the hypotheses -/

private def at1 (t : String) : FS × List Str := ({ files := fun _ => t.toList, paths := fun _ => some 1 }, ["log".toList])

/-- The source reads `b` and is killed before it has sent `c`, which it has read in the same pass; `d` is written before it is back; then `e` and a blank line come. -/
private def killed : List Life :=
  [{ missed := [], before := [], first := at1 "a\n", later := [(at1 "a\nb\n", ["b".toList]), (at1 "a\nb\nc\n", ["c".toList])], ends := 1 },
   { missed := ["d".toList], before := [], first := at1 "a\nb\nc\nd\n", later := [(at1 "a\nb\nc\nd\ne\n\n", ["e".toList, []])], ends := 5 }]

private theorem killed_lives : Lives "log".toList 1 "a\n".toList killed := by
  simp [killed, Lives, Grows, Sees, at1, joinLines, Life.appended, Life.watched]

/-- `b` and `e` are sent; `c` and `d` are lost. -/
example : killed.flatMap (·.sentOf 100 "log".toList) = ["b".toList, "e".toList] ∧
    killed.flatMap (·.appended) = ["b".toList, "c".toList, "d".toList, "e".toList, []] := by decide +kernel

example : (["b".toList, "e".toList] : List Text).Sublist ["b".toList, "c".toList, "d".toList, "e".toList, []] :=
  C153_at_most_once 100 "log".toList 1 killed _ killed_lives

/-- The same, with a sink: a request that seems to fail is carried out, `b` is sent again with its id, the sink is killed in a request; in its second life it writes `e`. -/
private def killedOps : List (List (Elastic.Op × (Elastic.Doc → Bool))) :=
  [[(.line 1 (.new 5 "log".toList "b".toList), fun _ => false), (.flush .sendError, fun _ => true), (.line 2 (.new 5 "other".toList "b".toList), fun _ => false),
    (.flush .sendError, fun _ => true)],
   [(.line 3 (.new 5 "log".toList "e".toList), fun _ => false), (.flush (.bulk [⟨true, some 3⟩]), fun _ => true)]]

example : (killed.zip killedOps).map (·.1) = killed ∧
    (∀ x ∈ killed.zip killedOps, (((Elastic.linesOf x.2).map Prod.snd).filter fun l => l.path = "log".toList).map (·.value) <+: x.1.sentOf 100 "log".toList) ∧
    ((killed.zip killedOps).flatMap fun x => Elastic.ids (x.2.map Prod.fst)).Nodup ∧
    (Elastic.runLives { esExt with showId := fun n => List.replicate n '-' } (Elastic.init 3 none [] []) [] killedOps).map (Elastic.payloadsOf "log".toList) =
      some [some "b".toList, some "e".toList] :=
  ⟨rfl, by decide +kernel, by decide +kernel, by decide +kernel⟩

/-- **C153 is false of the code for lines appended while it is down**, and for lines not yet sent when it ends. -/
theorem C153_exactly_once_false : ∃ lives, Lives "log".toList 1 "a\n".toList lives ∧
    lives.flatMap (·.sentOf 100 "log".toList) ≠ (lives.flatMap (·.appended)).filter (· ≠ []) :=
  ⟨killed, killed_lives, by decide +kernel⟩

end Verif
