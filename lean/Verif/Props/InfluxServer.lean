import Verif.Spec.InfluxServer
import Verif.Props.Influxdb
/-!
# C139: what an InfluxDB server shows
-/
namespace Verif
open Influx
section
variable {F : Type} [F64 F]

/-- the last row of a series and time -/
private def lastField (s t : Str) : List Row → Option Str
  | [] => none
  | r :: rs => match lastField s t rs with
    | some f => some f
    | none => if s = r.series ∧ t = r.time then some r.field else none

private theorem write_eq (rs : List Row) : ∀ (db : Db) (s t : Str), write db rs s t = (lastField s t rs).or (db s t) := by
  induction rs with
  | nil => intro db s t; simp [write, lastField]
  | cons r rs ih =>
    intro db s t
    simp only [write, lastField, ih]
    cases lastField s t rs with
    | some f => simp
    | none => by_cases h : s = r.series ∧ t = r.time <;> simp [h]

private theorem lastField_none (s t : Str) (rs : List Row) : lastField s t rs = none ↔ ∀ r ∈ rs, ¬ (s = r.series ∧ t = r.time) := by
  induction rs with
  | nil => simp [lastField]
  | cons r rs ih =>
    simp only [lastField, List.mem_cons, forall_eq_or_imp, ← ih]
    cases h : lastField s t rs with
    | some f => simp
    | none => by_cases hk : s = r.series ∧ t = r.time <;> simp [hk]

/-- Writing some of the rows before writing all of them makes no difference. -/
private theorem write_again (db : Db) (rs sub : List Row) (h : ∀ r ∈ sub, r ∈ rs) : write (write db sub) rs = write db rs := by
  funext s t
  rw [write_eq, write_eq rs db, write_eq sub]
  cases hl : lastField s t rs with
  | some f => simp
  | none =>
    have : lastField s t sub = none := by
      rw [lastField_none] at hl ⊢
      exact fun r hr => hl r (h r hr)
    simp [this]

private theorem requests_loop (payload : Str) (os : List Outcome) : ∀ a, .success ∉ os →
    requests (flushLoop payload a (os ++ [.success])).2.1 = List.replicate (os.length + 1) payload ∧
    (flushLoop payload a (os ++ [.success])).2.2 = true := by
  induction os with
  | nil => intro a _; simp [flushLoop, requests]
  | cons o os ih =>
    intro a h
    simp only [List.mem_cons, not_or] at h
    have key : ∀ a', requests (Wire.delay (delayMs a) :: .post payload :: (flushLoop payload a' (os ++ [.success])).2.1) =
        List.replicate (os.length + 1 + 1) payload := by
      intro a'
      simp only [requests, (ih a' h.2).1]
      rfl
    cases o with
    | success => exact absurd rfl h.1
    | clientError => exact ⟨key _, (ih _ h.2).2⟩
    | serverError => exact ⟨key _, (ih _ h.2).2⟩
    | sendError => exact ⟨key _, (ih _ h.2).2⟩
    | other => exact ⟨key _, (ih _ h.2).2⟩

private theorem serve_once (p : Str) (picks : List (Row → Bool)) : ∀ (db : Db),
    serve db ((List.replicate (picks.length + 1) p).zip (picks ++ [fun _ => true])) = write db (rowsOf p) := by
  induction picks with
  | nil =>
    intro db
    have : (rowsOf p).filter (fun _ => true) = rowsOf p := List.filter_eq_self.2 (fun _ _ => rfl)
    simp only [List.length_nil, Nat.zero_add, List.replicate_one, List.nil_append, List.zip_cons_cons, List.zip_nil_left, serve, this]
  | cons c picks ih =>
    intro db
    simp only [List.length_cons, List.replicate_succ (n := picks.length + 1), List.cons_append, List.zip_cons_cons, serve]
    rw [ih, write_again]
    intro r hr
    exact (List.mem_filter.1 hr).1

/-- **C139** (once) Whatever the server carries out of requests that seem to fail, and however often they are repeated, the database ends as if the text
of each flush had been written once, in order. -/
theorem C139_written_once (ext : Wavefront.Ext F) (text : List (Telemetry F) → Str) : ∀ (ops : List (DbOp F)) (s : State F) (db : Db),
    (∀ fs, DbOp.flush fs ∈ ops → .success ∉ fs.map Prod.fst) →
    (∀ b ∈ (batches s.aggrs (ops.map DbOp.plain)).1, formatStats ext s.tags b = some (text b)) →
    ∃ s', runDb ext s db ops = some (s', ((batches s.aggrs (ops.map DbOp.plain)).1.map text).foldl (fun db p => write db (rowsOf p)) db) ∧
      s'.aggrs = (batches s.aggrs (ops.map DbOp.plain)).2
  | [], s, db, _, _ => ⟨s, rfl, rfl⟩
  | .point t :: ops, s, db, hf, ht => C139_written_once ext text ops (deliver s t) db (fun fs h => hf fs (List.mem_cons_of_mem _ h)) ht
  | .flush fs :: ops, s, db, hf, ht => by
    have hno := hf fs (List.mem_cons_self ..)
    have hthis : formatStats ext s.tags s.aggrs = some (text s.aggrs) := ht s.aggrs (by simp [batches, DbOp.plain])
    obtain ⟨h1, h2⟩ := requests_loop (text s.aggrs) _ s.attempts hno
    obtain ⟨s', e, ha⟩ := C139_written_once ext text ops
      { s with attempts := (flushLoop (text s.aggrs) s.attempts (fs.map Prod.fst ++ [.success])).1, aggrs := [] }
      (write db (rowsOf (text s.aggrs))) (fun fs h => hf fs (List.mem_cons_of_mem _ h))
      (fun b hb => ht b (by simp only [List.map_cons, DbOp.plain, batches]; exact List.mem_cons_of_mem _ hb))
    refine ⟨s', ?_, ?_⟩
    · have hs := serve_once (text s.aggrs) (fs.map Prod.snd) db
      simp only [List.length_map] at hs h1
      simp only [runDb, flush, hthis, h1, h2, hs, if_true, e, List.map_cons, DbOp.plain, batches, List.foldl_cons]
    · simp only [List.map_cons, DbOp.plain, batches]; exact ha

/-! ## What is shown -/

private theorem pieces_none (c : Char) (a : Str) (h : c ∉ a) : pieces c a = [a] := by
  induction a with
  | nil => rfl
  | cons x a ih =>
    simp only [List.mem_cons, not_or] at h
    simp only [pieces, if_neg (Ne.symm h.1), ih h.2]

private theorem pieces_cut (c : Char) (a b : Str) (h : c ∉ a) : pieces c (a ++ c :: b) = a :: pieces c b := by
  induction a with
  | nil => simp [pieces]
  | cons x a ih =>
    simp only [List.mem_cons, not_or] at h
    simp only [List.cons_append, pieces, if_neg (Ne.symm h.1), ih h.2]

private theorem rows_line (name tags v time rest : Str) (hn : Solid (name ++ tags)) (hv : Solid v) (ht : Solid time) :
    rowsOf (influxLine name tags v time ++ rest) = ⟨name ++ tags, time, "value=".toList ++ v⟩ :: rowsOf rest := by
  have e : influxLine name tags v time ++ rest = (name ++ tags ++ ' ' :: ("value=".toList ++ v ++ ' ' :: time)) ++ '\n' :: rest := by
    simp [influxLine]
  have hnl : '\n' ∉ name ++ tags ++ ' ' :: ("value=".toList ++ v ++ ' ' :: time) := by
    have h1 := hn.2; have h2 := hv.2; have h3 := ht.2
    simp only [List.mem_append, not_or] at h1
    simp [h1, h2, h3]
  have hf : ' ' ∉ "value=".toList ++ v := by
    have := hv.1
    simp [this]
  rw [e, rowsOf, pieces_cut _ _ _ hnl, List.filterMap_cons]
  have : rowOf (name ++ tags ++ ' ' :: ("value=".toList ++ v ++ ' ' :: time)) = some ⟨name ++ tags, time, "value=".toList ++ v⟩ := by
    simp only [rowOf]
    rw [pieces_cut _ _ _ hn.1, pieces_cut _ _ _ hf, pieces_none _ _ ht.1]
  rw [this]
  rfl

/-- all texts of a point are without spaces and line ends -/
private theorem solid_append {a b : Str} (ha : Solid a) (hb : Solid b) : Solid (a ++ b) :=
  ⟨by simp [ha.1, hb.1], by simp [ha.2, hb.2]⟩

private theorem rows_many {α : Type} (l : List α) (f : α → Str) (g : α → List Row) (h : ∀ a ∈ l, ∀ rest, rowsOf (f a ++ rest) = g a ++ rowsOf rest)
    (rest : Str) : rowsOf ((l.map f).flatten ++ rest) = (l.map g).flatten ++ rowsOf rest := by
  induction l with
  | nil => simp
  | cons a l ih =>
    simp only [List.map_cons, List.flatten_cons, List.append_assoc]
    rw [h a (by simp), ih (fun b hb => h b (by simp [hb]))]

private theorem map_singles {α β : Type} (l : List α) (r : α → β) : l.map r = (l.map fun a => [r a]).flatten := by
  induction l with
  | nil => rfl
  | cons a l ih => simp [ih]

private theorem rows_point (ext : Wavefront.Ext F) (tags : TagMap) (t : Telemetry F) (rest : Str) (hname : Solid t.name)
    (htags : Solid (tagText (t.iterTags tags))) (hF : ∀ x, Solid (ext.showF x)) (hN : ∀ n, Solid (ext.showN n)) :
    rowsOf (pointText ext tags (fun ts => ext.showN (nanos ts)) t ++ rest) = pointRows ext tags t ++ rowsOf rest := by
  cases hval : t.value with
  | set v =>
    simp only [pointText, pointRows, hval]
    rw [rows_line _ _ _ _ _ (solid_append hname htags) (hF v) (hN _)]
    rfl
  | sum v =>
    simp only [pointText, pointRows, hval]
    rw [rows_line _ _ _ _ _ (solid_append hname htags) (hF v) (hN _)]
    rfl
  | histogram h =>
    simp only [pointText, pointRows, hval]
    rw [map_singles (F64.histBins h) (β := Row)]
    apply rows_many
    intro b _ rest
    rw [rows_line _ _ _ _ _ ?_ (hF _) (hN _)]
    · rfl
    · refine solid_append (solid_append (solid_append hname ⟨by decide, by decide⟩) ?_) htags
      cases b.1 with
      | some x => exact hF x
      | none => exact show Solid "inf".toList from ⟨by decide, by decide⟩
  | quantiles c s =>
    simp only [pointText, pointRows, hval]
    apply rows_many
    intro p _ rest
    cases hq : F64.ckmsQuery c p with
    | none => rfl
    | some q =>
      simp only
      rw [rows_line _ _ _ _ _ ?_ (hF _) (hN _)]
      · rfl
      · exact solid_append (solid_append (solid_append hname ⟨by decide, by decide⟩) (hF p)) htags

private theorem foldl_write (ps : List (List Row)) : ∀ db : Db, ps.foldl write db = write db ps.flatten := by
  induction ps with
  | nil => intro db; rfl
  | cons p ps ih =>
    intro db
    simp only [List.foldl_cons, List.flatten_cons, ih]
    have : ∀ (a b : List Row) (db : Db), write (write db a) b = write db (a ++ b) := by
      intro a
      induction a with
      | nil => intro b db; rfl
      | cons r a ih => intro b db; simp only [List.cons_append, write]; exact ih b _
    exact this _ _ _

/-- **C139** (shown) Names, tags and printed numbers without spaces and line ends, numbers that can be compared: after any history in which each flush ends,
the database shows for every series and time the value last said for it among all points flushed, in the order of their arrival, and nothing else has
changed.  Missing: several increments of one counter within a second (`C139_increments_false`). -/
theorem C139_shown_partial (ext : Wavefront.Ext F) (ops : List (DbOp F)) (s : State F) (db : Db)
    (hf : ∀ fs, DbOp.flush fs ∈ ops → .success ∉ fs.map Prod.fst)
    (vals : F → Prop) (ord : Wavefront.Ordered ext vals) (hF : ∀ x, Solid (ext.showF x)) (hN : ∀ n, Solid (ext.showN n))
    (hpts : ∀ t ∈ (batches s.aggrs (ops.map DbOp.plain)).1.flatten, Solid t.name ∧ Solid (tagText (t.iterTags s.tags)) ∧ ∀ x, printed t x → vals x) :
    ∃ s' db', runDb ext s db ops = some (s', db') ∧
      (∀ before r after, ((batches s.aggrs (ops.map DbOp.plain)).1.flatten.map (pointRows ext s.tags)).flatten = before ++ r :: after →
        (∀ r' ∈ after, ¬ (r.series = r'.series ∧ r.time = r'.time)) → db' r.series r.time = some r.field) ∧
      (∀ series time, (∀ t ∈ (batches s.aggrs (ops.map DbOp.plain)).1.flatten, ∀ r ∈ pointRows ext s.tags t, ¬ (series = r.series ∧ time = r.time)) →
        db' series time = db series time) := by
  let text : List (Telemetry F) → Str := fun pts => (pts.map (pointText ext s.tags (fun ts => ext.showN (nanos ts)))).flatten
  obtain ⟨s', hrun, -⟩ := C139_written_once ext text ops s db hf (fun b hb =>
    C78_text_partial ext s.tags b vals ord (fun t ht => (hpts t (List.mem_flatten.2 ⟨b, hb, ht⟩)).2.2))
  have hrows : ((batches s.aggrs (ops.map DbOp.plain)).1.map text).foldl (fun db p => write db (rowsOf p)) db =
      write db (((batches s.aggrs (ops.map DbOp.plain)).1.flatten.map (pointRows ext s.tags)).flatten) := by
    generalize (batches s.aggrs (ops.map DbOp.plain)).1 = bs at hpts
    have h1 : ∀ b ∈ bs, rowsOf (text b) = (b.map (pointRows ext s.tags)).flatten := by
      intro b hb
      have := rows_many b (pointText ext s.tags (fun ts => ext.showN (nanos ts))) (pointRows ext s.tags) (fun t ht rest => by
        obtain ⟨p1, p2, -⟩ := hpts t (List.mem_flatten.2 ⟨b, hb, ht⟩)
        exact rows_point ext s.tags t rest p1 p2 hF hN) []
      have h0 : rowsOf [] = [] := rfl
      rw [h0, List.append_nil, List.append_nil] at this
      exact this
    have h2 : (bs.map text).foldl (fun db p => write db (rowsOf p)) db = (bs.map fun b => (b.map (pointRows ext s.tags)).flatten).foldl write db := by
      clear hpts hrun
      induction bs generalizing db with
      | nil => rfl
      | cons b bs ih =>
        simp only [List.map_cons, List.foldl_cons]
        rw [h1 b (by simp)]
        exact ih _ (fun b hb => h1 b (by simp [hb]))
    rw [h2, foldl_write]
    congr 1
    clear h1 h2 hpts hrun
    induction bs with
    | nil => rfl
    | cons b bs ih => simp [ih]
  rw [hrows] at hrun
  refine ⟨s', _, hrun, ?_, ?_⟩
  · intro before r after he hlast
    rw [he, write_eq]
    have : lastField r.series r.time (before ++ r :: after) = some r.field := by
      clear he
      induction before with
      | nil =>
        simp only [List.nil_append, lastField, (lastField_none r.series r.time after).2 hlast]
        simp
      | cons x before ih => simp only [List.cons_append, lastField, ih]
    simp [this]
  · intro series time h
    rw [write_eq, (lastField_none series time _).2]
    · rfl
    · intro r hr
      obtain ⟨l, hl, hr⟩ := List.mem_flatten.1 hr
      obtain ⟨t, ht, rfl⟩ := List.mem_map.1 hl
      exact h t ht r hr

end

/-- Disagreement: of two increments of one counter in the same second only the last is left, whether they are in one flush or in two: 5 and 2 are shown
as 2. -/
theorem C139_increments_false :
    ∀ ops ∈ [[.point (inPoint "a" 5 1), .point (inPoint "a" 2 1), .flush []],
        [.point (inPoint "a" 5 1), .flush [], .point (inPoint "a" 2 1), .flush []]],
      (runDb inExt (init []) (fun _ _ => none) ops).map (fun r => r.2 "a,k=v".toList "1000000000".toList) = some (some "value=2".toList) := by
  decide +kernel

/-- Numbers written as strokes, so that they have no spaces. -/
private def solidExt : Wavefront.Ext Int := { inExt with showF := fun x => List.replicate x.natAbs 'i', showN := fun n => List.replicate (n / 1000000000) 'n' }

example : (∀ x, Solid (solidExt.showF x)) ∧ ∀ n, Solid (solidExt.showN n) := by
  refine ⟨fun x => ⟨?_, ?_⟩, fun n => ⟨?_, ?_⟩⟩ <;> intro h <;> exact absurd (List.eq_of_mem_replicate h) (by decide)

/-- A flush with two failures, of which the server carries out the first by half and the second not at all, and another flush. -/
private def lossy : List (DbOp Int) :=
  [.point (inPoint "a" 1 1), .point (inPoint "b" 2 2), .flush [(.sendError, fun r => r.time = ['n']), (.serverError, fun _ => false)],
   .point (inPoint "a" 3 3), .flush []]

example : ∀ t ∈ (batches (init (F := Int) []).aggrs (lossy.map DbOp.plain)).1.flatten, Solid t.name ∧ Solid (tagText (t.iterTags [])) := by
  intro t ht
  simp only [lossy, List.map_cons, List.map_nil, DbOp.plain, batches, init, List.nil_append, List.cons_append, List.flatten_cons, List.flatten_nil,
    List.append_nil, List.mem_cons, List.not_mem_nil, or_false] at ht
  rcases ht with rfl | rfl | rfl <;> exact ⟨⟨by decide, by decide⟩, by decide, by decide⟩
example : (runDb solidExt (init []) (fun _ _ => none) lossy).map (fun r => [("a", "n"), ("b", "nn"), ("a", "nnn"), ("b", "n")].map
    fun k => r.2 (k.1.toList ++ ",k=v".toList) k.2.toList) =
    some [some "value=i".toList, some "value=ii".toList, some "value=iii".toList, none] := by decide +kernel

end Verif
