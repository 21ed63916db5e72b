import Verif.Spec.WavefrontProxy
import Verif.Props.Wavefront
/-!
# C142: what a Wavefront proxy knows
-/
namespace Verif
open Wavefront
open Influx (pieces)

private theorem pieces_ne (c : Char) (s : Str) : pieces c s ≠ [] := by
  induction s with
  | nil => simp [pieces]
  | cons x s ih =>
    simp only [pieces]
    split
    · simp
    · split <;> simp

private theorem ended_nl (s : Str) : endedLines ('\n' :: s) = [] :: endedLines s := by
  simp only [endedLines, pieces, if_true]
  exact List.dropLast_cons_of_ne_nil (pieces_ne _ _)

private theorem ended_other (x : Char) (s : Str) (h : x ≠ '\n') : endedLines (x :: s) = match endedLines s with
    | [] => []
    | l :: ls => (x :: l) :: ls := by
  simp only [endedLines, pieces, h, if_false]
  match pieces '\n' s with
  | [] => rfl
  | [_] => rfl
  | _ :: _ :: _ => rfl

/-- more text, more lines -/
private theorem ended_prefix (a b : Str) : endedLines a <+: endedLines (a ++ b) := by
  induction a with
  | nil => exact ⟨endedLines b, by simp [endedLines, pieces]⟩
  | cons x a ih =>
    obtain ⟨t, ht⟩ := ih
    by_cases h : x = '\n'
    · subst h
      refine ⟨t, ?_⟩
      rw [List.cons_append, ended_nl, ended_nl, ← ht]; rfl
    · rw [List.cons_append, ended_other _ _ h, ended_other _ _ h, ← ht]
      cases endedLines a with
      | nil => exact List.nil_prefix
      | cons l ls => exact ⟨t, rfl⟩

/-- Empty, or its last line is ended. -/
private def Whole (s : Str) : Prop := s = [] ∨ ∃ p, s = p ++ ['\n']

private theorem ended_append (a b : Str) (h : Whole a) : endedLines (a ++ b) = endedLines a ++ endedLines b := by
  rcases h with rfl | ⟨p, rfl⟩
  · simp [endedLines, pieces]
  · induction p with
    | nil => simp only [List.nil_append, List.singleton_append]; rw [ended_nl, ended_nl]; simp [endedLines, pieces]
    | cons x p ih =>
      by_cases hx : x = '\n'
      · subst hx
        simp only [List.cons_append]
        rw [ended_nl, ended_nl, ih]; rfl
      · simp only [List.cons_append]
        rw [ended_other _ _ hx, ended_other _ _ hx, ih]
        have : endedLines (p ++ ['\n']) ≠ [] := by
          clear ih
          induction p with
          | nil => simp only [List.nil_append]; rw [ended_nl]; simp
          | cons y p ih =>
            by_cases hy : y = '\n'
            · subst hy; simp only [List.cons_append]; rw [ended_nl]; simp
            · simp only [List.cons_append]
              rw [ended_other _ _ hy]
              cases he : endedLines (p ++ ['\n']) with
              | nil => exact absurd he ih
              | cons l ls => simp
        cases he : endedLines (p ++ ['\n']) with
        | nil => exact absurd he this
        | cons l ls => rfl

private theorem whole_append {a b : Str} (ha : Whole a) (hb : Whole b) : Whole (a ++ b) := by
  rcases hb with rfl | ⟨p, rfl⟩
  · simpa using ha
  · exact .inr ⟨a ++ p, by simp⟩

/-- the lines of one write -/
private def wireLines : Wire → List Str
  | .complete t | .part t => endedLines t
  | .delay _ => []

private def Proper (wire : List Wire) : Prop := ∀ t, .complete t ∈ wire → Whole t

private theorem streams_lines (wire : List Wire) : ∀ sofar, Whole sofar → Proper wire →
    (streams sofar wire).flatMap endedLines = endedLines sofar ++ wire.flatMap wireLines := by
  induction wire with
  | nil => intro sofar _ _; simp [streams]
  | cons w wire ih =>
    intro sofar hs hp
    have hp' : Proper wire := fun t ht => hp t (List.mem_cons_of_mem _ ht)
    cases w with
    | complete t =>
      have ht : Whole t := hp t (by simp)
      simp only [streams, List.flatMap_cons, wireLines]
      rw [ih _ (whole_append hs ht) hp', ended_append _ _ hs, List.append_assoc]
    | part t =>
      simp only [streams, List.flatMap_cons, wireLines]
      rw [ih [] (.inl rfl) hp', ended_append _ _ hs]
      simp [endedLines, pieces]
    | delay n =>
      simp only [streams, List.flatMap_cons, wireLines, List.nil_append]
      exact ih _ hs hp'

private theorem readLines_eq (wire : List Wire) (h : Proper wire) : readLines wire = wire.flatMap wireLines := by
  rw [readLines, streams_lines wire [] (.inl rfl) h]
  simp [endedLines, pieces]

section
variable {K V : Type} [DecidableEq K] (read : Str → Option (K × V))

/-- the last value of a key -/
private def lastOf (k : K) : List Str → Option V
  | [] => none
  | l :: ls => match lastOf k ls with
    | some v => some v
    | none => match read l with
      | some (k', v) => if k = k' then some v else none
      | none => none

private theorem keep_eq (ls : List Str) : ∀ (db : K → Option V) (k : K), keep read db ls k = (lastOf read k ls).or (db k) := by
  induction ls with
  | nil => intro db k; simp [keep, lastOf]
  | cons l ls ih =>
    intro db k
    simp only [keep, lastOf, ih]
    cases lastOf read k ls with
    | some v => simp
    | none =>
      cases read l with
      | none => simp
      | some r => by_cases h : k = r.1 <;> simp [h]

private theorem lastOf_none (k : K) (ls : List Str) : lastOf read k ls = none ↔ ∀ l ∈ ls, ∀ v, read l ≠ some (k, v) := by
  induction ls with
  | nil => simp [lastOf]
  | cons l ls ih =>
    simp only [lastOf, List.mem_cons, forall_eq_or_imp, ← ih]
    cases h : lastOf read k ls with
    | some v => simp
    | none =>
      cases hr : read l with
      | none => simp
      | some r =>
        obtain ⟨k', v'⟩ := r
        by_cases hk : k = k'
        · simp [hk]
        · simp only [hk, if_false, true_iff, and_true]
          intro v hv
          simp only [Option.some.injEq, Prod.mk.injEq] at hv
          exact hk hv.1.symm

/-- Reading some of the lines before reading all of them makes no difference. -/
private theorem keep_again (db : K → Option V) (ls sub : List Str) (h : ∀ l ∈ sub, l ∈ ls) : keep read (keep read db sub) ls = keep read db ls := by
  funext k
  rw [keep_eq, keep_eq _ ls db, keep_eq _ sub]
  cases hl : lastOf read k ls with
  | some v => simp
  | none =>
    have : lastOf read k sub = none := by
      rw [lastOf_none] at hl ⊢
      exact fun r hr => hl r (h r hr)
    simp [this]

private theorem keep_append (a b : List Str) : ∀ db : K → Option V, keep read db (a ++ b) = keep read (keep read db a) b := by
  induction a with
  | nil => intro db; rfl
  | cons l a ih => intro db; simp only [List.cons_append, keep]; exact ih _

end

section
variable {F : Type} [F64 F]

/-- the tokens of some lines -/
private def Lined (toks : List (Tok F)) : Prop := toks = [] ∨ ∃ p, toks = p ++ [.lit ['\n']]

private theorem Lined.append {a b : List (Tok F)} (ha : Lined a) (hb : Lined b) : Lined (a ++ b) := by
  rcases hb with rfl | ⟨p, rfl⟩
  · simpa using ha
  · exact .inr ⟨a ++ p, by simp⟩

private theorem lined_line (name : List (Tok F)) (v : Tok F) (ts : Int) (buf : Str) : Lined (lineToks name v ts buf) :=
  .inr ⟨name ++ [.lit [' '], v, .lit [' '], .time ts, .lit [' '], .lit buf], by simp [lineToks]⟩

private theorem lined_flatMap {α : Type} (f : α → List (Tok F)) (xs : List α) (h : ∀ x, Lined (f x)) : Lined (xs.flatMap f) := by
  induction xs with
  | nil => exact .inl rfl
  | cons x xs ih => simp only [List.flatMap_cons]; exact (h x).append ih

private theorem lined_quantiles (t : Telemetry F) (buf : Str) : ∀ (ps : List (Str × F)) (toks : List (Tok F)),
    quantileToks t buf ps = some toks → Lined toks := by
  intro ps
  induction ps with
  | nil => intro toks h; simp only [quantileToks, Option.some.injEq] at h; exact .inl h.symm
  | cons p ps ih =>
    intro toks h
    simp only [quantileToks] at h
    split at h
    · next q rest h1 h2 =>
      simp only [Option.some.injEq] at h
      rw [← h]
      exact (lined_line _ _ _ _).append (ih rest h2)
    · simp at h

private theorem lined_fmtVal {ps : List (Str × F)} {tags : TagMap} {t : Telemetry F} {toks : List (Tok F)} (h : fmtVal ps tags t = some toks) :
    Lined toks := by
  simp only [fmtVal] at h
  split at h
  · split at h
    · simp only [Option.some.injEq] at h; rw [← h]; exact lined_flatMap _ _ (fun b => lined_line _ _ _ _)
    · simp only [Option.some.injEq] at h; exact .inl h.symm
  · split at h
    · simp only [Option.some.injEq] at h; rw [← h]; exact lined_line _ _ _ _
    · simp only [Option.some.injEq] at h; exact .inl h.symm
  · split at h
    · simp only [Option.some.injEq] at h; rw [← h]; exact lined_line _ _ _ _
    · simp only [Option.some.injEq] at h; exact .inl h.symm
  · split at h
    · next qs mean h1 h2 =>
      simp only [Option.some.injEq] at h
      rw [← h]
      exact ((lined_quantiles _ _ _ _ h1).append (lined_line _ _ _ _)).append (lined_line _ _ _ _)
    · simp at h

private theorem pushToks_snoc (ext : Ext F) (p : List (Tok F)) : ∀ (c c' : Caches F) (stats stats' : Str),
    pushToks ext c stats (p ++ [.lit ['\n']]) = some (c', stats') → ∃ q, stats' = q ++ ['\n'] := by
  induction p with
  | nil =>
    intro c c' stats stats' h
    simp only [List.nil_append, pushToks, pushTok, Option.some.injEq, Prod.mk.injEq] at h
    exact ⟨stats, h.2.symm⟩
  | cons t p ih =>
    intro c c' stats stats' h
    simp only [List.cons_append, pushToks] at h
    cases ht : pushTok ext c stats t with
    | none => rw [ht] at h; simp at h
    | some r => rw [ht] at h; exact ih _ _ _ _ h

private theorem whole_push {ext : Ext F} {c c' : Caches F} {stats stats' : Str} {toks : List (Tok F)} (hl : Lined toks) (hw : Whole stats)
    (h : pushToks ext c stats toks = some (c', stats')) : Whole stats' := by
  rcases hl with rfl | ⟨p, rfl⟩
  · simp only [pushToks, Option.some.injEq, Prod.mk.injEq] at h; rw [← h.2]; exact hw
  · exact .inr (pushToks_snoc ext p _ _ _ _ h)

private theorem whole_pads (ext : Ext F) (now : Int) (ps : List (Str × F)) (tags : TagMap) : ∀ (pads : List (Pad F)) (c : Caches F) (stats : Str)
    (tmp : LastSeen) (r : Str × LastSeen), Whole stats → formatPads ext now ps tags pads c stats tmp = some r → Whole r.1 := by
  intro pads
  induction pads with
  | nil => intro c stats tmp r hw h; simp only [formatPads, Option.some.injEq] at h; rw [← h]; exact hw
  | cons p pads ih =>
    intro c stats tmp r hw h
    simp only [formatPads] at h
    split at h
    · simp at h
    · split at h
      · simp at h
      · next toks ht =>
        split at h
        · simp at h
        · next c1 stats1 hp => exact ih _ _ _ _ (whole_push (lined_fmtVal ht) hw hp) h

private theorem whole_format {ext : Ext F} {now : Int} {s s1 : State F} (hs : s.stats = []) (h : s.formatStats ext now = some s1) : Whole s1.stats := by
  simp only [State.formatStats] at h
  split at h
  · simp at h
  · split at h
    · simp at h
    · next stats tmp hf =>
      simp only [Option.some.injEq] at h
      rw [← h]
      exact whole_pads ext now _ _ _ _ _ _ _ (.inl hs) hf

/-- the state that a flush leaves when it returns -/
private theorem flushLoop_state (now : Int) (script : List Io) : ∀ (s : State F) (w : List Wire), (s.flushLoop now script w).2.2 = true →
    (s.flushLoop now script w).1 = { s with aggrs := s.aggrs.reset now, stats := [], deliveryAttempts := 0, connected := true } := by
  induction script with
  | nil => intro s w h; simp [State.flushLoop] at h
  | cons io script ih =>
    intro s w h
    simp only [State.flushLoop] at h ⊢
    by_cases hc : s.connected = true
    · simp only [hc, if_true] at h ⊢
      cases io with
      | ok => rfl
      | fail n => simp only at h ⊢; rw [ih _ _ h]
    · simp only [hc, Bool.false_eq_true, if_false] at h ⊢
      rw [ih _ _ h]

/-- The two runs are in states that differ in the connection and the attempts counted. -/
private def Near (a b : State F) : Prop := b = { a with connected := true, deliveryAttempts := b.deliveryAttempts }

private def young (th : Option Nat) (now : Int) (t : Telemetry F) : Bool := match th with
  | some age => decide (((t.timestamp - now).natAbs : Int) ≤ asI64 age)
  | none => true

private theorem deliver_eq (ext : Ext F) (now : Int) (s : State F) (t : Telemetry F) : s.deliver ext now t =
    if young s.ageThreshold now t then (s.aggrs.add ext.nameTagHash now t).map fun a => { s with aggrs := a } else some s := rfl

private theorem near_deliver {ext : Ext F} {now : Int} {t : Telemetry F} {a b a' : State F} (h : Near a b) (hd : a.deliver ext now t = some a') :
    ∃ b', b.deliver ext now t = some b' ∧ Near a' b' ∧ a'.stats = a.stats := by
  generalize hn : b.deliveryAttempts = n at *
  rw [Near, hn] at h
  subst h
  simp only [deliver_eq] at hd ⊢
  by_cases hy : young a.ageThreshold now t = true
  · simp only [hy, if_true] at hd ⊢
    cases ha : a.aggrs.add ext.nameTagHash now t with
    | none => rw [ha] at hd; simp at hd
    | some x =>
      rw [ha] at hd
      simp only [Option.map_some, Option.some.injEq] at hd
      subst hd
      exact ⟨_, rfl, rfl, rfl⟩
  · simp only [hy, Bool.false_eq_true, if_false, Option.some.injEq] at hd ⊢
    subst hd
    exact ⟨_, rfl, rfl, rfl⟩

private theorem near_format {ext : Ext F} {now : Int} {a b a' : State F} (h : Near a b) (hd : a.formatStats ext now = some a') :
    ∃ b', b.formatStats ext now = some b' ∧ Near a' b' ∧ b'.stats = a'.stats := by
  generalize hn : b.deliveryAttempts = n at *
  rw [Near, hn] at h
  subst h
  simp only [State.formatStats] at hd ⊢
  split at hd
  · simp at hd
  · split at hd
    · simp at hd
    · simp only [Option.some.injEq] at hd
      subst hd
      exact ⟨_, rfl, rfl, rfl⟩

private theorem flush_calm {ext : Ext F} {now : Int} {script : List Io} {a b a' : State F} {w : List Wire} (h : Near a b) (hs : a.stats = [])
    (hf : a.flush ext now script = some (a', w, true)) :
    ∃ text parts, Whole text ∧ w = parts ++ [.complete text] ∧ (∀ e ∈ parts, ∃ n, e = .part (text.take n) ∨ e = .delay n) ∧
      a'.stats = [] ∧ b.flush ext now [.ok] = some (a', [.complete text], true) := by
  cases h1 : a.formatStats ext now with
  | none => simp [State.flush, h1] at hf
  | some a1 =>
    obtain ⟨b1, g1, g2, g3⟩ := near_format h h1
    obtain ⟨W, e1, e2, -⟩ := C46_flush_delivers ext now script a a1 a' w true h1 hf
    simp only [true_and, reduceCtorEq, Bool.true_eq_false, false_and, or_false] at e2
    refine ⟨a1.stats, W, whole_format hs h1, e2.1, e1, e2.2, ?_⟩
    simp only [State.flush, h1, Option.map_some, Option.some.injEq] at hf
    have hst := flushLoop_state now script a1 [] (by rw [hf])
    rw [hf] at hst
    simp only at hst
    generalize hn : b1.deliveryAttempts = n at g2
    rw [Near, hn] at g2
    subst g2
    simp only [State.flush, g1, Option.map_some, State.flushLoop, if_true, hst, List.nil_append]

private theorem keep_flush {K V : Type} [DecidableEq K] (read : Str → Option (K × V)) (db : K → Option V) (text : Str) (parts : List Wire)
    (h : ∀ e ∈ parts, ∃ n, e = .part (text.take n) ∨ e = .delay n) :
    keep read db ((parts ++ [Wire.complete text]).flatMap wireLines) = keep read db (endedLines text) := by
  rw [List.flatMap_append, keep_append]
  have : [Wire.complete text].flatMap wireLines = endedLines text := by simp [wireLines]
  rw [this]
  apply keep_again
  intro l hl
  obtain ⟨e, he, hl⟩ := List.mem_flatMap.1 hl
  obtain ⟨n, rfl | rfl⟩ := h e he
  · have := ended_prefix (text.take n) (text.drop n)
    rw [List.take_append_drop] at this
    exact this.subset hl
  · simp [wireLines] at hl

/-- **C142** Whatever connection attempts and writes fail, and however much of a failed write arrives: a proxy that takes only ended lines and keeps the
last value per key knows, after any history in which every flush returns, what it would know had nothing failed; and the sink holds the same. -/
theorem C142_as_if_nothing_failed {K V : Type} [DecidableEq K] (read : Str → Option (K × V)) (db : K → Option V) (ext : Ext F)
    (ops : List (ProxyOp F)) (s s' : State F) (wire : List Wire) (hs : s.stats = []) (h : runProxy ext s [] ops = some (s', wire)) :
    ∃ t' calm, runProxy ext { s with connected := true } [] (ops.map ProxyOp.calm) = some (t', calm) ∧
      keep read db (readLines wire) = keep read db (readLines calm) ∧
      t' = { s' with connected := true, deliveryAttempts := t'.deliveryAttempts } := by
  have gen : ∀ (ops : List (ProxyOp F)) (a b a' : State F) (wa wb wire : List Wire), Near a b → a.stats = [] → Proper wa → Proper wb →
      keep read db (wa.flatMap wireLines) = keep read db (wb.flatMap wireLines) → runProxy ext a wa ops = some (a', wire) →
      ∃ b' calm, runProxy ext b wb (ops.map ProxyOp.calm) = some (b', calm) ∧ Near a' b' ∧ Proper wire ∧ Proper calm ∧
        keep read db (wire.flatMap wireLines) = keep read db (calm.flatMap wireLines) := by
    intro ops
    induction ops with
    | nil =>
      intro a b a' wa wb wire hn _ pa pb hk h
      simp only [runProxy, Option.some.injEq, Prod.mk.injEq] at h
      obtain ⟨rfl, rfl⟩ := h
      exact ⟨b, wb, rfl, hn, pa, pb, hk⟩
    | cons o ops ih =>
      intro a b a' wa wb wire hn hs pa pb hk h
      cases o with
      | point now t =>
        simp only [runProxy] at h
        cases hd : a.deliver ext now t with
        | none => rw [hd] at h; simp at h
        | some a1 =>
          rw [hd] at h
          obtain ⟨b1, e1, e2, e3⟩ := near_deliver hn hd
          simp only [List.map_cons, ProxyOp.calm, runProxy, e1]
          exact ih a1 b1 a' wa wb wire e2 (e3.trans hs) pa pb hk h
      | flush now script =>
        simp only [runProxy] at h
        split at h
        · next s1 w hf =>
          obtain ⟨text, parts, t1, t2, t3, t4, t5⟩ := flush_calm hn hs hf
          subst t2
          simp only [List.map_cons, ProxyOp.calm, runProxy, t5]
          by_cases hconn : s1.connected = true
          · refine ih s1 s1 a' _ _ wire (by rw [Near]; cases s1; simp_all) t4 ?_ ?_ ?_ h
            · intro t ht
              simp only [List.mem_append, List.mem_singleton, Wire.complete.injEq] at ht
              rcases ht with ht | ht | rfl
              · exact pa t ht
              · obtain ⟨n, he | he⟩ := t3 _ ht <;> cases he
              · exact t1
            · intro t ht
              simp only [List.mem_append, List.mem_singleton, Wire.complete.injEq] at ht
              rcases ht with ht | rfl
              · exact pb t ht
              · exact t1
            · rw [List.flatMap_append, keep_append, keep_flush read _ text parts t3, hk, List.flatMap_append, keep_append]
              simp [wireLines]
          · exfalso
            have : s1.connected = true := by
              simp only [State.flush, Option.map_eq_some_iff] at hf
              obtain ⟨x, -, hx⟩ := hf
              have := flushLoop_state now script x [] (by rw [hx])
              rw [hx] at this
              simp only at this
              rw [this]
            exact hconn this
        · simp at h
  obtain ⟨b', calm, r1, r2, r3, r4, r5⟩ := gen ops s { s with connected := true } s' [] [] wire rfl hs
    (fun t h => by simp at h) (fun t h => by simp at h) rfl h
  exact ⟨b', calm, r1, by rw [readLines_eq _ r3, readLines_eq _ r4]; exact r5, r2⟩

end

/-- Reading a line `name value time tags`: the key is name and time. -/
private def readLine (l : Str) : Option ((Str × Str) × Str) := match pieces ' ' l with
  | name :: value :: time :: _ => some ((name, time), value)
  | _ => none

/-- A first write that breaks off in the second line, a connection that cannot be opened, a second write that breaks off in the first line; then a flush
in which nothing fails, over the same connection. -/
private def broken : List (ProxyOp Int) :=
  [.point 0 (wfGauge "a" 1 3), .point 0 (wfGauge "bb" 0 2), .flush 9 [.fail 11, .fail 0, .ok, .fail 5, .ok, .ok], .point 0 (wfGauge "a" 0 4), .flush 9 [.ok]]

private def sinkAtStart : State Int := State.init 1 [] none true wfPadAll []

-- what arrives: the first line twice; nothing of the lines that were cut
example : (runProxy wfExt sinkAtStart [] broken).map (fun r => readLines r.2) =
    some ["a v ttt ".toList, "a v ttt ".toList, "bb z tt ".toList, "a z tttt ".toList] := by decide +kernel
example : (runProxy wfExt sinkAtStart [] broken).map (fun r => (streams [] r.2).length) = some 3 := by decide +kernel
-- what the proxy knows
example : (runProxy wfExt sinkAtStart [] broken).map (fun r =>
      [("a", "ttt"), ("a", "tttt"), ("bb", "tt"), ("b", "tt")].map fun k => keep readLine (fun _ => none) (readLines r.2) (k.1.toList, k.2.toList)) =
    some [some ['v'], some ['z'], some ['z'], none] := by decide +kernel
-- a proxy that took lines that are not ended would be told of a time of which no point was: the hypothesis on the proxy is needed
example : (runProxy wfExt sinkAtStart [] [.point 0 (wfGauge "a" 1 3), .flush 9 [.fail 6, .ok, .ok]]).map (fun r =>
      [(['a'], ['t', 't']), (['a'], ['t', 't', 't'])].map (keep readLine (fun _ => none) ((streams [] r.2).flatMap (pieces '\n')))) =
    some [some ['v'], some ['v']] := by decide +kernel
example := C142_as_if_nothing_failed readLine (fun _ => none) wfExt broken sinkAtStart

end Verif
