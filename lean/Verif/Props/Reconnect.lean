import Verif.Spec.Reconnect
import Verif.Props.Native
import Verif.Props.Wire
import Verif.Props.NetSeveral
/-!
# C145 — a native sink and a native source over connections that break
-/
namespace Verif
open Native
open Native (Each)
open Wire (Sym NetItem frame be symsOf decode Framed)
variable {F : Type} [F64 F]

namespace Reconnect

/-! ## Reading a connection -/

private theorem serve_any (bits : Bits F) (now : Int) (fuel : Nat) : ∀ (r : Wire.Reader) (ps : List Bytes) (e : Wire.PayloadErr)
    (outs : List (List (Event F))), r.drain fuel = (ps, e) → Each (fun p es => handlePayload bits now p = .events es) ps outs →
    (serve bits now fuel r).1 = outs.flatten := by
  induction fuel with
  | zero =>
    intro r ps e outs h he
    simp only [Wire.Reader.drain, Prod.mk.injEq] at h
    obtain ⟨rfl, -⟩ := h
    cases he; rfl
  | succ fuel ih =>
    intro r ps e outs h he
    simp only [Wire.Reader.drain] at h
    simp only [serve]
    rcases hr : r.read with ⟨res, r'⟩
    rw [hr] at h
    cases res with
    | ok p =>
      simp only [] at h ⊢
      rcases hd : Wire.Reader.drain fuel r' with ⟨ps', e'⟩
      rw [hd] at h
      simp only [Prod.mk.injEq] at h
      obtain ⟨rfl, rfl⟩ := h
      cases he with
      | cons h1 h2 => simp only [h1, ih r' ps' _ _ hd h2, List.flatten_cons]
    | error e' =>
      cases e' with
      | wouldBlock => exact ih r' ps e outs h he
      | eof => simp only [Prod.mk.injEq] at h; obtain ⟨rfl, -⟩ := h; cases he; rfl
      | io => simp only [Prod.mk.injEq] at h; obtain ⟨rfl, -⟩ := h; cases he; rfl
      | protocol => simp only [Prod.mk.injEq] at h; obtain ⟨rfl, -⟩ := h; cases he; rfl
      | lengthTooLarge => simp only [Prod.mk.injEq] at h; obtain ⟨rfl, -⟩ := h; cases he; rfl

private theorem read_length (max : Nat) (p : Bytes) (h1 : p.length ≤ max) (h2 : p.length < 2 ^ 32) (t : List Sym) :
    decode max none [] ((be 4 p.length).map .byte ++ t) = decode max (some p.length) [] t := by
  have hbe : Wire.beNat (be 4 p.length) = p.length := by rw [Wire.beNat_be]; exact Nat.mod_eq_of_lt (by simpa using h2)
  have hl : (be 4 p.length).length = 4 := by simp [be]
  match hbs : be 4 p.length, hl with
  | [a, b, c, d], _ =>
    rw [hbs] at hbe
    simp [decode, hbe, Nat.not_lt.2 h1]

private theorem read_end {e : List Sym} (he : Ends e) (max : Nat) (o : Option Nat) (got : Bytes) : (decode max o got e).1 = [] := by
  rcases he with rfl | rfl <;> cases o <;> rfl

private theorem read_empty (max : Nat) : ∀ s : List Sym, (decode max (some 0) [] s).1 = []
  | [] => rfl
  | .block :: s => by simp only [decode]; exact read_empty max s
  | .byte _ :: _ => rfl
  | .interrupted :: _ => rfl
  | .failed :: _ => rfl

private theorem read_framed (max : Nat) (t : List Sym) (ht : (decode max none [] t).1 = []) {ps : List Bytes} {s : List Sym} (h : Framed ps s)
    (hp : ∀ p ∈ ps, p.length ≤ max ∧ p.length < 2 ^ 32) : (decode max none [] (s ++ t)).1 = ps.takeWhile fun p => !p.isEmpty := by
  induction h with
  | done => exact ht
  | block _ ih => simp only [List.cons_append, decode]; exact ih hp
  | @frame ps s p body hpb hb hs ih =>
    have ih := ih fun q hq => hp q (by simp [hq])
    obtain ⟨h1, h2⟩ := hp p (by simp)
    rw [List.append_assoc, List.append_assoc, read_length max p h1 h2]
    by_cases he : p = []
    · subst he
      rw [List.length_nil, read_empty]; rfl
    · rw [Wire.decode_body max _ _ body [] hb (by simpa using List.length_pos_iff.2 he) (by simp [hpb]), ih, hpb]
      have : p.isEmpty = false := by simpa using he
      simp [List.takeWhile_cons, this]

private theorem read_short {e : List Sym} (he : Ends e) (max : Nat) : ∀ (s : List Sym) (got : Bytes), Plain s →
    got.length + (s.filterMap Sym.byte?).length < 4 → (decode max none got (s ++ e)).1 = []
  | [], got, _, _ => read_end he max none got
  | x :: s, got, hs, hl => by
    have hs' : Plain s := fun y hy => hs y (by simp [hy])
    rcases hs x (by simp) with rfl | ⟨b, rfl⟩
    · simp only [List.cons_append, decode]
      have : (s.filterMap Sym.byte?).length < 4 := by simp only [List.filterMap_cons, Sym.byte?] at hl; omega
      exact read_short he max s [] hs' (by simpa using this)
    · have hl : got.length + ((s.filterMap Sym.byte?).length + 1) < 4 := by simpa [Sym.byte?] using hl
      simp only [List.cons_append, decode, if_neg (show ¬ got.length + 1 = 4 by omega)]
      exact read_short he max s (got ++ [b]) hs' (by simp; omega)

private theorem read_part {e : List Sym} (he : Ends e) (max n : Nat) : ∀ (s : List Sym) (got : Bytes), Plain s →
    got.length + (s.filterMap Sym.byte?).length < n → (decode max (some n) got (s ++ e)).1 = []
  | [], got, _, _ => read_end he max (some n) got
  | x :: s, got, hs, hl => by
    have hs' : Plain s := fun y hy => hs y (by simp [hy])
    rcases hs x (by simp) with rfl | ⟨b, rfl⟩
    · simp only [List.cons_append, decode]
      exact read_part he max n s got hs' hl
    · have hl : got.length + ((s.filterMap Sym.byte?).length + 1) < n := by simpa [Sym.byte?] using hl
      simp only [List.cons_append, decode, if_neg (show ¬ n = 0 by omega), if_neg (show ¬ got.length + 1 = n by omega)]
      exact read_part he max n s (got ++ [b]) hs' (by simp; omega)

private theorem read_cut {p : Bytes} {c e : List Sym} (hc : Cut p c) (he : Ends e) (max : Nat) (h1 : p.length ≤ max) (h2 : p.length < 2 ^ 32) :
    (decode max none [] (c ++ e)).1 = [] := by
  cases hc with
  | length _ hs hp hl => exact read_short he max c [] hs (by simpa using hl)
  | payload s hs hp hl =>
    rw [List.append_assoc, read_length max p h1 h2]
    exact read_part he max _ s [] hs (by simpa using hl)

/-- The payloads among what was written on a connection, as far as its reader sees them. -/
private theorem seen_payloads {failed : Bool} {ws : List Bytes} {s : List Sym} {k : Nat} (h : Seen failed ws s k) :
    (∀ p, frame p ∈ ws → p.length ≤ maxPayload) → ∃ ps : List Bytes, ws = ps.map frame ∧
      (decode maxPayload none [] s).1 = (if failed && k == 0 then ps.dropLast else ps).takeWhile fun p => !p.isEmpty := by
  have hbig : ∀ p : Bytes, p.length ≤ maxPayload → p.length < 2 ^ 32 := fun p h => by simp only [maxPayload] at h; omega
  intro hw
  cases h with
  | whole ps s e hf he =>
    refine ⟨ps, rfl, ?_⟩
    rw [read_framed maxPayload e (read_end he _ _ _) hf fun p hp => by
      have h2 := hw p (List.mem_map.2 ⟨p, hp, rfl⟩)
      exact ⟨h2, hbig p h2⟩]
    cases ps <;> cases failed <;> rfl
  | cut ps p s c e hfl hf hc he =>
    refine ⟨ps ++ [p], by simp, ?_⟩
    have h2 := hw p (by simp)
    rw [List.append_assoc, read_framed maxPayload (c ++ e) (read_cut hc he maxPayload h2 (hbig p h2)) hf fun q hq => by
      have h2 := hw q (List.mem_append_left _ (List.mem_map.2 ⟨q, hq, rfl⟩))
      exact ⟨h2, hbig q h2⟩]
    subst hfl; simp

/-! ## What the sink writes on its connections -/

/-- Items of a list as they are put on connections: `c` says whether the sink is connected. -/
private inductive Sess {α : Type} : Bool → List α → List (List α) → Prop
  | done {c} : Sess c [] [[]]
  | sent {x xs g gs} : Sess true xs (g :: gs) → Sess true (x :: xs) ((x :: g) :: gs)
  | failed {c x xs gs} : Sess c (x :: xs) gs → Sess true (x :: xs) ([x] :: gs)
  | idle {c x xs gs} : Sess c (x :: xs) gs → Sess false (x :: xs) ([] :: gs)

private theorem sessions_ne (as : List Act) : ∃ g gs, sessions as = g :: gs := by
  induction as with
  | nil => exact ⟨_, _, rfl⟩
  | cons a as ih =>
    cases a with
    | write bs => exact ⟨_, _, rfl⟩
    | delay n => exact ih
    | connect => exact ⟨_, _, rfl⟩

private theorem loop_sess {α : Type} (f : α → Bytes) (x : α) (xs : List α) (rest : List Act)
    (hr : ∃ gs, sessions rest = gs.map (·.map f) ∧ Sess true xs gs) : ∀ (os : List Bool) (c : Bool) (a : Nat),
    (flushLoop (f x) c a os).2.2.2 = true →
    (flushLoop (f x) c a os).1 = true ∧
      if c then ∃ gs, sessions ((flushLoop (f x) c a os).2.2.1 ++ rest) = gs.map (·.map f) ∧ Sess true (x :: xs) gs
      else ∃ n as c' gs, (flushLoop (f x) c a os).2.2.1 = .delay n :: .connect :: as ∧ sessions (as ++ rest) = gs.map (·.map f) ∧ Sess c' (x :: xs) gs := by
  intro os
  induction os with
  | nil => intro c a h; cases c <;> simp [flushLoop] at h
  | cons o os ih =>
    intro c a h
    cases c with
    | true => cases o with
      | true =>
        obtain ⟨gs, h1, h2⟩ := hr
        obtain ⟨g, gs', hg⟩ := sessions_ne rest
        cases gs with
        | nil => rw [h1] at hg; simp at hg
        | cons g0 gs0 =>
          refine ⟨rfl, (x :: g0) :: gs0, ?_, .sent h2⟩
          simp [flushLoop, sessions, h1]
      | false =>
        simp only [flushLoop] at h ⊢
        obtain ⟨i1, i2⟩ := ih false (satSucc a) h
        obtain ⟨n, as, c', gs, h1, h2, h3⟩ := i2
        refine ⟨i1, [x] :: gs, ?_, .failed h3⟩
        simp [h1, sessions, h2]
    | false =>
      simp only [flushLoop] at h ⊢
      obtain ⟨i1, i2⟩ := ih o a h
      refine ⟨i1, ?_⟩
      cases o with
      | true => obtain ⟨gs, h1, h2⟩ := i2; exact ⟨_, _, true, gs, rfl, h1, h2⟩
      | false =>
        obtain ⟨n, as, c', gs, h1, h2, h3⟩ := i2
        refine ⟨_, _, false, [] :: gs, rfl, ?_, .idle h3⟩
        simp [h1, sessions, h2]

private def wireOf (bits : Bits F) (tags : TagMap) (b : List (Event F)) : Bytes := wire (payloadOf bits tags b)

private theorem deliver_all (bs : List (Event F)) : ∀ s : Sink F, bs.foldl Sink.deliver s = { s with buffer := s.buffer ++ bs } := by
  induction bs with
  | nil => intro s; simp
  | cons b bs ih => intro s; rw [List.foldl_cons, ih]; simp [Sink.deliver]

private theorem run_sess (bits : Bits F) (tags : TagMap) : ∀ (fl : List (List (Event F) × List Bool)) (s : Sink F) (log : List (List (Event F) × List Act)),
    s.buffer = [] → s.tags = tags → runFlushes bits s fl = some log →
    log.map (·.1) = fl.map (·.1) ∧
    ∃ gs, sessions (log.flatMap (·.2)) = gs.map (·.map (wireOf bits tags)) ∧ Sess s.connected (fl.map (·.1)) gs
  | [], s, log, _, _, h => by
    simp only [runFlushes, Option.some.injEq] at h
    subst h
    exact ⟨rfl, [[]], rfl, .done⟩
  | (b, os) :: fl, s, log, hb, ht, h => by
    rw [runFlushes, deliver_all, hb] at h
    simp only [Sink.flush, List.nil_append, ht] at h
    rcases hloop : flushLoop (wire (payloadOf bits tags b)) s.connected s.attempts os with ⟨c, a, w, d⟩
    rw [hloop] at h
    cases d with
    | false => simp at h
    | true =>
      simp only [] at h
      obtain ⟨log', h1, rfl⟩ := Option.map_eq_some_iff.1 h
      obtain ⟨i1, i2⟩ := run_sess bits tags fl { buffer := [], connected := c, attempts := a, tags := tags } log' rfl rfl h1
      have hd : (flushLoop (wireOf bits tags b) s.connected s.attempts os).2.2.2 = true := by simp only [wireOf, hloop]
      have hc : c = true := by
        have := (loop_sess (fun _ : Unit => wireOf bits tags b) () [] [] ⟨[[]], rfl, .done⟩ os s.connected s.attempts hd).1
        simpa only [wireOf, hloop] using this
      subst hc
      refine ⟨by simp [i1], ?_⟩
      have key := (loop_sess (wireOf bits tags) b (fl.map (·.1)) (log'.flatMap (·.2)) i2 os s.connected s.attempts hd).2
      simp only [wireOf, hloop] at key
      simp only [List.flatMap_cons, List.map_cons]
      cases hsc : s.connected with
      | true => rw [hsc] at key; exact key
      | false =>
        rw [hsc] at key
        obtain ⟨n, as, c', gs, k1, k2, k3⟩ := key
        refine ⟨[] :: gs, ?_, .idle k3⟩
        simp only [k1, List.cons_append, sessions, k2, wireOf, List.map_cons, List.map_nil]

/-! ## What the source takes from the connections -/

private inductive Took {α : Type} : List (List α) → List α → Nat → Prop
  | last {g} : Took [g] g 0
  | lost {g gs r n} : Took gs r n → Took (g :: gs) (g.dropLast ++ r) n
  | again {g gs r n} : g ≠ [] → Took gs r n → Took (g :: gs) (g ++ r) (n + 1)

private theorem took_ne {α : Type} {r : List α} {n : Nat} (h : Took [] r n) : False := by cases h

private theorem sess_ne {α : Type} {c : Bool} {xs : List α} {gs : List (List α)} (h : Sess c xs gs) : gs ≠ [] := by cases h <;> simp

private theorem sess_open {α : Type} {xs g : List α} {g' : List α} {gs : List (List α)} (h : Sess true xs (g :: g' :: gs)) : g ≠ [] := by
  cases h <;> simp

private theorem took_repeats {α : Type} {c : Bool} {xs : List α} {gs : List (List α)} (h : Sess c xs gs) :
    ∀ (r : List α) (n : Nat), Took gs r n → Repeats xs r ∧ r.length = xs.length + n := by
  induction h with
  | done =>
    intro r n ht
    cases ht with
    | last => exact ⟨.nil, rfl⟩
    | lost h => exact (took_ne h).elim
    | again _ h => exact (took_ne h).elim
  | @sent x xs g gs hs ih =>
    intro r n ht
    cases ht with
    | last =>
      obtain ⟨h1, h2⟩ := ih g 0 .last
      exact ⟨.once h1, by simp [h2]⟩
    | @lost _ _ r n h =>
      cases gs with
      | nil => exact (took_ne h).elim
      | cons g' gs =>
        have hg := sess_open hs
        obtain ⟨h1, h2⟩ := ih (g.dropLast ++ r) n (.lost h)
        rw [List.dropLast_cons_of_ne_nil hg, List.cons_append]
        exact ⟨.once h1, by rw [List.length_cons, h2, List.length_cons]; omega⟩
    | @again _ _ r n h0 h =>
      cases gs with
      | nil => exact (took_ne h).elim
      | cons g' gs =>
        obtain ⟨h1, h2⟩ := ih (g ++ r) (n + 1) (.again (sess_open hs) h)
        rw [List.cons_append]
        exact ⟨.once h1, by rw [List.length_cons, h2, List.length_cons]; omega⟩
  | failed hs ih =>
    intro r n ht
    cases ht with
    | last => exact (sess_ne hs rfl).elim
    | @lost _ _ r n h => exact ih r n h
    | @again _ _ r n h0 h =>
      obtain ⟨h1, h2⟩ := ih r n h
      exact ⟨.again h1, by simp only [List.length_append, List.length_singleton, h2]; omega⟩
  | idle hs ih =>
    intro r n ht
    cases ht with
    | last => exact (sess_ne hs rfl).elim
    | @lost _ _ r n h => exact ih r n h
    | again h0 h => exact (h0 rfl).elim

private theorem sess_sub {α : Type} {c : Bool} {xs : List α} {gs : List (List α)} (h : Sess c xs gs) : ∀ g ∈ gs, g.Sublist xs := by
  induction h with
  | done => simp
  | @sent x xs g gs _ ih =>
    intro g' hg
    rcases List.mem_cons.1 hg with rfl | hg
    · exact (ih g (by simp)).cons_cons x
    · exact (ih g' (by simp [hg])).cons x
  | failed _ ih =>
    intro g' hg
    rcases List.mem_cons.1 hg with rfl | hg
    · simp
    · exact ih g' hg
  | idle _ ih =>
    intro g' hg
    rcases List.mem_cons.1 hg with rfl | hg
    · simp
    · exact ih g' hg

private theorem each_append {α β : Type} {R : α → β → Prop} {as : List α} {bs : List β} {as' : List α} {bs' : List β} (h : Each R as bs)
    (h' : Each R as' bs') : Each R (as ++ as') (bs ++ bs') := by
  induction h with
  | nil => exact h'
  | cons h _ ih => exact .cons h ih

/-- A batch that the sink may be given. -/
private structure Fits (bits : Bits F) (tags : TagMap) (b : List (Event F)) : Prop where
  frame : wireOf bits tags b = frame (payloadOf bits tags b).write
  size : (payloadOf bits tags b).write.length ≤ maxPayload
  ne : (payloadOf bits tags b).write = [] → b = []
  handled : ∀ now, ∃ out, handlePayload bits now (payloadOf bits tags b).write = .events out ∧ BatchArrives tags b out

private theorem fits (bits : Bits F) (tags : TagMap) (hd : tags.Ok) (b : List (Event F)) (hok : ∀ e ∈ b, SendOk bits e)
    (hs : ∀ bs, FlushWrites bits tags b bs → bs.length ≤ maxPayload + 4) : Fits bits tags b := by
  have hw := hs _ (flush_wire bits tags b)
  have hlen : (payloadOf bits tags b).write.length ≤ maxPayload := by
    have h4 : ∀ v, (be32 v).length = 4 := fun v => rfl
    simp only [wire, List.length_append, h4] at hw
    omega
  have hl' : (payloadOf bits tags b).write.length < 4294967296 := by simp only [maxPayload] at hlen; omega
  obtain ⟨p, h1, h2⟩ := C55_framed_partial bits tags hd b hok fun bs hbs => by have := hs bs hbs; simp only [maxPayload] at this; omega
  simp only [FlushWrites, flush_wire, Prod.mk.injEq, List.cons.injEq, Act.write.injEq, and_true] at h1
  have hp : p = (payloadOf bits tags b).write := by
    have h' := congrArg (List.drop 4) h1
    simpa [wire, Wire.frame, be32, be] using h'.symm
  subst hp
  refine ⟨h1, hlen, ?_, h2⟩
  intro hnil
  obtain ⟨out, e1, e2⟩ := h2 0
  rw [hnil] at e1
  have hE : handlePayload bits 0 [] = .events [] := rfl
  rw [hE, Handled.events.injEq] at e1
  subst e1
  obtain ⟨ts, ls, q1, q2, q3⟩ := e2
  obtain ⟨hts, hls⟩ := List.append_eq_nil_iff.1 q1.symm
  rw [List.map_eq_nil_iff] at hts hls
  subst hts hls
  cases b with
  | nil => rfl
  | cons e b =>
    exfalso
    have he := hok e (by simp)
    cases e with
    | telemetry t => simp only [telemetries, List.filterMap_cons] at q2; cases q2
    | log l => simp only [logs, List.filterMap_cons] at q3; cases q3
    | timerFlush i => exact he
    | shutdown => exact he
    | raw r => exact he

private theorem frame_inj {p q : Bytes} (h : frame p = frame q) : p = q := by
  have h' := congrArg (List.drop 4) h
  simpa [Wire.frame, be] using h'

private theorem frames_inj : ∀ {ps qs : List Bytes}, ps.map frame = qs.map frame → ps = qs
  | [], [], _ => rfl
  | [], _ :: _, h => by simp at h
  | _ :: _, [], h => by simp at h
  | p :: ps, q :: qs, h => by
    simp only [List.map_cons, List.cons.injEq] at h
    rw [frame_inj h.1, frames_inj h.2]

/-- After an empty batch only empty ones. -/
private def Late (g : List (List (Event F))) : Prop := g.Pairwise fun a b => a = [] → b = []

/-- The empty batches at the end yield nothing. -/
private theorem late_arrives (bits : Bits F) (now : Int) (tags : TagMap) : ∀ (g : List (List (Event F))), (∀ b ∈ g, Fits bits tags b) → Late g →
    ∃ outs outs' : List (List (Event F)), Each (fun p es => handlePayload bits now p = .events es)
        ((g.map fun b => (payloadOf bits tags b).write).takeWhile fun p => !p.isEmpty) outs ∧
      Each (BatchArrives tags) g outs' ∧ outs.flatten = outs'.flatten
  | [], _, _ => ⟨[], [], .nil, .nil, rfl⟩
  | b :: g, hg, hl => by
    obtain ⟨h1, h2⟩ := List.pairwise_cons.1 hl
    by_cases hb : b = []
    · subst hb
      refine ⟨[], List.replicate (g.length + 1) [], .nil, ?_, by simp⟩
      have he : ∀ g : List (List (Event F)), (∀ x ∈ g, x = []) → Each (BatchArrives tags) g (List.replicate g.length []) := by
        intro g
        induction g with
        | nil => intro _; exact .nil
        | cons x g ih =>
          intro h
          obtain rfl := h x (by simp)
          exact .cons ⟨[], [], rfl, .nil, .nil⟩ (ih fun y hy => h y (by simp [hy]))
      exact he ([] :: g) (by simpa using fun x hx => h1 x hx rfl)
    · obtain ⟨outs, outs', i1, i2, i3⟩ := late_arrives bits now tags g (fun x hx => hg x (by simp [hx])) h2
      have hF := hg b (by simp)
      obtain ⟨out, h3, h4⟩ := hF.handled now
      have : (payloadOf bits tags b).write.isEmpty = false := by
        rw [List.isEmpty_eq_false_iff]; exact fun h => hb (hF.ne h)
      refine ⟨out :: outs, out :: outs', ?_, .cons h4 i2, by simp [i3]⟩
      simp only [List.map_cons, List.takeWhile_cons, this, Bool.not_false, if_true]
      exact .cons h3 i1

private theorem hears (bits : Bits F) (now : Int) (tags : TagMap) (fuel : Nat) (failed : Bool) (g : List (List (Event F))) (hg : ∀ b ∈ g, Fits bits tags b)
    (hl : Late g) (net : List NetItem) (hn : Wire.NonEmptyReads net) (hf : (symsOf net).length < fuel) (k : Nat)
    (h : Seen failed (g.map (wireOf bits tags)) (symsOf net) k) :
    ∃ outs : List (List (Event F)), (serve bits now fuel { maxPayloadSize := maxPayload, buffer := { stream := net } }).1 = outs.flatten ∧
      Each (BatchArrives tags) (if failed && k == 0 then g.dropLast else g) outs := by
  have hw : g.map (wireOf bits tags) = (g.map fun b => (payloadOf bits tags b).write).map frame := by
    rw [List.map_map]; exact List.map_congr_left fun b hb => (hg b hb).frame
  obtain ⟨ps, h1, h2⟩ := seen_payloads h fun p hp => by
    rw [hw] at hp
    obtain ⟨q, hq, hpq⟩ := List.mem_map.1 hp
    obtain ⟨b, hb, rfl⟩ := List.mem_map.1 hq
    have := frame_inj hpq; subst this
    exact (hg b hb).size
  rw [hw] at h1
  have := frames_inj h1; subst this
  have hsub : (if failed && k == 0 then g.dropLast else g).Sublist g := by
    split
    · exact List.dropLast_sublist _
    · exact .refl _
  obtain ⟨outs, outs', h3, h4, h5⟩ := late_arrives bits now tags (if failed && k == 0 then g.dropLast else g) (fun b hb => hg b (hsub.subset hb))
    (List.Pairwise.sublist hsub hl)
  refine ⟨outs', ?_, h4⟩
  rw [← h5]
  refine serve_any bits now fuel _ _ (decode maxPayload none [] (symsOf net)).2 outs ?_ h3
  rw [C34_exact_partial maxPayload net hn fuel hf]
  refine Prod.ext ?_ rfl
  simp only [h2]
  split <;> simp [List.map_dropLast]

private theorem seen_count {failed : Bool} {ws : List Bytes} {s : List Sym} {k : Nat} (h : Seen failed ws s k) : k = 0 ∨ k = 1 ∧ failed = true ∧ ws ≠ [] := by
  cases h with
  | whole ps s e hf he => cases failed <;> cases ps <;> simp
  | cut => exact .inl rfl

private theorem takes (bits : Bits F) (now : Int) (tags : TagMap) (fuel : Nat) : ∀ (gs : List (List (List (Event F)))) (nets : List (List NetItem)) (n : Nat),
    (∀ g ∈ gs, (∀ b ∈ g, Fits bits tags b) ∧ Late g) → (∀ net ∈ nets, (symsOf net).length < fuel) → Network (gs.map (·.map (wireOf bits tags))) nets n →
    ∃ recv outs, Took gs recv n ∧ Each (BatchArrives tags) recv outs ∧ heard bits now fuel nets = outs.flatten
  | [], nets, n, _, _, h => by cases h
  | g :: gs, nets, n, hg, hf, h => by
    rw [List.map_cons] at h
    generalize hm : gs.map (·.map (wireOf bits tags)) = m at h
    cases h with
      | @last _ net hn hs =>
        rw [List.map_eq_nil_iff] at hm
        subst hm
        obtain ⟨outs, h1, h2⟩ := hears bits now tags fuel false g (hg g (by simp)).1 (hg g (by simp)).2 net hn (hf net (by simp)) 0 hs
        exact ⟨g, outs, .last, h2, by simp [heard, h1]⟩
      | @next _ net k _ nets n hn hs hr =>
        subst hm
        obtain ⟨recv, outs, i1, i2, i3⟩ := takes bits now tags fuel gs nets n (fun x hx => hg x (by simp [hx])) (fun x hx => hf x (by simp [hx])) hr
        obtain ⟨outs', h1, h2⟩ := hears bits now tags fuel true g (hg g (by simp)).1 (hg g (by simp)).2 net hn (hf net (by simp)) k hs
        have hh : heard bits now fuel (net :: nets) = (outs' ++ outs).flatten := by
          rw [heard, List.flatMap_cons, h1, List.flatten_append, ← i3, heard]
        rcases seen_count hs with rfl | ⟨rfl, -, hne⟩
        · rw [Nat.zero_add]; exact ⟨g.dropLast ++ recv, outs' ++ outs, .lost i1, each_append h2 i2, hh⟩
        · rw [Nat.add_comm]
          exact ⟨g ++ recv, outs' ++ outs, .again (by rintro rfl; exact hne rfl) i1, each_append h2 i2, hh⟩

end Reconnect
open Reconnect

/-- **C145 (at least once).**  A native sink is given batches and flushed after each, and every flush returns, after any number of failed writes and refused connections.  A native source
hears what arrives over the connections: a write that the sink takes for a success arrives whole, and of one that fails any part arrives, or none of it, or all.
Flushes with nothing to send come last (see `C55_idle_false` for why).  Then the source sends on the batches in order, each at least once and repetitions at once, and it sends on nothing else; it sends on as many batches
too many as failed writes arrived whole. -/
theorem C145_arrives (bits : Bits F) (now : Int) (s : Sink F) (hs : s.buffer = []) (htags : s.tags.Ok) (flushes : List (List (Event F) × List Bool))
    (hidle : (flushes.map (·.1)).Pairwise fun a b => a = [] → b = [])
    (hb : ∀ f ∈ flushes, (∀ e ∈ f.1, SendOk bits e) ∧ ∀ bs, FlushWrites bits s.tags f.1 bs → bs.length ≤ maxPayload + 4)
    (log : List (List (Event F) × List Act)) (hrun : runFlushes bits s flushes = some log)
    (nets : List (List NetItem)) (again : Nat) (hnet : Network (sessions (log.flatMap (·.2))) nets again)
    (fuel : Nat) (hf : ∀ net ∈ nets, (symsOf net).length < fuel) :
    ∃ received outs, Repeats (flushes.map (·.1)) received ∧ received.length = flushes.length + again ∧
      Each (BatchArrives s.tags) received outs ∧ heard bits now fuel nets = outs.flatten := by
  obtain ⟨-, gs, h1, h2⟩ := run_sess bits s.tags flushes s log hs rfl hrun
  rw [h1] at hnet
  obtain ⟨recv, outs, h3, h4, h5⟩ := takes bits now s.tags fuel gs nets again (fun g hg => ⟨fun b hbm => by
    obtain ⟨f, hfm, rfl⟩ := List.mem_map.1 ((sess_sub h2 g hg).subset hbm)
    obtain ⟨a2, a3⟩ := hb f hfm
    exact fits bits s.tags htags f.1 a2 a3, List.Pairwise.sublist (sess_sub h2 g hg) hidle⟩) hf hnet
  obtain ⟨h6, h7⟩ := took_repeats h2 recv again h3
  exact ⟨recv, outs, h6, by simpa using h7, h4, h5⟩

private theorem repeats_long {α : Type} {xs ys : List α} (h : Repeats xs ys) : xs.length ≤ ys.length ∧ (ys.length = xs.length → ys = xs) := by
  induction h with
  | nil => exact ⟨by simp, fun _ => rfl⟩
  | once _ ih =>
    refine ⟨by simpa using ih.1, fun hl => ?_⟩
    rw [ih.2 (by simpa using hl)]
  | again _ ih =>
    refine ⟨by simp only [List.length_cons] at ih ⊢; omega, fun hl => ?_⟩
    have := ih.1
    simp only [List.length_cons] at this hl
    omega

/-- **C145 (exactly once).**  If no write that fails arrives whole, the source sends on the batches in order, each once. -/
theorem C145_once (bits : Bits F) (now : Int) (s : Sink F) (hs : s.buffer = []) (htags : s.tags.Ok) (flushes : List (List (Event F) × List Bool))
    (hidle : (flushes.map (·.1)).Pairwise fun a b => a = [] → b = [])
    (hb : ∀ f ∈ flushes, (∀ e ∈ f.1, SendOk bits e) ∧ ∀ bs, FlushWrites bits s.tags f.1 bs → bs.length ≤ maxPayload + 4)
    (log : List (List (Event F) × List Act)) (hrun : runFlushes bits s flushes = some log)
    (nets : List (List NetItem)) (hnet : Network (sessions (log.flatMap (·.2))) nets 0)
    (fuel : Nat) (hf : ∀ net ∈ nets, (symsOf net).length < fuel) :
    ∃ outs, Each (BatchArrives s.tags) (flushes.map (·.1)) outs ∧ heard bits now fuel nets = outs.flatten := by
  obtain ⟨recv, outs, h1, h2, h3, h4⟩ := C145_arrives bits now s hs htags flushes hidle hb log hrun nets 0 hnet fuel hf
  have := (repeats_long h1).2 (by simpa using h2)
  subst this
  exact ⟨outs, h3, h4⟩

/-- **C145 (the sink's thread).**  What a running native sink has done is what it does when it is given the batches of its log and flushed after each. -/
theorem C145_sink (bits : Bits F) (interval : Nat) (os : Nat → List Bool) (connected : Bool) (tags : TagMap) (sources n : Nat)
    (recv : List (Option (Event F))) (h)
    (hs : (SinkRun.steps (nativeImpl bits interval os) sources n { state := some { state := { connected := connected, tags := tags } }, queue := recv }).state = some h) :
    ∃ flushes, flushes.map (·.1) = h.log.map (·.1) ∧ runFlushes bits { connected := connected, tags := tags } flushes = some h.log := by
  let P : Option (Hosted (Sink F) (List (Event F) × List Act)) → List (Event F) → Prop := fun s _ => ∀ h, s = some h →
    ∃ fl : List (List (Event F) × List Bool), fl.map (·.1) = h.log.map (·.1) ∧
      ∀ fl', runFlushes bits { connected := connected, tags := tags } (fl ++ fl') = (runFlushes bits { h.state with buffer := [] } fl').map (h.log ++ ·)
  have hf : ∀ s d, P s d → P ((nativeImpl bits interval os).flush s) d := by
    intro s d hP h he
    simp only [nativeImpl, Option.bind_eq_some_iff] at he
    obtain ⟨g, rfl, he⟩ := he
    obtain ⟨fl, h1, h2⟩ := hP g rfl
    split at he
    · rename_i s' acts hfl
      simp only [Option.some.injEq] at he
      subst he
      refine ⟨fl ++ [(g.state.buffer, os g.calls)], by simp [h1], fun fl' => ?_⟩
      have hb : s'.buffer = [] := by
        have := congrArg (fun x => x.1.buffer) hfl
        simpa [Sink.flush] using this.symm
      have hst : g.state.buffer.foldl Sink.deliver { g.state with buffer := [] } = g.state := by rw [deliver_all]; simp
      have hs' : { s' with buffer := [] } = s' := by rw [← hb]
      rw [List.append_assoc, h2, List.singleton_append, runFlushes, hst, hfl, hs', Option.map_map]
      congr 1
      funext l
      simp
    · simp at he
  have hind := SinkRun.induction (nativeImpl bits interval os) P P ?_ ?_ ?_ hf (fun s d hP _ => hf s d hP) sources n
    (some { state := { connected := connected, tags := tags } }) ?_ recv
  · have hP : P (some h) [] := by
      rw [← hs]
      cases hret : (SinkRun.steps (nativeImpl bits interval os) sources n
          { state := some { state := { connected := connected, tags := tags } }, queue := recv }).returned with
      | true => exact hind.2 hret
      | false => exact hind.1 hret
    obtain ⟨fl, h1, h2⟩ := hP h rfl
    refine ⟨fl, h1, ?_⟩
    have := h2 []
    simpa [runFlushes] using this
  · intro s d t hP _ h he
    simp only [nativeImpl, Option.map_eq_some_iff] at he
    obtain ⟨g, rfl, rfl⟩ := he
    exact hP g rfl
  · intro s d t hP _ h he
    simp only [nativeImpl, Option.map_eq_some_iff] at he
    obtain ⟨g, rfl, rfl⟩ := he
    exact hP g rfl
  · intro s d t hP _ h he
    exact hP h he
  · intro h he
    simp only [Option.some.injEq] at he
    subst he
    exact ⟨[], rfl, fun fl' => by
      show _ = (runFlushes bits { connected := connected, tags := tags } fl').map fun x => [] ++ x
      rw [List.nil_append]
      cases runFlushes bits { connected := connected, tags := tags } fl' <;> rfl⟩

open Net Topology in
open Pipeline (Through) in
/-- **C145 (from process to process).**  Any number of sources feed a node of a process, from which a single chain of filters leads to a native sink; no queue on the way has been full.
When the process has exited, the sink has written, in batches, what the filters make of what was received from the sources, which is all they sent before
the signal and perhaps some of what they sent later; and the native source at the other end, over connections that break, has sent on those batches in order, each
at least once, and nothing else. -/
theorem C145_process (c : Config) (hd : Distinct c) (p : Setup F) (hp : SetUp c p) (ls : Nat → Label F) (T t : Nat)
    (hT : ∀ t' < T, ls t' ≠ .signal) (h : (run p ls t).main = .exited) (first : Str) (fs : List Str) (n : Str) (hfun : Funnel c first fs n)
    (hn : n ∈ c.sinks) (hroom : ∀ m ∈ fs ++ [n], (run p ls t).lost m = [])
    (bits : Bits F) (interval : Nat) (os : Nat → List Bool) (connected : Bool) (tags : TagMap) (htags : tags.Ok)
    (hk : p.sink n = ⟨_, nativeImpl bits interval os, some { state := { connected := connected, tags := tags } }⟩) :
    ∃ received out m r, Through (fs.map p.filter) (received.map (·.2)) out ∧ FromSources c p ls first T t received ∧
      (run p ls t).nodes n = some (.sink ⟨_, nativeImpl bits interval os, some { state := { connected := connected, tags := tags } }⟩ m r) ∧
      ∀ k, r.state = some k → k.log.flatMap (·.1) = out.filter Event.isPointOrLine ∧
        ((∀ e ∈ k.log.flatMap (·.1), SendOk bits e) → ((k.log.map (·.1)).Pairwise fun a b => a = [] → b = []) →
          (∀ b ∈ k.log, ∀ bs, .write bs ∈ b.2 → bs.length ≤ maxPayload + 4) →
          ∀ nets again, Network (sessions (k.log.flatMap (·.2))) nets again → ∀ fuel, (∀ net ∈ nets, (symsOf net).length < fuel) → ∀ now,
            ∃ recv outs, Repeats (k.log.map (·.1)) recv ∧ recv.length = k.log.length + again ∧
              Each (BatchArrives tags) recv outs ∧ heard bits now fuel nets = outs.flatten) := by
  obtain ⟨received, out, a1, a2, a3⟩ := several_at_exit c hd p hp ls T t hT h first fs n hfun hn hroom (some interval)
    (by rw [hk]; intro st; rfl)
  rw [hk] at a3
  obtain ⟨m, r, j, recv, b1, b2, b3, b4⟩ := a3
  subst b2
  refine ⟨received, out, m, _, a1, a2, b1, fun k hkk => ?_⟩
  obtain ⟨e1, e2⟩ := C86_native bits interval os connected tags m j recv k b3 hkk
  constructor
  · have hsub : ∀ es : List (Event F), es.filter Event.isPointOrLine = (es.filter Event.isPayload).filter Event.isPointOrLine := by
      intro es
      rw [List.filter_filter]
      congr 1
      funext e
      cases e <;> rfl
    rw [e1, hsub, b4, ← hsub]
  · intro hok hidle hsize nets again hnet fuel hf now
    obtain ⟨fl, g1, g2⟩ := C145_sink bits interval os connected tags m j recv k hkk
    have hmem : ∀ f ∈ fl, ∃ b ∈ k.log, b.1 = f.1 := fun f hfm => by
      have : f.1 ∈ k.log.map (·.1) := by rw [← g1]; exact List.mem_map.2 ⟨f, hfm, rfl⟩
      exact List.mem_map.1 this
    obtain ⟨rv, outs, r1, r2, r3, r4⟩ := C145_arrives bits now { connected := connected, tags := tags } rfl htags fl (by rw [g1]; exact hidle) (fun f hfm => by
      obtain ⟨b, hb, hbf⟩ := hmem f hfm
      refine ⟨fun e he => hok e (List.mem_flatMap.2 ⟨b, hb, by rw [hbf]; exact he⟩), fun bs hbs => ?_⟩
      obtain ⟨bs', h1, h2⟩ := e2 b hb
      rw [hbf, FlushWrites] at h1
      rw [FlushWrites] at hbs
      rw [h1] at hbs
      simp only [Prod.mk.injEq, List.cons.injEq, Act.write.injEq, and_true] at hbs
      subst hbs
      exact hsize b hb bs' (List.mem_of_getLast? h2)) k.log g2 nets again hnet fuel hf
    refine ⟨rv, outs, by rw [← g1]; exact r1, ?_, r3, r4⟩
    have := congrArg List.length g1
    simp only [List.length_map] at this
    rw [r2, this]

/-! ## Examples -/

private theorem bytes_only (p : Bytes) : Plain (p.map .byte) := by
  intro x hx
  obtain ⟨b, -, rfl⟩ := List.mem_map.1 hx
  exact .inr ⟨b, rfl⟩

private theorem bytes_of (p : Bytes) : (p.map Sym.byte).filterMap Sym.byte? = p := by
  induction p with
  | nil => rfl
  | cons b p ih => rw [List.map_cons, List.filterMap_cons_some (f := Sym.byte?) (b := b) rfl, ih]

private theorem one_frame (p : Bytes) : Framed [p] (symsOf [.data (frame p)]) := by
  have := Framed.frame (ps := []) (s := []) p (p.map .byte) (bytes_of p) (bytes_only p) .done
  simpa [symsOf, NetItem.syms, Wire.frame] using this

/-- **C145 (not exactly once).**  Whatever the batch: if its first write fails although all of it arrives, the source sends it on twice. -/
theorem C145_twice_false (bits : Bits F) (now : Int) (s : Sink F) (hs : s.buffer = []) (hc : s.connected = true) (htags : s.tags.Ok) (b : List (Event F))
    (hok : ∀ e ∈ b, SendOk bits e) (hsize : ∀ bs, FlushWrites bits s.tags b bs → bs.length ≤ maxPayload + 4) :
    ∃ log bs out out', runFlushes bits s [(b, [false, true, true])] = some log ∧ Network (sessions (log.flatMap (·.2))) [[.data bs], [.data bs]] 1 ∧
      BatchArrives s.tags b out ∧ BatchArrives s.tags b out' ∧
      heard bits now (bs.length + 1) [[.data bs], [.data bs]] = out ++ out' := by
  have hF := fits bits s.tags htags b hok hsize
  have hrun : runFlushes bits s [(b, [false, true, true])] =
      some [(b, [.write (wire (payloadOf bits s.tags b)), .delay (delayMs (satSucc s.attempts)), .connect, .write (wire (payloadOf bits s.tags b))])] := by
    simp only [runFlushes, deliver_all, hs, Sink.flush, hc, flushLoop, List.nil_append, Option.map_some]
  have hne : frame (payloadOf bits s.tags b).write ≠ [] := by simp [Wire.frame, be]
  have hreads : Wire.NonEmptyReads [.data (frame (payloadOf bits s.tags b).write)] := by
    intro bs hbs
    simp only [List.mem_singleton, NetItem.data.injEq] at hbs
    rw [hbs]; exact hne
  have hnet : Network [[frame (payloadOf bits s.tags b).write], [frame (payloadOf bits s.tags b).write]]
      [[.data (frame (payloadOf bits s.tags b).write)], [.data (frame (payloadOf bits s.tags b).write)]] 1 := by
    refine .next (k := 1) (n := 0) hreads ?_ (.last hreads ?_)
    · have := Seen.whole (failed := true) _ _ [] (one_frame (payloadOf bits s.tags b).write) (.inl rfl)
      rw [List.append_nil] at this
      exact this
    · have := Seen.whole (failed := false) _ _ [] (one_frame (payloadOf bits s.tags b).write) (.inl rfl)
      rw [List.append_nil] at this
      exact this
  have hw : wire (payloadOf bits s.tags b) = frame (payloadOf bits s.tags b).write := hF.frame
  rw [hw] at hrun
  have hlen : (symsOf [.data (frame (payloadOf bits s.tags b).write)]).length < (frame (payloadOf bits s.tags b).write).length + 1 := by
    simp [symsOf, NetItem.syms]
  obtain ⟨recv, outs, h1, h2, h3, h4⟩ := C145_arrives bits now s hs htags [(b, [false, true, true])] (by simp)
    (by simpa using ⟨hok, hsize⟩) _ hrun [[.data (frame (payloadOf bits s.tags b).write)], [.data (frame (payloadOf bits s.tags b).write)]] 1 hnet
    ((frame (payloadOf bits s.tags b).write).length + 1) (by simpa using hlen)
  have hrecv : recv = [b, b] := by
    simp only [List.map_cons, List.map_nil] at h1
    cases h1 with
    | once h1 => cases h1; simp at h2
    | again h1 =>
      cases h1 with
      | once h1 => cases h1; rfl
      | again h1 =>
        have := (repeats_long h1).1
        simp only [List.length_cons, List.length_nil] at h2 this
        omega
  subst hrecv
  cases h3 with
  | @cons _ out _ _ h5 h6 =>
    cases h6 with
    | @cons _ out' _ _ h6 h7 =>
      cases h7
      exact ⟨_, frame (payloadOf bits s.tags b).write, out, out', hrun, hnet, h5, h6, by rw [h4]; simp⟩

/-- Three batches, the last of them empty, and a sink without a connection: a refused connection, a failed write of which six bytes arrive, two flushes that go well, and a failed
write that arrives whole. -/
private def troubled : List (List (Event Int) × List Bool) :=
  [(nativeBatch, [false, true, false, true, true]), (nativeBatch.take 2, [false, true, true]), ([], [true])]

private def p1 : Bytes := (payloadOf intBits nativeTags nativeBatch).write
private def p2 : Bytes := (payloadOf intBits nativeTags (nativeBatch.take 2)).write

private def nets : List (List NetItem) :=
  [[], [], [.data ((frame p1).take 6), .failed], [.data (frame p1), .wouldBlock, .data (frame p2), .failed], [.data (frame p2), .data (frame [])]]

/-- All hypotheses of `C145_arrives` together, with one failed write that arrived whole. -/
example : nativeTags.Ok ∧ ((troubled.map (·.1)).Pairwise fun a b => a = [] → b = []) ∧
    (∀ f ∈ troubled, (∀ e ∈ f.1, SendOk intBits e) ∧ ∀ bs, FlushWrites intBits nativeTags f.1 bs → bs.length ≤ maxPayload + 4) ∧
    ∃ log, runFlushes intBits { connected := false, tags := nativeTags } troubled = some log ∧
      sessions (log.flatMap (·.2)) = [[], [], [frame p1], [frame p1, frame p2], [frame p2, frame []]] ∧
      Network (sessions (log.flatMap (·.2))) nets 1 ∧ ∀ net ∈ nets, (symsOf net).length < 1000 := by
  refine ⟨by decide, by simp [troubled, nativeBatch], ?_, ?_⟩
  · have hok : ∀ e ∈ nativeBatch, SendOk intBits e := by
      intro e he
      simp only [nativeBatch, List.mem_cons, List.not_mem_nil, or_false] at he
      rcases he with rfl | rfl | rfl
      · refine ⟨?_, ⟨by decide, by decide⟩, by decide, by decide, by decide, by decide⟩
        intro m hm
        simp only [Option.some.injEq] at hm
        subst hm; decide
      · exact ⟨by simp, by decide, by decide⟩
      · exact ⟨by simp, ⟨by decide, by decide⟩, by decide, by decide, by decide, by decide⟩
    have hlen : ∀ f ∈ troubled, (wire (payloadOf intBits nativeTags f.1)).length ≤ maxPayload + 4 := by decide +kernel
    intro f hf
    refine ⟨?_, fun bs hbs => ?_⟩
    · simp only [troubled, List.mem_cons, List.not_mem_nil, or_false] at hf
      rcases hf with rfl | rfl | rfl
      · exact hok
      · exact fun e he => hok e (List.mem_of_mem_take he)
      · simp
    · simp only [FlushWrites, flush_wire, Prod.mk.injEq, List.cons.injEq, Act.write.injEq, and_true] at hbs
      subst hbs
      exact hlen f hf
  · have hrun : ∃ log, runFlushes intBits { connected := false, tags := nativeTags } troubled = some log ∧
        sessions (log.flatMap (·.2)) = [[], [], [frame p1], [frame p1, frame p2], [frame p2, frame []]] := ⟨_, rfl, by decide +kernel⟩
    obtain ⟨log, h1, h2⟩ := hrun
    refine ⟨log, h1, h2, ?_, by decide +kernel⟩
    rw [h2]
    have hplain : Seen true [] (symsOf []) 0 := Seen.whole [] [] [] .done (.inl rfl)
    have hread : ∀ net ∈ nets, Wire.NonEmptyReads net := by
      have : ∀ net ∈ nets, net.all (fun | .data bs => !bs.isEmpty | _ => true) = true := by decide +kernel
      intro net hnet bs hbs
      have := List.all_eq_true.1 (this net hnet) _ hbs
      simpa using this
    refine .next (k := 0) (n := 1) (hread _ (by decide +kernel)) hplain (.next (k := 0) (n := 1) (hread _ (by decide +kernel)) hplain
      (.next (k := 0) (n := 1) (hread _ (by decide +kernel)) ?_ (.next (k := 1) (n := 0) (hread _ (by decide +kernel)) ?_ (.last (hread _ (by decide +kernel)) ?_))))
    · have := Seen.cut (failed := true) [] p1 [] ((be 4 p1.length).map .byte ++ (p1.take 2).map .byte) [.failed] rfl .done
        (.payload _ (bytes_only _) (by rw [bytes_of]; exact List.take_prefix _ _) (by decide +kernel)) (.inr rfl)
      rw [show symsOf [.data ((frame p1).take 6), .failed] = [] ++ ((be 4 p1.length).map .byte ++ (p1.take 2).map .byte) ++ [.failed] by decide +kernel]
      exact this
    · have := Seen.whole (failed := true) [p1, p2] ((be 4 p1.length).map .byte ++ p1.map .byte ++ (.block :: ((be 4 p2.length).map .byte ++ p2.map .byte ++ []))) [.failed]
        (.frame p1 _ (bytes_of _) (bytes_only _) (.block (.frame p2 _ (bytes_of _) (bytes_only _) .done))) (.inr rfl)
      rw [show symsOf [.data (frame p1), .wouldBlock, .data (frame p2), .failed] = ((be 4 p1.length).map .byte ++ p1.map .byte ++
        (.block :: ((be 4 p2.length).map .byte ++ p2.map .byte ++ []))) ++ [.failed] by decide +kernel]
      exact this
    · have := Seen.whole (failed := false) [p2, []] ((be 4 p2.length).map .byte ++ p2.map .byte ++ ((be 4 0).map .byte ++ [] ++ [])) []
        (.frame p2 _ (bytes_of _) (bytes_only _) (.frame [] [] rfl (by simp) .done)) (.inl rfl)
      rw [show symsOf [.data (frame p2), .data (frame [])] = ((be 4 p2.length).map .byte ++ p2.map .byte ++ ((be 4 0).map .byte ++ [] ++ [])) ++ [] by decide +kernel]
      exact this

end Verif
