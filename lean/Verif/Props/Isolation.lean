import Verif.Spec.Isolation
import Verif.Props.NetLog
/-!
# C140: a component depends on what is upstream of it and on nothing else
-/
namespace Verif
open Net
open Topology (Config Forwards Distinct)
section
variable {F : Type} [F64 F]

/-- `main` before it joins. -/
private def early : Main → Option (Option (List Nat))
  | .waiting => some none
  | .stopping todo => some (some todo)
  | _ => none

/-- Two states alike in a part. -/
private structure Same (U : Str → Bool) (s s' : State F) : Prop where
  nodes : ∀ n, U n = true → (s.nodes n).map (Node.within U) = (s'.nodes n).map (Node.within U)
  log : ∀ n, U n = true → s.log n = s'.log n
  lost : ∀ n, U n = true → s.lost n = s'.lost n
  signalled : s.signalled = s'.signalled
  told : s.told = s'.told
  ended : s.ended = s'.ended
  main : early s.main = early s'.main

private theorem Same.refl (U : Str → Bool) (s : State F) : Same U s s := ⟨fun _ _ => rfl, fun _ _ => rfl, fun _ _ => rfl, rfl, rfl, rfl, rfl⟩

private theorem Same.trans {U : Str → Bool} {a b c : State F} (h : Same U a b) (g : Same U b c) : Same U a c :=
  ⟨fun n hn => (h.nodes n hn).trans (g.nodes n hn), fun n hn => (h.log n hn).trans (g.log n hn), fun n hn => (h.lost n hn).trans (g.lost n hn),
   h.signalled.trans g.signalled, h.told.trans g.told, h.ended.trans g.ended, h.main.trans g.main⟩

private theorem within_push {U : Str → Bool} (e : Event F) (nd nd' : Node F) (h : nd.within U = nd'.within U) :
    (nd.push e).within U = (nd'.push e).within U := by
  have key : ∀ n : Node F, (n.push e).within U = (n.within U).push e := by intro n; cases n <;> rfl
  rw [key, key, h]

/-- a send outside is not seen -/
private theorem accept_out {U : Str → Bool} (p : Setup F) (s : State F) (x : Sender) (n : Str) (e : Event F) (hn : U n = false) :
    Same U (s.accept p x n e) s := by
  have hne : ∀ m, U m = true → m ≠ n := by rintro m hm rfl; rw [hn] at hm; simp at hm
  simp only [State.accept]
  cases h : s.nodes n with
  | none => exact .refl U s
  | some nd =>
    simp only
    split
    · exact ⟨fun _ _ => rfl, fun _ _ => rfl, fun m hm => by simp [put, hne m hm], rfl, rfl, rfl, rfl⟩
    · exact ⟨fun m hm => by simp [put, hne m hm], fun m hm => by simp [put, hne m hm], fun _ _ => rfl, rfl, rfl, rfl, rfl⟩

private theorem accept_in {U : Str → Bool} {p p' : Setup F} (hfull : ∀ n, U n = true → ∀ k, p.full n k = p'.full n k) {s s' : State F} (h : Same U s s')
    (x : Sender) (n : Str) (e : Event F) (hn : U n = true) : Same U (s.accept p x n e) (s'.accept p' x n e) := by
  have hnode := h.nodes n hn
  simp only [State.accept]
  cases h1 : s.nodes n with
  | none =>
    cases h2 : s'.nodes n with
    | none => exact h
    | some nd' => rw [h1, h2] at hnode; simp at hnode
  | some nd =>
    cases h2 : s'.nodes n with
    | none => rw [h1, h2] at hnode; simp at hnode
    | some nd' =>
      rw [h1, h2] at hnode
      simp only [Option.map_some, Option.some.injEq] at hnode
      have htries : s.tries n = s'.tries n := by simp only [State.tries, h.log n hn, h.lost n hn]
      simp only [htries, hfull n hn]
      split
      · refine ⟨h.nodes, h.log, fun m hm => ?_, h.signalled, h.told, h.ended, h.main⟩
        by_cases hmn : m = n
        · subst hmn; simp [put, h.lost m hm]
        · simp [put, hmn, h.lost m hm]
      · refine ⟨fun m hm => ?_, fun m hm => ?_, h.lost, h.signalled, h.told, h.ended, h.main⟩
        · by_cases hmn : m = n
          · subst hmn; simp only [put, if_true, Option.map_some, within_push e nd nd' hnode]
          · simp [put, hmn, h.nodes m hm]
        · by_cases hmn : m = n
          · subst hmn; simp [put, h.log m hm]
          · simp [put, hmn, h.log m hm]

private theorem send_left {U : Str → Bool} (p : Setup F) (x : Sender) (e : Event F) (chans : List Str) : ∀ {s s' : State F}, Same U s s' →
    Same U (s.send p x chans e) (s'.send p x (chans.filter U) e) := by
  induction chans with
  | nil => intro s s' h; exact h
  | cons c chans ih =>
    intro s s' h
    simp only [State.send, List.foldl_cons] at ih ⊢
    by_cases hc : U c = true
    · simp only [List.filter_cons, hc, if_true, List.foldl_cons]
      exact ih (accept_in (fun _ _ _ => rfl) h x c e hc)
    · simp only [List.filter_cons, hc, Bool.false_eq_true, if_false]
      exact ih ((accept_out p s x c e (by simpa using hc)).trans h)

private theorem Same.symm {U : Str → Bool} {a b : State F} (h : Same U a b) : Same U b a :=
  ⟨fun n hn => (h.nodes n hn).symm, fun n hn => (h.log n hn).symm, fun n hn => (h.lost n hn).symm, h.signalled.symm, h.told.symm, h.ended.symm, h.main.symm⟩

private theorem send_in {U : Str → Bool} {p p' : Setup F} (hfull : ∀ n, U n = true → ∀ k, p.full n k = p'.full n k) (x : Sender) (e : Event F)
    (chans : List Str) : (∀ c ∈ chans, U c = true) → ∀ {s s' : State F}, Same U s s' → Same U (s.send p x chans e) (s'.send p' x chans e) := by
  induction chans with
  | nil => intro _ s s' h; exact h
  | cons c chans ih =>
    intro hc s s' h
    simp only [State.send, List.foldl_cons] at ih ⊢
    exact ih (fun c hc' => hc c (by simp [hc'])) (accept_in hfull h x c e (hc c (by simp)))

private theorem send_same {U : Str → Bool} {p p' : Setup F} (hfull : ∀ n, U n = true → ∀ k, p.full n k = p'.full n k) (x : Sender) (e : Event F)
    {chans chans' : List Str} (hch : chans.filter U = chans'.filter U) {s s' : State F} (h : Same U s s') :
    Same U (s.send p x chans e) (s'.send p' x chans' e) := by
  have h1 : Same U (s.send p x chans e) (s.send p x (chans.filter U) e) := send_left p x e chans (.refl U s)
  have h2 : Same U (s'.send p' x chans' e) (s'.send p' x (chans'.filter U) e) := send_left p' x e chans' (.refl U s')
  rw [← hch] at h2
  exact h1.trans ((send_in hfull x e _ (fun c hc => (List.mem_filter.1 hc).2) h).trans h2.symm)

private theorem sendAll_same {U : Str → Bool} {p p' : Setup F} (hfull : ∀ n, U n = true → ∀ k, p.full n k = p'.full n k) (x : Sender)
    {chans chans' : List Str} (hch : chans.filter U = chans'.filter U) (es : List (Event F)) : ∀ {s s' : State F}, Same U s s' →
    Same U (s.sendAll p x chans es) (s'.sendAll p' x chans' es) := by
  induction es with
  | nil => intro s s' h; exact h
  | cons e es ih =>
    intro s s' h
    simp only [State.sendAll, List.foldl_cons] at ih ⊢
    exact ih (send_same hfull x e hch h)

/-- nothing into the part: nothing seen -/
private theorem send_out {U : Str → Bool} (p : Setup F) (x : Sender) (e : Event F) (chans : List Str) (hch : chans.filter U = []) (s : State F) :
    Same U (s.send p x chans e) s := by
  have := send_left (U := U) p x e chans (.refl U s)
  rw [hch] at this
  exact this

private theorem sendAll_out {U : Str → Bool} (p : Setup F) (x : Sender) (chans : List Str) (hch : chans.filter U = []) (es : List (Event F)) :
    ∀ s : State F, Same U (s.sendAll p x chans es) s := by
  induction es with
  | nil => intro s; exact .refl U s
  | cons e es ih =>
    intro s
    simp only [State.sendAll, List.foldl_cons] at ih ⊢
    exact (ih _).trans (send_out p x e chans hch s)

private theorem within_act {U : Str → Bool} (now : Int) (nd nd' : Node F) (h : nd.within U = nd'.within U) :
    (nd.act now).1.within U = (nd'.act now).1.within U ∧ (nd.act now).2 = (nd'.act now).2 ∧ nd.channels.filter U = nd'.channels.filter U := by
  have key : ∀ n : Node F, ((n.within U).act now).1.within U = (n.act now).1.within U ∧ ((n.within U).act now).2 = (n.act now).2 ∧
      (n.within U).channels.filter U = n.channels.filter U := by
    intro n
    cases n with
    | filter f k ch q r =>
      refine ⟨?_, ?_, by simp [Node.within, Node.channels]⟩
      · simp only [Node.within, Node.act]
        cases q with
        | nil => simp [Node.within]
        | cons e q => by_cases hfin : r.finished = true <;> simp [hfin]
      · simp only [Node.within, Node.act]
        cases q with
        | nil => rfl
        | cons e q => by_cases hfin : r.finished = true <;> simp [hfin]
    | sink k n r => exact ⟨rfl, rfl, rfl⟩
  obtain ⟨a1, a2, a3⟩ := key nd
  obtain ⟨b1, b2, b3⟩ := key nd'
  rw [h] at a1 a2 a3
  exact ⟨a1.symm.trans b1, a2.symm.trans b2, a3.symm.trans b3⟩

/-- the channels of every node outside lead outside -/
private def Shut (U : Str → Bool) (s : State F) : Prop := ∀ n nd, s.nodes n = some nd → U n = false → nd.channels.filter U = []

private theorem channels_push (e : Event F) (nd : Node F) : (nd.push e).channels = nd.channels := by cases nd <;> rfl

private theorem channels_act (now : Int) (nd : Node F) : (nd.act now).1.channels = nd.channels := by
  cases nd with
  | filter f k ch q r =>
    cases q with
    | nil => rfl
    | cons e q => by_cases hfin : r.finished = true <;> simp [Node.act, hfin, Node.channels]
  | sink k n r => rfl

private theorem Shut.accept {U : Str → Bool} {s : State F} (h : Shut U s) (p : Setup F) (x : Sender) (n : Str) (e : Event F) : Shut U (s.accept p x n e) := by
  simp only [State.accept]
  cases hn : s.nodes n with
  | none => exact h
  | some nd =>
    simp only
    split
    · exact h
    · intro m nd' hm hu
      by_cases hmn : m = n
      · subst hmn
        simp only [put, if_true, Option.some.injEq] at hm
        subst hm
        rw [channels_push]
        exact h m nd hn hu
      · simp only [put, hmn, if_false] at hm
        exact h m nd' hm hu

private theorem Shut.send {U : Str → Bool} (p : Setup F) (x : Sender) (e : Event F) (chans : List Str) : ∀ {s : State F}, Shut U s →
    Shut U (s.send p x chans e) := by
  induction chans with
  | nil => intro s h; exact h
  | cons c chans ih => intro s h; simp only [State.send, List.foldl_cons] at ih ⊢; exact ih (h.accept p x c e)

private theorem Shut.sendAll {U : Str → Bool} (p : Setup F) (x : Sender) (chans : List Str) (es : List (Event F)) : ∀ {s : State F}, Shut U s →
    Shut U (s.sendAll p x chans es) := by
  induction es with
  | nil => intro s h; exact h
  | cons e es ih => intro s h; simp only [State.sendAll, List.foldl_cons] at ih ⊢; exact ih (Shut.send p x e chans h)

private theorem Shut.step {U : Str → Bool} {s : State F} (h : Shut U s) (p : Setup F) (l : Label F) : Shut U (step p s l) := by
  cases l with
  | act n now =>
    simp only [Net.step]
    cases hn : s.nodes n with
    | none => exact h
    | some nd =>
      refine Shut.sendAll p _ _ _ ?_
      intro m nd' hm hu
      by_cases hmn : m = n
      · subst hmn
        simp only [put, if_true, Option.some.injEq] at hm
        subst hm
        rw [channels_act]
        exact h m nd hn hu
      · simp only [put, hmn, if_false] at hm
        exact h m nd' hm hu
  | emit i e =>
    simp only [Net.step]
    split
    · exact h
    · split
      · exact Shut.send p _ _ _ h
      · exact h
  | pulse idx => exact Shut.send p _ _ _ h
  | stop i =>
    simp only [Net.step]
    split
    · exact h
    · split
      · exact Shut.send p _ _ _ h
      · exact h
  | signal => exact h
  | main =>
    simp only [Net.step, State.mainStep]
    repeat' split
    all_goals exact h

private theorem shut_initial {U : Str → Bool} (p : Setup F) (hcl : Closed U p.wiring) : Shut U (initial p) := by
  intro n nd hn hu
  simp only [initial] at hn
  cases hf : p.wiring.filters.find? (·.1 == n) with
  | some x =>
    obtain ⟨f, ups, downs⟩ := x
    rw [hf] at hn
    simp only [Option.some.injEq] at hn
    subst hn
    have hmem := List.mem_of_find?_eq_some hf
    have hname := List.find?_some hf
    simp only [beq_iff_eq] at hname
    subst hname
    simp only [Node.channels]
    rw [List.filter_eq_nil_iff]
    intro m hm
    simp [hcl f ups downs hmem hu m hm]
  | none =>
    rw [hf] at hn
    simp only at hn
    cases hs : p.wiring.sinks.find? (·.1 == n) with
    | some x => rw [hs] at hn; simp only [Option.some.injEq] at hn; subst hn; rfl
    | none => rw [hs] at hn; simp at hn

private theorem same_initial {U : Str → Bool} {p p' : Setup F} (h : Alike U p p') : Same U (initial p) (initial p') := by
  refine ⟨fun n hn => ?_, fun _ _ => rfl, fun _ _ => rfl, rfl, rfl, rfl, rfl⟩
  have hf := h.filters n hn
  have hs := h.sinks n hn
  obtain ⟨c1, c2⟩ := h.code n hn
  simp only [initial]
  cases f1 : p.wiring.filters.find? (·.1 == n) with
  | some x =>
    cases f2 : p'.wiring.filters.find? (·.1 == n) with
    | none => rw [f1, f2] at hf; simp at hf
    | some x' =>
      rw [f1, f2] at hf
      simp only [Option.map_some, Option.some.injEq, Prod.mk.injEq] at hf
      simp only [Option.map_some, Node.within, hf.1, hf.2]
      rw [c1]
  | none =>
    cases f2 : p'.wiring.filters.find? (·.1 == n) with
    | some x' => rw [f1, f2] at hf; simp at hf
    | none =>
      simp only
      cases s1 : p.wiring.sinks.find? (·.1 == n) with
      | some x =>
        cases s2 : p'.wiring.sinks.find? (·.1 == n) with
        | none => rw [s1, s2] at hs; simp at hs
        | some x' =>
          rw [s1, s2] at hs
          simp only [Option.map_some, Option.some.injEq] at hs
          simp only [Option.map_some, Node.within, hs]
          rw [c2]
      | none =>
        cases s2 : p'.wiring.sinks.find? (·.1 == n) with
        | some x' => rw [s1, s2] at hs; simp at hs
        | none => rfl

private theorem main_same {U : Str → Bool} {p p' : Setup F} (hstop : p.stopOrder = p'.stopOrder) {s s' : State F} (h : Same U s s') :
    Same U (s.mainStep p) (s'.mainStep p') := by
  have hm := h.main
  have late : ∀ (p : Setup F) (s : State F), early s.main = none → Same U (s.mainStep p) s := by
    intro p s hs
    simp only [State.mainStep]
    cases hms : s.main with
    | waiting => rw [hms] at hs; simp [early] at hs
    | stopping todo => rw [hms] at hs; simp [early] at hs
    | exited => exact .refl U s
    | joining todo =>
      cases todo with
      | nil => exact ⟨fun _ _ => rfl, fun _ _ => rfl, fun _ _ => rfl, rfl, rfl, rfl, by rw [hms]; rfl⟩
      | cons n ns =>
        simp only
        split
        · split
          · exact ⟨fun _ _ => rfl, fun _ _ => rfl, fun _ _ => rfl, rfl, rfl, rfl, by rw [hms]; rfl⟩
          · exact .refl U s
        · exact ⟨fun _ _ => rfl, fun _ _ => rfl, fun _ _ => rfl, rfl, rfl, rfl, by rw [hms]; rfl⟩
  cases hms : s.main with
  | waiting =>
    have hms' : s'.main = .waiting := by
      rw [hms] at hm
      cases hc : s'.main <;> rw [hc] at hm <;> simp [early] at hm
    simp only [State.mainStep, hms, hms', h.signalled]
    split
    · exact ⟨h.nodes, h.log, h.lost, rfl, h.told, h.ended, by simp only [early, hstop]⟩
    · exact h
  | stopping todo =>
    have hms' : s'.main = .stopping todo := by
      rw [hms] at hm
      cases hc : s'.main <;> rw [hc] at hm <;> simp [early] at hm
      rw [hm]
    cases todo with
    | nil =>
      simp only [State.mainStep, hms, hms']
      exact ⟨h.nodes, h.log, h.lost, h.signalled, h.told, h.ended, rfl⟩
    | cons i is =>
      simp only [State.mainStep, hms, hms', h.told, h.ended]
      split
      · split
        · exact ⟨h.nodes, h.log, h.lost, h.signalled, rfl, rfl, rfl⟩
        · exact h
      · exact ⟨h.nodes, h.log, h.lost, h.signalled, rfl, rfl, rfl⟩
  | joining todo =>
    have e1 : early s.main = none := by rw [hms]; rfl
    exact (late p s e1).trans (h.trans (late p' s' (by rw [← hm, e1])).symm)
  | exited =>
    have e1 : early s.main = none := by rw [hms]; rfl
    exact (late p s e1).trans (h.trans (late p' s' (by rw [← hm, e1])).symm)

/-- a step that concerns the part, in both -/
private theorem step_same {U : Str → Bool} {p p' : Setup F} (ha : Alike U p p') {s s' : State F} (h : Same U s s') (l : Label F)
    (hl : ∀ n now, l = .act n now → U n = true) : Same U (step p s l) (step p' s' l) := by
  have hsrc : ∀ i : Nat, (p.wiring.sources[i]?).map (·.2.filter U) = (p'.wiring.sources[i]?).map (·.2.filter U) := by
    intro i
    have := congrArg (·[i]?) ha.sources
    simpa [List.getElem?_map] using this
  cases l with
  | act n now =>
    have hn := hl n now rfl
    have hnode := h.nodes n hn
    simp only [Net.step]
    cases h1 : s.nodes n with
    | none =>
      cases h2 : s'.nodes n with
      | none => exact h
      | some nd' => rw [h1, h2] at hnode; simp at hnode
    | some nd =>
      cases h2 : s'.nodes n with
      | none => rw [h1, h2] at hnode; simp at hnode
      | some nd' =>
        rw [h1, h2] at hnode
        simp only [Option.map_some, Option.some.injEq] at hnode
        obtain ⟨a1, a2, a3⟩ := within_act now nd nd' hnode
        simp only [a2]
        refine sendAll_same ha.full _ a3 _ ⟨fun m hm => ?_, h.log, h.lost, h.signalled, h.told, h.ended, h.main⟩
        by_cases hmn : m = n
        · subst hmn; simp only [put, if_true, Option.map_some, a1]
        · simp only [put, hmn, if_false, h.nodes m hm]
  | emit i e =>
    have hi := hsrc i
    simp only [Net.step]
    cases h1 : p.wiring.sources[i]? with
    | none =>
      cases h2 : p'.wiring.sources[i]? with
      | none => exact h
      | some x => rw [h1, h2] at hi; simp at hi
    | some x =>
      cases h2 : p'.wiring.sources[i]? with
      | none => rw [h1, h2] at hi; simp at hi
      | some x' =>
        rw [h1, h2] at hi
        simp only [Option.map_some, Option.some.injEq] at hi
        simp only [h.ended]
        split
        · exact send_same ha.full _ e hi h
        · exact h
  | pulse idx => exact send_same ha.full _ _ ha.timer h
  | stop i =>
    have hi := hsrc i
    simp only [Net.step]
    cases h1 : p.wiring.sources[i]? with
    | none =>
      cases h2 : p'.wiring.sources[i]? with
      | none => exact h
      | some x => rw [h1, h2] at hi; simp at hi
    | some x =>
      cases h2 : p'.wiring.sources[i]? with
      | none => rw [h1, h2] at hi; simp at hi
      | some x' =>
        rw [h1, h2] at hi
        simp only [Option.map_some, Option.some.injEq] at hi
        simp only [h.told, h.ended]
        split
        · have := send_same ha.full (.source i) .shutdown hi h
          exact ⟨this.nodes, this.log, this.lost, this.signalled, this.told, by simp only [h.ended], this.main⟩
        · exact h
  | signal => exact ⟨h.nodes, h.log, h.lost, rfl, h.told, h.ended, h.main⟩
  | main => exact main_same ha.stopOrder h

/-- a step that does not concern the part -/
private theorem step_out {U : Str → Bool} {p : Setup F} {s : State F} (hs : Shut U s) (l : Label F) (hl : concerns U p.wiring l = false) :
    Same U (step p s l) s := by
  cases l with
  | act n now =>
    simp only [concerns] at hl
    have hne : ∀ m, U m = true → m ≠ n := by rintro m hm rfl; rw [hl] at hm; simp at hm
    simp only [Net.step]
    cases h1 : s.nodes n with
    | none => exact .refl U s
    | some nd =>
      refine (sendAll_out p _ _ (hs n nd h1 hl) _ _).trans ?_
      exact ⟨fun m hm => by simp [put, hne m hm], fun _ _ => rfl, fun _ _ => rfl, rfl, rfl, rfl, rfl⟩
  | emit i e =>
    simp only [concerns] at hl
    simp only [Net.step]
    cases h1 : p.wiring.sources[i]? with
    | none => exact .refl U s
    | some x =>
      obtain ⟨nm, chans⟩ := x
      rw [h1] at hl
      simp only at hl ⊢
      split
      · refine send_out p _ e chans ?_ s
        rw [List.filter_eq_nil_iff]
        intro c hc hu
        rw [List.any_eq_false] at hl
        exact hl c hc hu
      · exact .refl U s
  | pulse idx => simp [concerns] at hl
  | stop i => simp [concerns] at hl
  | signal => simp [concerns] at hl
  | main => simp [concerns] at hl

private theorem after_purged {U : Str → Bool} {p p' : Setup F} (hcl : Closed U p.wiring) (ha : Alike U p p') (ls : List (Label F)) :
    ∀ {s s' : State F}, Shut U s → Same U s s' → Same U (ls.foldl (step p) s) ((ls.filter (concerns U p.wiring)).foldl (step p') s') := by
  induction ls with
  | nil => intro s s' _ h; exact h
  | cons l ls ih =>
    intro s s' hs h
    simp only [List.foldl_cons]
    by_cases hl : concerns U p.wiring l = true
    · simp only [List.filter_cons, hl, if_true, List.foldl_cons]
      refine ih (hs.step p l) (step_same ha h l ?_)
      rintro n now rfl
      exact hl
    · have hl' : concerns U p.wiring l = false := by simpa using hl
      simp only [List.filter_cons, hl, Bool.false_eq_true, if_false]
      exact ih (hs.step p l) ((step_out hs l hl').trans h)

/-- **C140** (isolation) Two processes that are alike in a part to which nothing else sends, and two runs of them that take the same steps concerning the
part, in the same order: the nodes of the part are the same in the end, up to their channels out of it — what they hold, what they have sent and written
and what is in their queues —, their queues have accepted and dropped the same, and the same sources have been told to stop and have ended.  It makes no
difference what the other components are, what they do, how often they get their turn, and whether their queues are full. -/
theorem C140_isolation (U : Str → Bool) (p p' : Setup F) (hcl : Closed U p.wiring) (hcl' : Closed U p'.wiring) (ha : Alike U p p')
    (ls ls' : List (Label F)) (hls : ls.filter (concerns U p.wiring) = ls'.filter (concerns U p'.wiring)) :
    (∀ n, U n = true → ((after p ls).nodes n).map (Node.within U) = ((after p' ls').nodes n).map (Node.within U) ∧
      (after p ls).log n = (after p' ls').log n ∧ (after p ls).lost n = (after p' ls').lost n) ∧
    (after p ls).told = (after p' ls').told ∧ (after p ls).ended = (after p' ls').ended := by
  have h1 : Same U (after p ls) ((ls.filter (concerns U p.wiring)).foldl (step p') (initial p')) :=
    after_purged hcl ha ls (shut_initial p hcl) (same_initial ha)
  have h2 : Same U (after p' ls') ((ls'.filter (concerns U p'.wiring)).foldl (step p') (initial p')) :=
    after_purged hcl' ⟨fun _ _ => rfl, fun _ _ => rfl, fun _ _ => ⟨rfl, rfl⟩, rfl, rfl, rfl, fun _ _ _ => rfl⟩ ls' (shut_initial p' hcl') (.refl U _)
  rw [hls] at h1
  have h := h1.trans h2.symm
  exact ⟨fun n hn => ⟨h.nodes n hn, h.log n hn, h.lost n hn⟩, h.told, h.ended⟩

open Classical in
/-- What is upstream of a node, and the node. -/
private noncomputable def upstreamOf (c : Config) (n : Str) : Str → Bool := fun m => decide (Upstream c n m)

open Classical in
/-- **C140** (upstream) For a configuration with distinct names and any node: if the components upstream of it have the same code in two processes and their
queues are full at the same sends, and two runs take the same steps of these components, of the sources that send to them, of the timer and of `main`, then
the node is the same in the end, with all it holds and has done, and its queue has accepted and dropped the same.  The code and the pace of all other
components, and the state of their queues, make no difference. -/
theorem C140_upstream (c : Config) (hd : Distinct c) (p p' : Setup F) (hp : SetUp c p) (hp' : SetUp c p') (hstop : p.stopOrder = p'.stopOrder) (n : Str)
    (hcode : ∀ m, Upstream c n m → p.filter m = p'.filter m ∧ p.sink m = p'.sink m ∧ ∀ k, p.full m k = p'.full m k)
    (ls ls' : List (Label F))
    (hls : ls.filter (concerns (fun m => decide (Upstream c n m)) p.wiring) = ls'.filter (concerns (fun m => decide (Upstream c n m)) p.wiring)) :
    (∀ k u r, (after p ls).nodes n = some (.sink k u r) ↔ (after p' ls').nodes n = some (.sink k u r)) ∧
    (after p ls).log n = (after p' ls').log n ∧ (after p ls).lost n = (after p' ls').lost n := by
  have hw : p.wiring = p'.wiring := by
    have := hp.wired.symm.trans hp'.wired
    simpa using this
  have hcl : Closed (upstreamOf c n) p.wiring := by
    intro f ups downs hf hu m hm
    obtain ⟨-, -, -, -, h5, -⟩ := C57_mutual c hd p.wiring hp.wired
    have hfw := ((h5 f ups downs hf).2.2 m).1 hm
    simp only [upstreamOf, decide_eq_false_iff_not] at hu ⊢
    exact fun hup => hu (.step f m hfw hup)
  have ha : Alike (upstreamOf c n) p p' :=
    ⟨fun _ _ => by rw [hw], fun _ _ => by rw [hw], fun m hm => ⟨(hcode m (of_decide_eq_true hm)).1, (hcode m (of_decide_eq_true hm)).2.1⟩, by rw [hw],
     by rw [hw], hstop, fun m hm => (hcode m (of_decide_eq_true hm)).2.2⟩
  obtain ⟨h, -⟩ := C140_isolation (upstreamOf c n) p p' hcl (hw ▸ hcl) ha ls ls' (by rw [← hw]; exact hls)
  obtain ⟨h1, h2, h3⟩ := h n (by simp only [upstreamOf, decide_eq_true_eq]; exact .here)
  refine ⟨fun k u r => ?_, h2, h3⟩
  have key : ∀ s : State F, s.nodes n = some (.sink k u r) ↔ (s.nodes n).map (Node.within (upstreamOf c n)) = some (.sink k u r) := by
    intro s
    cases s.nodes n with
    | none => simp
    | some nd => cases nd <;> simp [Node.within]
  rw [key, key, h1]

end
/-- A source for two sinks, and another for the second of them. -/
private def shared : Config := ⟨[['k'], ['j']], [], [], [(['a'], [['k'], ['j']]), (['b'], [['j']])]⟩

private def sharedSetup (other : SinkCode Int) (full : Bool) : Setup Int where
  wiring := ⟨[(['k'], [['a']]), (['j'], [['a'], ['b']])], [], [(['a'], [['k'], ['j']]), (['b'], [['j']])], [['k'], ['j']]⟩
  filter _ := ⟨_, delayProcess, 10⟩
  sink n := if n = ['j'] then other else ⟨Unit, nullImpl, ()⟩
  stopOrder := [0, 1]
  joinOrder := [['k'], ['j']]
  full n _ := full && n == ['j']

/-- The second sink gets its turn, and the second source sends to it. -/
private def lively : List (Label Int) :=
  [.emit 0 (.log (.new 0 ['p'] ['v'])), .act ['j'] 0, .emit 1 (.log (.new 0 ['p'] ['w'])), .act ['k'] 0, .act ['j'] 0, .pulse 0, .act ['k'] 0]

/-- It does not. -/
private def stuck : List (Label Int) := [.emit 0 (.log (.new 0 ['p'] ['v'])), .act ['k'] 0, .pulse 0, .act ['k'] 0]

example : Distinct shared ∧ Topology.wire shared = .ok (sharedSetup ⟨Unit, nullImpl, ()⟩ false).wiring := ⟨by decide, rfl⟩
private theorem shared_setUp (other : SinkCode Int) (full : Bool) : SetUp shared (sharedSetup other full) := by
  refine ⟨rfl, ?_, ?_, by intro n hn; cases hn⟩
  · show [0, 1].Perm ((handles (sharedSetup ⟨Unit, nullImpl, ()⟩ false).wiring).map (·.2))
    decide
  · exact List.Perm.refl _

/-- Whatever the second sink is, whether its queue is full and whether it ever moves: the first has been given the same. -/
example (other other' : SinkCode Int) (full full' : Bool) :
    (∀ k u r, (after (sharedSetup other full) lively).nodes ['k'] = some (.sink k u r) ↔ (after (sharedSetup other' full') stuck).nodes ['k'] = some (.sink k u r)) ∧
    (after (sharedSetup other full) lively).log ['k'] = (after (sharedSetup other' full') stuck).log ['k'] := by
  have up : ∀ m, m ∈ [['k'], ['j']] → (Upstream shared ['k'] m ↔ m = ['k']) := by
    intro m hm
    refine ⟨fun h => ?_, fun h => h ▸ .here⟩
    cases h with
    | here => rfl
    | step m x hf hx =>
      obtain ⟨fs, h1, h2⟩ := hf
      simp only [shared, List.nil_append, List.mem_cons, Prod.mk.injEq, List.not_mem_nil, or_false] at h1 hm
      rcases h1 with ⟨rfl, -⟩ | ⟨rfl, -⟩ <;> simp at hm
  have := C140_upstream shared (by decide) (sharedSetup other full) (sharedSetup other' full') (shared_setUp _ _)
    (shared_setUp _ _) rfl ['k'] (fun m hm => by
      have hj : m ≠ ['j'] := by
        rintro rfl
        exact absurd ((up ['j'] (by simp)).1 hm) (by decide)
      have hb : (m == ['j']) = false := by simpa using hj
      refine ⟨rfl, ?_, ?_⟩ <;> simp [sharedSetup, hj, hb]) lively stuck ?_
  · exact ⟨this.1, this.2.1⟩
  · have hk : Upstream shared ['k'] ['k'] := .here
    have hj : ¬ Upstream shared ['k'] ['j'] := fun h => absurd ((up ['j'] (by simp)).1 h) (by decide)
    simp [lively, stuck, concerns, sharedSetup, hk, hj]

end Verif
