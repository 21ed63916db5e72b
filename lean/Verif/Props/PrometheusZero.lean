import Verif.Props.Prometheus
/-!
# C74: exactly when the Prometheus sink panics
-/
namespace Verif
open Prometheus
section
variable {F : Type} [F64 F]

/-- The history goes on with a summary point of this name and second, before any other summary point of the name, and every flush
before it happens in that very second. -/
def Again (name : Str) (ts : Int) (ops : List (Op F)) : Prop :=
  ∃ mid u post, ops = mid ++ .insert u :: post ∧ u.name = name ∧ u.kind = .summarize ∧ u.timestamp = ts ∧
    (∀ x, Op.insert x ∈ mid → x.name = name → x.kind ≠ .summarize) ∧ ∀ now, Op.purge now ∈ mid → now = ts

/-- The first point of some name is a summary point, and the next summary point of the name has the same time; no flush in between
happens in another second. -/
def Clash (ops : List (Op F)) : Prop :=
  ∃ pre t rest, ops = pre ++ .insert t :: rest ∧ pointsOf t.name pre = [] ∧ t.kind = .summarize ∧ Again t.name t.timestamp rest

private theorem again_nil (name : Str) (ts : Int) : ¬ Again name ts ([] : List (Op F)) := by
  rintro ⟨mid, u, post, h, _⟩
  simp at h

private theorem again_insert (name : Str) (ts : Int) (t : Telemetry F) (ops : List (Op F)) :
    Again name ts (.insert t :: ops) ↔
      if t.name = name ∧ t.kind = .summarize then t.timestamp = ts else Again name ts ops := by
  by_cases h : t.name = name ∧ t.kind = .summarize
  · rw [if_pos h]
    constructor
    · rintro ⟨mid, u, post, e, h1, h2, h3, h4, _⟩
      cases mid with
      | nil =>
        simp only [List.nil_append, List.cons.injEq, Op.insert.injEq] at e
        rw [e.1]; exact h3
      | cons m mid =>
        simp only [List.cons_append, List.cons.injEq] at e
        exact absurd h.2 (h4 t (by rw [← e.1]; exact List.mem_cons_self ..) h.1)
    · exact fun e => ⟨[], t, ops, rfl, h.1, h.2, e, by simp, by simp⟩
  · rw [if_neg h]
    constructor
    · rintro ⟨mid, u, post, e, h1, h2, h3, h4, h5⟩
      cases mid with
      | nil =>
        simp only [List.nil_append, List.cons.injEq, Op.insert.injEq] at e
        exact absurd ⟨e.1 ▸ h1, e.1 ▸ h2⟩ h
      | cons m mid =>
        simp only [List.cons_append, List.cons.injEq] at e
        exact ⟨mid, u, post, e.2, h1, h2, h3, fun x hx => h4 x (List.mem_cons_of_mem _ hx),
          fun n hn => h5 n (List.mem_cons_of_mem _ hn)⟩
    · rintro ⟨mid, u, post, e, h1, h2, h3, h4, h5⟩
      refine ⟨.insert t :: mid, u, post, by rw [e]; rfl, h1, h2, h3, fun x hx hn hk => ?_, fun n hn => ?_⟩
      · rcases List.mem_cons.mp hx with hx | hx
        · simp only [Op.insert.injEq] at hx
          exact h ⟨hx ▸ hn, hx ▸ hk⟩
        · exact h4 x hx hn hk
      · rcases List.mem_cons.mp hn with hn | hn
        · simp at hn
        · exact h5 n hn

private theorem again_purge (name : Str) (ts now : Int) (ops : List (Op F)) :
    Again name ts (.purge now :: ops) ↔ now = ts ∧ Again name ts ops := by
  constructor
  · rintro ⟨mid, u, post, e, h1, h2, h3, h4, h5⟩
    cases mid with
    | nil => simp at e
    | cons m mid =>
      simp only [List.cons_append, List.cons.injEq] at e
      exact ⟨h5 now (by rw [← e.1]; exact List.mem_cons_self ..), mid, u, post, e.2, h1, h2, h3,
        fun x hx => h4 x (List.mem_cons_of_mem _ hx), fun n hn => h5 n (List.mem_cons_of_mem _ hn)⟩
  · rintro ⟨e0, mid, u, post, e, h1, h2, h3, h4, h5⟩
    refine ⟨.purge now :: mid, u, post, by rw [e]; rfl, h1, h2, h3, fun x hx => ?_, fun n hn => ?_⟩
    · rcases List.mem_cons.mp hx with hx | hx
      · simp at hx
      · exact h4 x hx
    · rcases List.mem_cons.mp hn with hn | hn
      · simp only [Op.purge.injEq] at hn
        exact hn.trans e0
      · exact h5 n hn

/-- The one sample held for a name. -/
private def Pend (a : Aggr F) (name : Str) (ts : Int) : Prop :=
  ∃ sum cnt s, find a.data name = some (.windowed 0 sum cnt [s]) ∧ s.timestamp = ts

private def New (a : Aggr F) (ops : List (Op F)) : Prop :=
  ∃ pre t rest, ops = pre ++ .insert t :: rest ∧ find a.data t.name = none ∧ pointsOf t.name pre = [] ∧ t.kind = .summarize ∧
    Again t.name t.timestamp rest

private def Fine : Acc F → Prop
  | .perpetual t => t.kind ≠ .summarize
  | .windowed cap _ _ l => cap = 0 ∧ l.length ≤ 1

private theorem new_insert (a : Aggr F) (t : Telemetry F) (ops : List (Op F)) :
    New a (.insert t :: ops) ↔
      (find a.data t.name = none ∧ t.kind = .summarize ∧ Again t.name t.timestamp ops) ∨
      ∃ pre u rest, ops = pre ++ .insert u :: rest ∧ find a.data u.name = none ∧ u.name ≠ t.name ∧ pointsOf u.name pre = [] ∧
        u.kind = .summarize ∧ Again u.name u.timestamp rest := by
  constructor
  · rintro ⟨pre, u, rest, e, h1, h2, h3, h4⟩
    cases pre with
    | nil =>
      simp only [List.nil_append, List.cons.injEq, Op.insert.injEq] at e
      obtain ⟨rfl, rfl⟩ := e
      exact .inl ⟨h1, h3, h4⟩
    | cons m pre =>
      simp only [List.cons_append, List.cons.injEq] at e
      obtain ⟨rfl, e⟩ := e
      simp only [pointsOf] at h2
      by_cases hn : t.name = u.name
      · simp [hn] at h2
      · rw [if_neg hn] at h2
        exact .inr ⟨pre, u, rest, e, h1, fun h => hn h.symm, h2, h3, h4⟩
  · rintro (⟨h1, h2, h3⟩ | ⟨pre, u, rest, e, h1, hn, h2, h3, h4⟩)
    · exact ⟨[], t, ops, rfl, h1, rfl, h2, h3⟩
    · exact ⟨.insert t :: pre, u, rest, by rw [e]; rfl, h1,
        by simp only [pointsOf]; rw [if_neg (fun h => hn h.symm)]; exact h2, h3, h4⟩

private theorem new_purge (a : Aggr F) (now : Int) (ops : List (Op F)) : New a (.purge now :: ops) ↔ New a ops := by
  constructor
  · rintro ⟨pre, u, rest, e, h1, h2, h3, h4⟩
    cases pre with
    | nil => simp at e
    | cons m pre =>
      simp only [List.cons_append, List.cons.injEq] at e
      obtain ⟨rfl, e⟩ := e
      exact ⟨pre, u, rest, e, h1, h2, h3, h4⟩
  · rintro ⟨pre, u, rest, e, h1, h2, h3, h4⟩
    exact ⟨.purge now :: pre, u, rest, by rw [e]; rfl, h1, h2, h3, h4⟩

private theorem combine {a a' : Aggr F} {t : Telemetry F} {acc' : Acc F} (ops : List (Op F))
    (hf : ∀ n, find a'.data n = if t.name = n then some acc' else find a.data n)
    (hl : (∃ ts, Pend a' t.name ts ∧ Again t.name ts ops) ↔
      (∃ ts, Pend a t.name ts ∧ Again t.name ts (.insert t :: ops)) ∨
        (find a.data t.name = none ∧ t.kind = .summarize ∧ Again t.name t.timestamp ops)) :
    ((∃ name ts, Pend a' name ts ∧ Again name ts ops) ∨ New a' ops) ↔
      ((∃ name ts, Pend a name ts ∧ Again name ts (.insert t :: ops)) ∨ New a (.insert t :: ops)) := by
  have hp : ∀ n ts, t.name ≠ n → (Pend a' n ts ↔ Pend a n ts) := by
    intro n ts hn
    simp only [Pend, hf n, if_neg hn]
  have hag : ∀ n ts, t.name ≠ n → (Again n ts (.insert t :: ops) ↔ Again n ts ops) := by
    intro n ts hn
    rw [again_insert, if_neg (fun h => hn h.1)]
  rw [new_insert]
  constructor
  · rintro (⟨n, ts, h1, h2⟩ | ⟨pre, u, rest, e, h1, h2, h3, h4⟩)
    · by_cases hn : t.name = n
      · subst hn
        rcases hl.mp ⟨ts, h1, h2⟩ with ⟨ts', h⟩ | h
        · exact .inl ⟨_, ts', h⟩
        · exact .inr (.inl h)
      · exact .inl ⟨n, ts, (hp n ts hn).mp h1, (hag n ts hn).mpr h2⟩
    · by_cases hn : t.name = u.name
      · rw [hf, if_pos hn] at h1; simp at h1
      · rw [hf, if_neg hn] at h1
        exact .inr (.inr ⟨pre, u, rest, e, h1, fun h => hn h.symm, h2, h3, h4⟩)
  · rintro (⟨n, ts, h1, h2⟩ | h | ⟨pre, u, rest, e, h1, hn, h2, h3, h4⟩)
    · by_cases hn : t.name = n
      · subst hn
        obtain ⟨ts', h⟩ := hl.mpr (.inl ⟨ts, h1, h2⟩)
        exact .inl ⟨_, ts', h⟩
      · exact .inl ⟨n, ts, (hp n ts hn).mpr h1, (hag n ts hn).mp h2⟩
    · obtain ⟨ts', h⟩ := hl.mpr (.inr h)
      exact .inl ⟨_, ts', h⟩
    · exact .inr ⟨pre, u, rest, e, by rw [hf, if_neg (fun h => hn h.symm)]; exact h1, h2, h3, h4⟩

private def Inv0 (a : Aggr F) : Prop := a.capacity = 0 ∧ ∀ n acc, find a.data n = some acc → Fine acc

private theorem inv0_put {a : Aggr F} (hi : Inv0 a) (n : Str) (acc : Acc F) (hacc : Fine acc) :
    Inv0 ({ a with data := put a.data n acc } : Aggr F) := by
  refine ⟨hi.1, fun m b hb => ?_⟩
  simp only [find_put] at hb
  by_cases hm : n = m
  · rw [if_pos hm, Option.some.injEq] at hb; rw [← hb]; exact hacc
  · rw [if_neg hm] at hb; exact hi.2 m b hb

open Classical in
private theorem insert0 (ext : Ext F) (sum : F) (cnt : Nat) (l : List (Telemetry F)) (hl : l.length ≤ 1)
    (t : Telemetry F) (hk : t.kind = .summarize) (v : F) (hv : t.query (F64.ofNat 1) = some v) :
    if ∃ s, l = [s] ∧ s.timestamp = t.timestamp then (Acc.windowed 0 sum cnt l).insert ext t = none
    else ∃ sum' cnt', (Acc.windowed 0 sum cnt l).insert ext t = some (.windowed 0 sum' cnt' []) := by
  match l, hl with
  | [], _ =>
    rw [if_neg (by simp)]
    refine ⟨wrapSum ext sum v, if u64Max - cnt ≤ 1 then 1 else cnt + 1, ?_⟩
    simp [Acc.insert, hk, hv, bsearch]
  | [s], _ =>
    by_cases h : s.timestamp = t.timestamp
    · rw [if_pos ⟨s, rfl, h⟩]
      simp [Acc.insert, hk, hv, bsearch, bsearchLoop, h]
    · rw [if_neg (by simpa using h)]
      refine ⟨wrapSum ext sum v, if u64Max - cnt ≤ 1 then 1 else cnt + 1, ?_⟩
      rcases Int.lt_or_gt_of_ne h with h | h
      · simp [Acc.insert, hk, hv, bsearch, bsearchLoop, show compare s.timestamp t.timestamp = .lt from Int.compare_eq_lt.mpr h]
      · simp [Acc.insert, hk, hv, bsearch, bsearchLoop, show compare s.timestamp t.timestamp = .gt from Int.compare_eq_gt.mpr h]

private theorem run0 (ext : Ext F) : ∀ (ops : List (Op F)) (a : Aggr F), Inv0 a → GoodOps ops →
    (run ext a ops = none ↔ (∃ name ts, Pend a name ts ∧ Again name ts ops) ∨ New a ops) := by
  intro ops
  induction ops with
  | nil =>
    intro a _ _
    simp only [run]
    constructor
    · intro h; simp at h
    · rintro (⟨n, ts, _, h⟩ | ⟨pre, t, rest, e, _⟩)
      · exact absurd h (again_nil n ts)
      · simp at e
  | cons o ops ih =>
    intro a hi hg
    have hg' : GoodOps ops := fun t ht => hg t (List.mem_cons_of_mem _ ht)
    cases o with
    | purge now =>
      have hf : ∀ n, find (a.purge now).1.data n = (find a.data n).map fun b => (b.purge now).1 := by
        intro n
        exact find_map (fun b => (b.purge now).1) a.data n
      have hi' : Inv0 (a.purge now).1 := by
        refine ⟨hi.1, fun n acc h => ?_⟩
        rw [hf] at h
        cases hb : find a.data n with
        | none => rw [hb] at h; simp at h
        | some b =>
          rw [hb, Option.map_some, Option.some.injEq] at h
          have := hi.2 n b hb
          rw [← h]
          cases b with
          | perpetual t => exact this
          | windowed cap s c l =>
            exact ⟨this.1, Nat.le_trans (List.length_filter_le ..) this.2⟩
      simp only [run]
      rw [ih _ hi' hg', new_purge]
      have hnew : New (a.purge now).1 ops ↔ New a ops := by simp only [New, hf, Option.map_eq_none_iff]
      rw [hnew]
      have hpend : ∀ n ts, Pend (a.purge now).1 n ts ↔ Pend a n ts ∧ now = ts := by
        intro n ts
        simp only [Pend, hf]
        cases hb : find a.data n with
        | none => simp
        | some b =>
          have hfine := hi.2 n b hb
          cases b with
          | perpetual t => simp [Acc.purge]
          | windowed cap s c l =>
            obtain ⟨rfl, hl⟩ := hfine
            match l, hl with
            | [], _ => simp [Acc.purge]
            | [x], _ =>
              by_cases hx : x.timestamp = now
              · have e : (Acc.purge now (.windowed 0 s c [x])).1 = .windowed 0 s c [x] := by
                  simp [Acc.purge, hx, Wavefront.asI64]
                rw [Option.map_some, e]
                constructor
                · rintro ⟨s1, c1, x1, h, rfl⟩
                  simp only [Option.some.injEq, Acc.windowed.injEq, List.cons.injEq, and_true, true_and] at h
                  obtain ⟨rfl, rfl, rfl⟩ := h
                  exact ⟨⟨_, _, _, rfl, rfl⟩, hx.symm⟩
                · exact fun h => h.1
              · have : ((x.timestamp - now).natAbs : Int) > 0 := by omega
                have e : (Acc.purge now (.windowed 0 s c [x])).1 = .windowed 0 s c [] := by
                  have hne : ¬ x.timestamp - now = 0 := by omega
                  simp [Acc.purge, Wavefront.asI64, hne]
                rw [Option.map_some, e]
                constructor
                · rintro ⟨s1, c1, x1, h, rfl⟩
                  simp at h
                · rintro ⟨⟨s1, c1, x1, h, rfl⟩, h2⟩
                  simp only [Option.some.injEq, Acc.windowed.injEq, List.cons.injEq, and_true, true_and] at h
                  obtain ⟨rfl, rfl, rfl⟩ := h
                  exact absurd h2.symm hx
      constructor
      · rintro (⟨n, ts, h1, h2⟩ | h)
        · obtain ⟨h1, h3⟩ := (hpend n ts).mp h1
          exact .inl ⟨n, ts, h1, (again_purge ..).mpr ⟨h3, h2⟩⟩
        · exact .inr h
      · rintro (⟨n, ts, h1, h2⟩ | h)
        · obtain ⟨h3, h2⟩ := (again_purge ..).mp h2
          exact .inl ⟨n, ts, (hpend n ts).mpr ⟨h1, h3⟩, h2⟩
        · exact .inr h
    | insert t =>
      have hgt := hg t (List.mem_cons_self ..)
      simp only [run]
      cases hfind : find a.data t.name with
      | none =>
        have hnp : ∀ ts, ¬ Pend a t.name ts := by
          rintro ts ⟨s, c, x, h, _⟩
          rw [hfind] at h; simp at h
        have hcap := hi.1
        by_cases hk : t.kind = .summarize
        · obtain ⟨v, hv⟩ := hgt hk
          have hfirst : first a.capacity t = some (.windowed 0 v 1 [t]) := by
            simp only [first, hk, hcap]
            rw [show t.query (F64.ofNat 1) = some v from hv]
          simp only [Aggr.insert, hfind, hfirst]
          rw [ih _ (inv0_put hi t.name (.windowed 0 v 1 [t]) ⟨rfl, by simp⟩) hg']
          refine combine ops (acc' := .windowed 0 v 1 [t]) (fun n => by simp only [find_put]) ?_
          constructor
          · rintro ⟨ts, ⟨s, c, x, h, hx⟩, h2⟩
            simp only [find_put, if_true, Option.some.injEq, Acc.windowed.injEq, List.cons.injEq, and_true, true_and] at h
            obtain ⟨_, _, rfl⟩ := h
            subst hx
            exact .inr ⟨hfind, hk, h2⟩
          · rintro (⟨ts, h, _⟩ | ⟨_, _, h⟩)
            · exact absurd h (hnp ts)
            · exact ⟨_, ⟨v, 1, t, by simp only [find_put, if_true], rfl⟩, h⟩
        · have hfirst : first a.capacity t = some (.perpetual t) := by
            simp only [first]
            cases hk' : t.kind <;> simp_all
          simp only [Aggr.insert, hfind, hfirst]
          rw [ih _ (inv0_put hi t.name (.perpetual t) hk) hg']
          refine combine ops (acc' := .perpetual t) (fun n => by simp only [find_put]) ?_
          constructor
          · rintro ⟨ts, ⟨s, c, x, h, hx⟩, h2⟩
            simp [find_put] at h
          · rintro (⟨ts, h, _⟩ | ⟨_, h, _⟩)
            · exact absurd h (hnp ts)
            · exact absurd h hk
      | some prev =>
        have hfine := hi.2 _ _ hfind
        by_cases hk : prev.kind = t.kind
        · cases prev with
          | perpetual p =>
            simp only [Aggr.insert, hfind, hk, if_true, Acc.insert]
            have hkp : p.kind = t.kind := hk
            have hkt : t.kind ≠ .summarize := fun h => hfine (hkp.trans h)
            rw [ih _ (inv0_put hi t.name _ (by simp only [Fine, addAssign_kind]; exact hkt)) hg']
            refine combine ops (acc' := .perpetual (p.addAssign t)) (fun n => by simp only [find_put]) ?_
            constructor
            · rintro ⟨ts, ⟨s, c, x, h, hx⟩, h2⟩
              simp [find_put] at h
            · rintro (⟨ts, ⟨s, c, x, h, hx⟩, _⟩ | ⟨h, _, _⟩)
              · rw [hfind] at h; simp at h
              · rw [hfind] at h; simp at h
          | windowed cap s c l =>
            obtain ⟨rfl, hl⟩ := hfine
            have hkt : t.kind = .summarize := hk.symm
            obtain ⟨v, hv⟩ := hgt hkt
            have hins := insert0 ext s c l hl t hkt v hv
            by_cases hx : ∃ x, l = [x] ∧ x.timestamp = t.timestamp
            · rw [if_pos hx] at hins
              obtain ⟨x, rfl, hx⟩ := hx
              simp only [Aggr.insert, hfind, hk, if_true, hins, true_iff]
              exact .inl ⟨t.name, t.timestamp, ⟨s, c, x, hfind, hx⟩,
                (again_insert ..).mpr (by rw [if_pos ⟨rfl, hkt⟩])⟩
            · rw [if_neg hx] at hins
              obtain ⟨s', c', hins⟩ := hins
              simp only [Aggr.insert, hfind, hk, if_true, hins]
              rw [ih _ (inv0_put hi t.name (.windowed 0 s' c' []) ⟨rfl, by simp⟩) hg']
              refine combine ops (acc' := .windowed 0 s' c' []) (fun n => by simp only [find_put]) ?_
              constructor
              · rintro ⟨ts, ⟨s, c, x, h, hx⟩, h2⟩
                simp [find_put] at h
              · rintro (⟨ts, ⟨s1, c1, x, h, hx'⟩, h2⟩ | ⟨h, _, _⟩)
                · rw [again_insert, if_pos ⟨rfl, hkt⟩] at h2
                  rw [hfind] at h
                  simp only [Option.some.injEq, Acc.windowed.injEq] at h
                  exact absurd ⟨x, h.2.2.2, hx'.trans h2.symm⟩ hx
                · rw [hfind] at h; simp at h
        · simp only [Aggr.insert, hfind, if_neg hk]
          rw [ih _ hi hg']
          refine combine ops (acc' := prev) (fun n => ?_) ?_
          · by_cases hn : t.name = n
            · rw [if_pos hn, ← hn, hfind]
            · rw [if_neg hn]
          · constructor
            · rintro ⟨ts, h, h2⟩
              refine .inl ⟨ts, h, (again_insert ..).mpr ?_⟩
              obtain ⟨s1, c1, x, h, hx'⟩ := h
              rw [hfind, Option.some.injEq] at h
              rw [if_neg (fun hh => hk (by rw [h]; exact hh.2.symm))]
              exact h2
            · rintro (⟨ts, h, h2⟩ | ⟨h, _, _⟩)
              · have h' := h
                obtain ⟨s1, c1, x, h, hx'⟩ := h
                rw [hfind, Option.some.injEq] at h
                rw [again_insert, if_neg (fun hh => hk (by rw [h]; exact hh.2.symm))] at h2
                exact ⟨ts, h', h2⟩
              · rw [hfind] at h; simp at h

/-- **C74, partial**: exactly when inserting and flushing panics, for any window, if no summary point is empty: the window is of
zero seconds, the first point of some name is a summary, and the next summary of that name has the same time, without a flush in
another second in between.  Missing from the property: it does panic then. -/
theorem C74_exact_partial (ext : Ext F) (cap : Nat) (ops : List (Op F)) (hg : GoodOps ops) (hlen : ops.length < 2 ^ 64 - 1) :
    run ext (Aggr.new cap) ops = none ↔ cap = 0 ∧ Clash ops := by
  by_cases hc : cap = 0
  · subst hc
    rw [run0 ext ops _ ⟨rfl, by simp [Aggr.new, find]⟩ hg]
    constructor
    · rintro (⟨n, ts, ⟨s, c, x, h, _⟩, _⟩ | ⟨pre, t, rest, e, _, h⟩)
      · simp [Aggr.new, find] at h
      · exact ⟨rfl, pre, t, rest, e, h⟩
    · rintro ⟨_, pre, t, rest, e, h⟩
      exact .inr ⟨pre, t, rest, e, rfl, h⟩
  · obtain ⟨a, h, _⟩ := reachable (ext := ext) (P := fun _ => True) (fun _ _ _ _ => trivial) (Nat.one_le_iff_ne_zero.mpr hc) ops
      (fun t ht => ⟨trivial, hg t ht⟩) hlen
    rw [h]
    simp [hc]

end

/-- The history of `C74_zero_window_false` has the clash, and points that are not empty. -/
example : Clash [.insert (promSummary 1 1), .insert (promSummary 2 1)] ∧ GoodOps [.insert (promSummary 1 1), .insert (promSummary 2 1)] := by
  refine ⟨⟨[], _, _, rfl, rfl, by decide, [], _, [], rfl, by decide, by decide, by decide, by simp, by simp⟩, ?_⟩
  intro t ht _
  simp only [List.mem_cons, Op.insert.injEq, List.not_mem_nil, or_false] at ht
  rcases ht with rfl | rfl
  · exact ⟨_, rfl⟩
  · exact ⟨_, rfl⟩

/-- A flush a second later in between saves the sink. -/
example : (run promExt (Aggr.new 0) [.insert (promSummary 1 1), .purge 2, .insert (promSummary 2 1)]).isSome := by decide

end Verif
