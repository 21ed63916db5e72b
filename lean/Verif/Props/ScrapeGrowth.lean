import Verif.Props.ScrapeTotals
/-!
# C135: what a counter or a count shows never goes down from one scrape to the next
-/
namespace Verif
open Prometheus Scrape
section
variable {F : Type} [F64 F]

private theorem order_run {p : Setup F} (ls : List (Scrape.Label F)) : ∀ {h : List (Op F)} {s s' : Scrape.State F}, Good p h s →
    Scrape.run p s ls = some s' → ∃ new, s'.answers = s.answers ++ new ∧ ∃ seen : List Nat, seen.length = new.length ∧
      seen.Pairwise (· ≤ ·) ∧ ∀ (i : Nat) r text n, new[i]? = some (r, some text) → seen[i]? = some n →
        Tells p (h ++ (history p s ls).take n) text := by
  induction ls with
  | nil =>
    intro h s s' _ hr
    simp only [Scrape.run, Option.some.injEq] at hr
    subst hr
    exact ⟨[], by simp, [], rfl, .nil, by simp⟩
  | cons l ls ih =>
    intro h s s' g hr
    simp only [Scrape.run, Option.bind_eq_some_iff] at hr
    obtain ⟨s1, h1, h2⟩ := hr
    obtain ⟨g1, hans⟩ := g.step l h1
    obtain ⟨new, e1, seen, e2, e3, e4⟩ := ih g1 h2
    have hh : history p s (l :: ls) = opOf s l ++ history p s1 ls := by simp only [history, h1]
    have shift : ∀ (i : Nat) r text n, new[i]? = some (r, some text) → (seen.map ((opOf s l).length + ·))[i]? = some n →
        Tells p (h ++ (history p s (l :: ls)).take n) text := by
      intro i r text n hi hn
      rw [List.getElem?_map, Option.map_eq_some_iff] at hn
      obtain ⟨m, hm, rfl⟩ := hn
      rw [hh, List.take_length_add_append, ← List.append_assoc]
      exact e4 i r text m hi hm
    have hpw : (seen.map ((opOf s l).length + ·)).Pairwise (· ≤ ·) := by
      rw [List.pairwise_map]
      exact e3.imp (fun hab => Nat.add_le_add_left hab _)
    rcases hans with hans | ⟨r, body, hans, htell⟩
    · exact ⟨new, by rw [e1, hans], seen.map ((opOf s l).length + ·), by simpa using e2, hpw, shift⟩
    · refine ⟨(r, body) :: new, by rw [e1, hans]; simp, (opOf s l).length :: seen.map ((opOf s l).length + ·), by simpa using e2,
        List.pairwise_cons.2 ⟨fun a ha => ?_, hpw⟩, fun i r' text n hi hn => ?_⟩
      · obtain ⟨m, -, rfl⟩ := List.mem_map.1 ha
        exact Nat.le_add_right _ _
      · cases i with
        | zero =>
          simp only [List.getElem?_cons_zero, Option.some.injEq, Prod.mk.injEq] at hi hn
          rw [← hn, hh, List.take_left]
          exact htell text hi.2
        | succ i => exact shift i r' text n (by simpa using hi) (by simpa using hn)

/-- **C135** (nothing is unsaid) However deliveries, flushes and scrapes interleave, the texts answered tell of longer and longer parts,
each from the beginning, of what the sink was asked to do. -/
theorem C135_order (p : Setup F) (hage : ∀ a, p.ageThreshold = some a → a < 2 ^ 63) (bound : Bool) (ls : List (Scrape.Label F))
    (s : Scrape.State F) (h : Scrape.run p (.start p bound) ls = some s) (halive : s.sink ≠ .panicked) :
    ∃ seen : List Nat, seen.length = s.answers.length ∧ seen.Pairwise (· ≤ ·) ∧ ∀ (i : Nat) r text n,
      s.answers[i]? = some (r, some text) → seen[i]? = some n → Tells p ((asked p.ageThreshold ls).take n) text := by
  obtain ⟨new, e1, seen, e2, e3, e4⟩ := order_run ls (Good.start p bound) h
  have hab := C99_asked p hage bound ls s h halive
  have e1 : s.answers = new := by rw [e1]; cases bound <;> rfl
  refine ⟨seen.map (min · (history p (.start p bound) ls).length), by rw [e1]; simpa using e2, ?_, fun i r text n hi hn => ?_⟩
  · rw [List.pairwise_map]
    exact e3.imp (fun hle => by omega)
  · rw [List.getElem?_map, Option.map_eq_some_iff] at hn
    obtain ⟨m, hm, rfl⟩ := hn
    have := e4 i r text m (by rw [← e1]; exact hi) hm
    rw [← hab, List.take_append_of_le_length (by omega), Nat.min_comm, ← List.take_take, List.take_of_length_le (by simp; omega)]
    simpa using this

/-- Every sample in a text is written for a point that is reported, and every line of such a point is in it. -/
private theorem tells_lines (p : Setup F) (hcap : 1 ≤ p.capacity) (ops : List (Op F)) (hg : GoodOps ops) (hlen : ops.length < 2 ^ 64 - 1)
    (text : List (Line F)) (ht : Tells p ops text) :
    ∃ a now order pts, Prometheus.run p.ext (Aggr.new p.capacity) ops = some a ∧ order.Perm a.data ∧ report now order = some pts ∧
      (∀ q ∈ pts, ∃ t0, (pointsOf q.name ops).head? = some t0 ∧ q.kind = t0.kind) ∧
      (∀ m l v, .sample m l v ∈ text → ∃ q ∈ pts, ∃ b, body p.ext p.tags q = some b ∧ .sample m l v ∈ b) ∧
      ∀ q ∈ pts, ∃ b, body p.ext p.tags q = some b ∧ ∀ l ∈ b, l ∈ text := by
  obtain ⟨a, now, order, e, ho, hs⟩ := ht
  obtain ⟨a3, e3, hkind, -⟩ := C48_one_kind p.ext p.capacity hcap ops hg hlen
  rw [e, Option.some.injEq] at e3
  subst e3
  obtain ⟨pts, r1, r2⟩ := hkind now order ho
  refine ⟨a, now, order, pts, e, ho, r1, r2, ?_⟩
  cases hw : writeText p.ext p.tags [] pts with
  | none => simp [scrape, r1, hw] at hs
  | some ls =>
    have hans := (C51_scrape_answer p.ext p.tags p.gzip now order pts ls r1 hw).2
    rw [hs] at hans
    have hls : text = ls := by
      split at hans
      · simp at hans
      · simpa using hans
    subst hls
    have gen : ∀ (ps : List (Telemetry F)) (seen : List Str) (ls : List (Line F)), writeText p.ext p.tags seen ps = some ls →
        (∀ m l v, .sample m l v ∈ ls → ∃ q ∈ ps, ∃ b, body p.ext p.tags q = some b ∧ .sample m l v ∈ b) ∧
        ∀ q ∈ ps, ∃ b, body p.ext p.tags q = some b ∧ ∀ l ∈ b, l ∈ ls := by
      intro ps
      induction ps with
      | nil =>
        intro seen ls h
        simp only [writeText, Option.some.injEq] at h
        subst h; simp
      | cons q ps ih =>
        intro seen ls h
        rw [writeText_cons] at h
        cases hb : body p.ext p.tags q with
        | none => rw [hb] at h; simp at h
        | some b =>
          cases hr : writeText p.ext p.tags (q.name :: seen) ps with
          | none => rw [hb, hr] at h; simp at h
          | some rest =>
            rw [hb, hr] at h
            simp only [Option.some.injEq] at h
            subst h
            obtain ⟨i1, i2⟩ := ih _ rest hr
            constructor
            · intro m l v hm
              rcases List.mem_append.1 hm with hm | hm
              · split at hm <;> simp at hm
              · rcases List.mem_append.1 hm with hm | hm
                · exact ⟨q, by simp, b, hb, hm⟩
                · obtain ⟨q', hq', b', hb', hm'⟩ := i1 m l v hm
                  exact ⟨q', by simp [hq'], b', hb', hm'⟩
            · intro q' hq'
              rcases List.mem_cons.1 hq' with rfl | hq'
              · exact ⟨b, hb, fun l hl => by simp [hl]⟩
              · obtain ⟨b', hb', hin⟩ := i2 q' hq'
                exact ⟨b', hb', fun l hl => by simp [hin l hl]⟩
    exact gen pts [] text hw

private theorem mem_pointsOf {n : Str} {u : Telemetry F} : ∀ {ops : List (Op F)}, u ∈ pointsOf n ops → Op.insert u ∈ ops ∧ u.name = n := by
  intro ops
  induction ops with
  | nil => intro h; simp [pointsOf] at h
  | cons o ops ih =>
    intro h
    cases o with
    | insert t =>
      simp only [pointsOf] at h
      split at h
      · rename_i he
        rcases List.mem_cons.1 h with rfl | h
        · exact ⟨by simp, he⟩
        · exact ⟨by simp [(ih h).1], (ih h).2⟩
      · exact ⟨by simp [(ih h).1], (ih h).2⟩
    | purge now => exact ⟨by simp [(ih h).1], (ih h).2⟩

/-- A line that only `n` can have is written for the point reported for `n`. -/
private theorem owned {n x : Str} {ops : List (Op F)} (ho : Owns n x ops) {q : Telemetry F} {t0 : Telemetry F}
    (hq : (pointsOf q.name ops).head? = some t0) {ext : Ext F} {tags : TagMap} {b : List (Line F)} (hb : body ext tags q = some b)
    {l : List (Str × Str)} {v : Num F} (hm : .sample x l v ∈ b) : q.name = n := by
  by_cases hn : q.name = n
  · exact hn
  · obtain ⟨h1, h2⟩ := mem_pointsOf (List.mem_of_mem_head? hq)
    have hs := body_samples ext tags q b hb _ hm
    obtain ⟨o1, o2, o3⟩ := ho t0 h1 (by rw [h2]; exact hn)
    rw [h2] at o1 o2 o3
    rcases hs with h | h | h
    · exact absurd h o1
    · exact absurd h o2
    · exact absurd h o3

private theorem take_prefix {α : Type} (l : List α) {m k : Nat} (h : m ≤ k) : ∃ rest, l.take k = l.take m ++ rest :=
  ⟨(l.drop m).take (k - m), by
    rw [show k = m + (k - m) by omega, List.take_add]; simp⟩

private theorem getElem_le {seen : List Nat} (h : seen.Pairwise (· ≤ ·)) {i j a b : Nat} (hij : i ≤ j) (hi : seen[i]? = some a)
    (hj : seen[j]? = some b) : a ≤ b := by
  obtain ⟨hi', rfl⟩ := List.getElem?_eq_some_iff.1 hi
  obtain ⟨hj', rfl⟩ := List.getElem?_eq_some_iff.1 hj
  by_cases he : i = j
  · subst he; exact Nat.le_refl _
  · exact List.pairwise_iff_getElem.1 h i j hi' hj' (by omega)

/-- Two scrapes, the first not after the second: the first tells of some of what was asked, the second of that and more. -/
private theorem two_scrapes (p : Setup F) (hage : ∀ a, p.ageThreshold = some a → a < 2 ^ 63) (bound : Bool) (ls : List (Scrape.Label F))
    (s : Scrape.State F) (h : Scrape.run p (.start p bound) ls = some s) (halive : s.sink ≠ .panicked)
    (hg : GoodOps (asked p.ageThreshold ls)) (hlen : ls.length < 2 ^ 64 - 1) {i j : Nat} (hij : i ≤ j) {r1 r2 : Nat}
    {text1 text2 : List (Line F)} (h1 : s.answers[i]? = some (r1, some text1)) (h2 : s.answers[j]? = some (r2, some text2)) :
    ∃ ops rest, Tells p ops text1 ∧ Tells p (ops ++ rest) text2 ∧ (∀ op ∈ ops ++ rest, op ∈ asked p.ageThreshold ls) ∧
      GoodOps ops ∧ GoodOps (ops ++ rest) ∧ ops.length < 2 ^ 64 - 1 ∧ (ops ++ rest).length < 2 ^ 64 - 1 := by
  obtain ⟨seen, e1, e2, e3⟩ := C135_order p hage bound ls s h halive
  have hsome : ∀ {k : Nat} {x}, s.answers[k]? = some x → ∃ a, seen[k]? = some a := by
    intro k x hk
    obtain ⟨hk', -⟩ := List.getElem?_eq_some_iff.1 hk
    exact ⟨seen[k]'(by omega), List.getElem?_eq_getElem _⟩
  obtain ⟨a, ha⟩ := hsome h1
  obtain ⟨b, hb⟩ := hsome h2
  obtain ⟨rest, hr⟩ := take_prefix (asked p.ageThreshold ls) (getElem_le e2 hij ha hb)
  have hall := asked_length p.ageThreshold ls
  have hmem : ∀ op ∈ (asked p.ageThreshold ls).take a ++ rest, op ∈ asked p.ageThreshold ls := by
    intro op hop; rw [← hr] at hop; exact List.mem_of_mem_take hop
  have hl : ((asked p.ageThreshold ls).take a ++ rest).length ≤ ls.length := by
    rw [← hr, List.length_take]; omega
  refine ⟨_, rest, e3 i r1 text1 a h1 ha, ?_, hmem, fun t ht => hg t (List.mem_of_mem_take ht), fun t ht => hg t (hmem _ ht), ?_, ?_⟩
  · rw [← hr]; exact e3 j r2 text2 b h2 hb
  · rw [List.length_append] at hl; omega
  · omega

private theorem sums_of {n : Str} : ∀ (ts : List (Telemetry F)), (∀ t ∈ ts, ∃ v, t.value = .sum v) → ∃ xs : List F, ts.map (·.value) = xs.map .sum := by
  intro ts
  induction ts with
  | nil => intro _; exact ⟨[], rfl⟩
  | cons t ts ih =>
    intro h
    obtain ⟨xs, hx⟩ := ih (fun u hu => h u (by simp [hu]))
    obtain ⟨v, hv⟩ := h t (by simp)
    exact ⟨v :: xs, by simp [hv, hx]⟩

private theorem fold_grows (le : F → F → Prop) (pos : F → Prop) (hrefl : ∀ a, le a a) (htrans : ∀ a b c, le a b → le b c → le a c)
    (hadd : ∀ a b, pos a → pos b → pos (F64.add a b) ∧ le a (F64.add a b)) : ∀ (xs : List F) (x : F), pos x → (∀ y ∈ xs, pos y) →
    pos (xs.foldl F64.add x) ∧ le x (xs.foldl F64.add x) := by
  intro xs
  induction xs with
  | nil => intro x hx _; exact ⟨hx, hrefl x⟩
  | cons y xs ih =>
    intro x hx h
    obtain ⟨a1, a2⟩ := hadd x y hx (h y (by simp))
    obtain ⟨i1, i2⟩ := ih _ a1 (fun z hz => h z (by simp [hz]))
    exact ⟨i1, htrans _ _ _ a2 i2⟩

/-- **C135** (counters) A name has only been given to the sink as an untagged counter, with numbers none of which is negative, and no
other name is cleaned up to it.  Then, however deliveries, flushes and scrapes interleave, once a scrape has shown it every later scrape
shows it, and no smaller number: as long as the cernan lives, it looks to the server like a counter that is never reset. -/
theorem C135_counters_grow (le : F → F → Prop) (pos : F → Prop) (hrefl : ∀ a, le a a) (htrans : ∀ a b c, le a b → le b c → le a c)
    (hadd : ∀ a b, pos a → pos b → pos (F64.add a b) ∧ le a (F64.add a b))
    (p : Setup F) (hcap : 1 ≤ p.capacity) (hage : ∀ a, p.ageThreshold = some a → a < 2 ^ 63) (bound : Bool) (ls : List (Scrape.Label F))
    (s : Scrape.State F) (h : Scrape.run p (.start p bound) ls = some s) (halive : s.sink ≠ .panicked)
    (hg : GoodOps (asked p.ageThreshold ls)) (hlen : ls.length < 2 ^ 64 - 1) (n : Str)
    (hn : ∀ t, .insert t ∈ asked p.ageThreshold ls → t.name = n → t.tags = none ∧ ∃ v, t.value = .sum v ∧ pos v)
    (hown : Owns n (sanitize n) (asked p.ageThreshold ls)) (i j r1 r2 : Nat) (text1 text2 : List (Line F)) (hij : i ≤ j)
    (h1 : s.answers[i]? = some (r1, some text1)) (h2 : s.answers[j]? = some (r2, some text2))
    (hshown : samplesNamed (sanitize n) text1 ≠ []) :
    ∃ v w, samplesNamed (sanitize n) text1 = [(p.tags, .real v)] ∧ samplesNamed (sanitize n) text2 = [(p.tags, .real w)] ∧ le v w := by
  obtain ⟨ops, rest, t1, t2, hsub, g1, g2, l1, l2⟩ := two_scrapes p hage bound ls s h halive hg hlen hij h1 h2
  have hsub1 : ∀ op ∈ ops, op ∈ asked p.ageThreshold ls := fun op hop => hsub op (by simp [hop])
  have hpts : ∀ os : List (Op F), (∀ op ∈ os, op ∈ asked p.ageThreshold ls) → (∀ t ∈ pointsOf n os, t.tags = none) ∧
      ∃ xs : List F, (pointsOf n os).map (·.value) = xs.map .sum := by
    intro os hos
    refine ⟨fun t ht => ?_, sums_of (n := n) _ fun t ht => ?_⟩
    · obtain ⟨m1, m2⟩ := mem_pointsOf ht
      exact (hn t (hos _ m1) m2).1
    · obtain ⟨m1, m2⟩ := mem_pointsOf ht
      obtain ⟨v, hv, -⟩ := (hn t (hos _ m1) m2).2
      exact ⟨v, hv⟩
  have hpos : ∀ (os : List (Op F)) (xs : List F), (∀ op ∈ os, op ∈ asked p.ageThreshold ls) → (pointsOf n os).map (·.value) = xs.map .sum →
      ∀ x ∈ xs, pos x := by
    intro os xs hos hx x hxm
    have : Value.sum x ∈ (pointsOf n os).map (·.value) := by rw [hx]; exact List.mem_map.2 ⟨x, hxm, rfl⟩
    obtain ⟨t, ht, hv⟩ := List.mem_map.1 this
    obtain ⟨m1, m2⟩ := mem_pointsOf ht
    obtain ⟨v, hv', hp⟩ := (hn t (hos _ m1) m2).2
    simp only [hv', Value.sum.injEq] at hv
    rw [← hv]; exact hp
  have hcl : ∀ os : List (Op F), (∀ op ∈ os, op ∈ asked p.ageThreshold ls) → ∀ t, .insert t ∈ os → t.name ≠ n → ¬ Clash t.name n := by
    intro os hos t ht hne hc
    obtain ⟨o1, o2, o3⟩ := hown t (hos _ ht) hne
    rcases hc with hc | hc | hc
    · exact o1 hc
    · exact o2 hc
    · exact o3 hc
  obtain ⟨htg1, xs1, hx1⟩ := hpts ops hsub1
  obtain ⟨htg2, xs2, hx2⟩ := hpts rest (fun op hop => hsub op (by simp [hop]))
  obtain ⟨htg, -⟩ := hpts (ops ++ rest) hsub
  have hne : pointsOf n ops ≠ [] := by
    intro hnil
    apply hshown
    obtain ⟨a, now, order, pts, -, -, -, hk, hin, -⟩ := tells_lines p hcap ops g1 l1 text1 t1
    simp only [samplesNamed, List.filterMap_eq_nil_iff]
    intro l hl
    cases l with
    | type => rfl
    | sample m labels v =>
      by_cases hm : m = sanitize n
      · subst hm
        obtain ⟨q, hq, b, hb, hmem⟩ := hin _ _ _ hl
        obtain ⟨t0, ht0, -⟩ := hk q hq
        have hqn : q.name = n := owned (fun t ht => hown t (hsub1 _ ht)) ht0 hb hmem
        rw [hqn, hnil] at ht0
        simp at ht0
      · simp [hm]
  cases xs1 with
  | nil => simp at hx1; exact absurd hx1 hne
  | cons x0 xs1 =>
    have hx : (pointsOf n (ops ++ rest)).map (·.value) = (x0 :: (xs1 ++ xs2)).map .sum := by
      rw [Prometheus.pointsOf_append, List.map_append, hx1, hx2]; simp
    have c1 := (C113_sink p hcap ops g1 l1 n x0 xs1 hx1 htg1 text1 t1).2.2 (hcl ops hsub1)
    have c2 := (C113_sink p hcap (ops ++ rest) g2 l2 n x0 (xs1 ++ xs2) hx htg text2 t2).2.2 (hcl _ hsub)
    refine ⟨_, _, c1, c2, ?_⟩
    have p1 := hpos ops (x0 :: xs1) hsub1 hx1
    have p2 := hpos rest xs2 (fun op hop => hsub op (by simp [hop])) hx2
    obtain ⟨f1, -⟩ := fold_grows le pos hrefl htrans hadd xs1 x0 (p1 x0 (by simp)) (fun y hy => p1 y (by simp [hy]))
    rw [List.foldl_append]
    exact (fold_grows le pos hrefl htrans hadd xs2 _ f1 p2).2

/-! ## The counts of histograms and summaries -/

private theorem hist_fold [LawfulSketch F] (ts : List (Telemetry F)) : ∀ t : Telemetry F, t.kind = .histogram →
    (∀ u ∈ ts, u.kind = .histogram) → t.count ≤ (ts.foldl Telemetry.addAssign t).count := by
  induction ts with
  | nil => intro t _ _; exact Nat.le_refl _
  | cons u ts ih =>
    intro t hk h
    have hu := h u (by simp)
    have hstep : t.count ≤ (t.addAssign u).count := by
      cases hv : t.value <;> simp [Telemetry.kind, Value.kind, hv] at hk
      cases hw : u.value <;> simp [Telemetry.kind, Value.kind, hw] at hu
      simp only [Telemetry.count, Telemetry.addAssign]
      cases t.overrideCount with
      | some k => exact Nat.le_refl _
      | none => simp only [hv, hw, Value.add, Value.count, LawfulSketch.hist_merge]; omega
    rw [List.foldl_cons]
    exact Nat.le_trans hstep (ih _ (by rw [addAssign_kind]; exact hu) (fun w hw => h w (by simp [hw])))

/-- The count shown for a name: for a summary the number of points that were not refused, otherwise the count of the points merged. -/
private def shownCount (n : Str) (ops : List (Op F)) : Nat := match accepted n ops with
  | [] => 0
  | t :: ts => if t.kind = .summarize then ts.length + 1 else (ts.foldl Telemetry.addAssign t).count

private theorem accepted_append (n : Str) (a b : List (Op F)) {t0 : Telemetry F} {us : List (Telemetry F)}
    (h : pointsOf n a = t0 :: us) : accepted n (a ++ b) = accepted n a ++ (pointsOf n b).filter fun u => decide (u.kind = t0.kind) := by
  simp only [accepted, Prometheus.pointsOf_append, h, List.cons_append, List.filter_append]

private theorem shown_grows [LawfulSketch F] (n : Str) (a b : List (Op F)) {t0 : Telemetry F} {us : List (Telemetry F)}
    (h : pointsOf n a = t0 :: us) (hk : t0.kind = .summarize ∨ t0.kind = .histogram) : shownCount n a ≤ shownCount n (a ++ b) := by
  have ha : accepted n a = t0 :: us.filter fun u => decide (u.kind = t0.kind) := by simp only [accepted, h]
  simp only [shownCount, accepted_append n a b h, ha, List.cons_append]
  by_cases hs : t0.kind = .summarize
  · rw [if_pos hs, if_pos hs, List.length_append]; omega
  · rw [if_neg hs, if_neg hs, List.foldl_append]
    have hh := hk.resolve_left hs
    have gen : ∀ (ts : List (Telemetry F)) (t : Telemetry F), t.kind = .histogram → (∀ u ∈ ts, u.kind = .histogram) →
        (ts.foldl Telemetry.addAssign t).kind = .histogram := by
      intro ts
      induction ts with
      | nil => intro t h _; exact h
      | cons u ts ih =>
        intro t _ h
        exact ih _ (by rw [addAssign_kind]; exact h u (by simp)) (fun w hw => h w (by simp [hw]))
    refine hist_fold _ _ (gen _ _ hh fun u hu => ?_) fun u hu => ?_
    · rw [← hh]; simpa using (List.mem_filter.1 hu).2
    · rw [← hh]; simpa using (List.mem_filter.1 hu).2

private theorem bucket_named (ext : Ext F) (name : Str) (tags : List (Str × Str)) : ∀ (bins : List (Option F × Nat)) (r : Nat) m l v,
    .sample m l v ∈ bucketLines ext name tags r bins → m = name := by
  intro bins
  induction bins with
  | nil => intro r m l v h; simp [bucketLines] at h
  | cons b bins ih =>
    intro r m l v h
    simp only [bucketLines, List.mem_cons, Line.sample.injEq] at h
    rcases h with h | h
    · exact h.1
    · exact ih _ m l v h

private theorem quantile_named (ext : Ext F) (name : Str) (tags : List (Str × Str)) (t : Telemetry F) : ∀ (qs : List F) (b : List (Line F)),
    quantileLines ext name tags t qs = some b → ∀ m l v, .sample m l v ∈ b → m = name := by
  intro qs
  induction qs with
  | nil => intro b h m l v hm; simp only [quantileLines, Option.some.injEq] at h; subst h; simp at hm
  | cons q qs ih =>
    intro b h m l v hm
    simp only [quantileLines] at h
    cases hq : t.query q with
    | none => rw [hq] at h; simp at h
    | some x =>
      cases hr : quantileLines ext name tags t qs with
      | none => rw [hq, hr] at h; simp at h
      | some rest =>
        rw [hq, hr] at h
        simp only [Option.some.injEq] at h
        subst h
        simp only [List.mem_cons, Line.sample.injEq] at hm
        rcases hm with hm | hm
        · exact hm.1
        · exact ih rest hr m l v hm

private theorem not_longer (x y : Str) (hy : y ≠ []) : x ++ y ≠ x := by
  intro h
  have := congrArg List.length h
  simp only [List.length_append] at this
  exact hy (List.eq_nil_of_length_eq_zero (by omega))

/-- The lines of the name with `_count` in the block of a point. -/
private theorem count_in_body (ext : Ext F) (tags : TagMap) (q : Telemetry F) (b : List (Line F)) (hb : body ext tags q = some b)
    (l : List (Str × Str)) (v : Num F) :
    .sample (sanitize q.name ++ "_count".toList) l v ∈ b ↔ (q.kind = .histogram ∨ q.kind = .summarize) ∧ l = q.iterTags tags ∧ v = .real (F64.ofNat q.count) := by
  have hne := not_longer (sanitize q.name) "_count".toList (by decide)
  have htail : .sample (sanitize q.name ++ "_count".toList) l v ∈ tailLines (sanitize q.name) (q.iterTags tags) q ↔
      l = q.iterTags tags ∧ v = .real (F64.ofNat q.count) := by
    have hsum : ¬ sanitize q.name ++ "_count".toList = sanitize q.name ++ ['_', 's', 'u', 'm'] := by
      intro h; exact absurd (List.append_cancel_left h) (by decide)
    have hcount : "_count".toList = ['_', 'c', 'o', 'u', 'n', 't'] := by decide
    rw [hcount] at hsum ⊢
    simp only [tailLines, List.mem_cons, Line.sample.injEq, hsum, false_and, false_or, List.not_mem_nil, or_false, true_and]
  cases hv : q.value with
  | sum x =>
    simp only [body, hv, Option.some.injEq] at hb
    subst hb
    simp [Telemetry.kind, Value.kind, hv]
  | set x =>
    simp only [body, hv, Option.some.injEq] at hb
    subst hb
    simp [Telemetry.kind, Value.kind, hv]
  | histogram h =>
    simp only [body, hv, Option.some.injEq] at hb
    subst hb
    rw [List.mem_append, htail]
    simp only [Telemetry.kind, Value.kind, hv, true_or, true_and]
    exact or_iff_right fun hm => hne (bucket_named _ _ _ _ _ _ _ _ hm)
  | quantiles c x =>
    simp only [body, hv, Option.map_eq_some_iff] at hb
    obtain ⟨qs, hq, rfl⟩ := hb
    rw [List.mem_append, htail]
    simp only [Telemetry.kind, Value.kind, hv, or_true, true_and]
    exact or_iff_right fun hm => hne (quantile_named _ _ _ _ _ _ hq _ _ _ hm)

private theorem count_line (p : Setup F) (hcap : 1 ≤ p.capacity) (ops : List (Op F)) (hg : GoodOps ops) (hlen : ops.length < 2 ^ 64 - 1)
    (text : List (Line F)) (ht : Tells p ops text) (n : Str) (hown : Owns n (sanitize n ++ "_count".toList) ops) :
    (∀ l v, .sample (sanitize n ++ "_count".toList) l v ∈ text →
      ∃ t0 us, pointsOf n ops = t0 :: us ∧ (t0.kind = .summarize ∨ t0.kind = .histogram) ∧ v = .real (F64.ofNat (shownCount n ops))) ∧
    (∀ t0 us, pointsOf n ops = t0 :: us → t0.kind = .histogram → ∃ l v, .sample (sanitize n ++ "_count".toList) l v ∈ text) := by
  obtain ⟨a, now, order, pts, e, ho, hr, hk, hin, hout⟩ := tells_lines p hcap ops hg hlen text ht
  constructor
  · intro l v hm
    obtain ⟨q, hq, b, hb, hmem⟩ := hin _ _ _ hm
    obtain ⟨t0, ht0, hkq⟩ := hk q hq
    have hqn : q.name = n := owned hown ht0 hb hmem
    rw [← hqn] at hmem
    obtain ⟨hkind, -, hv⟩ := (count_in_body _ _ q b hb l v).1 hmem
    rw [hqn] at ht0
    cases hp : pointsOf n ops with
    | nil => rw [hp] at ht0; simp at ht0
    | cons t1 us =>
      rw [hp] at ht0
      simp only [List.head?_cons, Option.some.injEq] at ht0
      subst ht0
      rw [hkq] at hkind
      refine ⟨t1, us, rfl, hkind.symm, ?_⟩
      rw [hv]
      congr 2
      have hh : (pointsOf n ops).head? = some t1 := by rw [hp]; rfl
      by_cases hs : t1.kind = .summarize
      · obtain ⟨a', sum, count, samples, e', -, -, -, -, hrep⟩ := C50_window p.ext p.capacity hcap ops hg hlen n t1 hh hs
        rw [e, Option.some.injEq] at e'
        subst e'
        obtain ⟨pts', r', -, hc⟩ := hrep now order ho
        rw [hr, Option.some.injEq] at r'
        subst r'
        rw [(hc q hq hqn).1]
        simp only [shownCount, accepted, hp, hs, if_true, List.length_cons]
      · obtain ⟨a', ts, e', hacc, hrep⟩ := C75_kept_forever p.ext p.capacity hcap ops hg hlen n t1 hh hs
        rw [e, Option.some.injEq] at e'
        subst e'
        obtain ⟨pts', r', hc⟩ := hrep now order ho
        rw [hr, Option.some.injEq] at r'
        subst r'
        rw [(hc q).1 ⟨hq, hqn⟩]
        simp only [shownCount, hacc, if_neg hs]
  · intro t0 us hp hkind
    have hh : (pointsOf n ops).head? = some t0 := by rw [hp]; rfl
    obtain ⟨a', ts, e', hacc, hrep⟩ := C75_kept_forever p.ext p.capacity hcap ops hg hlen n t0 hh (by rw [hkind]; simp)
    rw [e, Option.some.injEq] at e'
    subst e'
    obtain ⟨pts', r', hc⟩ := hrep now order ho
    rw [hr, Option.some.injEq] at r'
    subst r'
    obtain ⟨hq, hqn⟩ := (hc _).2 rfl
    obtain ⟨b, hb, hall⟩ := hout _ hq
    obtain ⟨u, hu, hku⟩ := hk _ hq
    rw [hqn, hh, Option.some.injEq] at hu
    subst hu
    have := (count_in_body _ _ _ b hb _ _).2 ⟨.inl (by rw [hku]; exact hkind), rfl, rfl⟩
    rw [hqn] at this
    exact ⟨_, _, hall _ this⟩

/-- **C135** (counts) If no other name is cleaned up to it, the line that has the name with `_count`, of a histogram or of a summary,
shows a whole number, and no later scrape shows a smaller one, also when the window of the summary has moved on, or was empty in between.
For a histogram every later scrape shows one. -/
theorem C135_counts_grow [LawfulSketch F]
    (p : Setup F) (hcap : 1 ≤ p.capacity) (hage : ∀ a, p.ageThreshold = some a → a < 2 ^ 63) (bound : Bool) (ls : List (Scrape.Label F))
    (s : Scrape.State F) (h : Scrape.run p (.start p bound) ls = some s) (halive : s.sink ≠ .panicked)
    (hg : GoodOps (asked p.ageThreshold ls)) (hlen : ls.length < 2 ^ 64 - 1) (n : Str)
    (hown : Owns n (sanitize n ++ "_count".toList) (asked p.ageThreshold ls)) (i j r1 r2 : Nat) (text1 text2 : List (Line F)) (hij : i ≤ j)
    (h1 : s.answers[i]? = some (r1, some text1)) (h2 : s.answers[j]? = some (r2, some text2))
    (l1 : List (Str × Str)) (v1 : Num F) (hshown : .sample (sanitize n ++ "_count".toList) l1 v1 ∈ text1) :
    ∃ k1, v1 = .real (F64.ofNat k1) ∧
      (∀ l2 v2, .sample (sanitize n ++ "_count".toList) l2 v2 ∈ text2 → ∃ k2, k1 ≤ k2 ∧ v2 = .real (F64.ofNat k2)) ∧
      ((∀ t, .insert t ∈ asked p.ageThreshold ls → t.name = n → t.kind = .histogram) →
        ∃ l2 v2, .sample (sanitize n ++ "_count".toList) l2 v2 ∈ text2) := by
  obtain ⟨ops, rest, t1, t2, hsub, g1, g2, ln1, ln2⟩ := two_scrapes p hage bound ls s h halive hg hlen hij h1 h2
  have o2 : Owns n (sanitize n ++ "_count".toList) (ops ++ rest) := fun t ht => hown t (hsub _ ht)
  have o1 : Owns n (sanitize n ++ "_count".toList) ops := fun t ht => o2 t (by simp [ht])
  obtain ⟨t0, us, hp, hk, hv⟩ := (count_line p hcap ops g1 ln1 text1 t1 n o1).1 l1 v1 hshown
  have hp2 : pointsOf n (ops ++ rest) = t0 :: (us ++ pointsOf n rest) := by rw [Prometheus.pointsOf_append, hp]; rfl
  refine ⟨_, hv, fun l2 v2 hm => ?_, fun hall => ?_⟩
  · obtain ⟨-, -, -, -, hv2⟩ := (count_line p hcap _ g2 ln2 text2 t2 n o2).1 l2 v2 hm
    exact ⟨_, shown_grows n ops rest hp hk, hv2⟩
  · obtain ⟨m1, m2⟩ := mem_pointsOf (ops := ops) (n := n) (u := t0) (by rw [hp]; simp)
    exact (count_line p hcap _ g2 ln2 text2 t2 n o2).2 t0 _ hp2 (hall t0 (hsub _ (by simp [m1])) m2)

end

/-- a sink for the examples -/
def growthSetup : Setup Int :=
  { ext := promExt, tags := [(['h'], ['1'])], ageThreshold := none, capacity := 5 }

/-- a histogram for the examples -/
private def growthHist (v : Int) : Telemetry Int := ⟨"l".toList, .histogram (⟨[1, 10], [v]⟩ : IHist), false, none, 1, none, none⟩

/-- a request that is answered -/
def growthScrape (order : List Nat) : List (Scrape.Label Int) := [.request, .poll, .recv, .tryLock, .write 9 order]

/-- A counter, a histogram and two samples of a summary; a scrape; more of the counter and the histogram, and a flush after which the
window of the summary is empty; a scrape; one more sample; a scrape. -/
private def growthRun : List (Scrape.Label Int) :=
  [.deliver 1 (promPoint "c" none 2), .finish, .deliver 1 (growthHist 3), .finish, .deliver 1 (promSummary 1 1), .finish, .deliver 2 (promSummary 5 2), .finish] ++ growthScrape [0, 1, 2] ++
    [.deliver 3 (promPoint "c" none 4), .finish, .deliver 3 (growthHist 30), .finish, .flush 100, .finish] ++ growthScrape [2, 1, 0] ++
    [.deliver 101 (promSummary 7 101), .finish] ++ growthScrape [0, 2, 1]

/-- the numbers shown under a name -/
def growthReals (x : String) (ls : List (Line Int)) : List Int := (samplesNamed x.toList ls).filterMap fun e => match e.2 with
  | .real v => some v
  | .nat _ => none

private def growthPoints : List (Telemetry Int) :=
  [promPoint "c" none 2, growthHist 3, promSummary 1 1, promSummary 5 2, promPoint "c" none 4, growthHist 30, promSummary 7 101]

private theorem growth_asked : asked none growthRun = (growthPoints.take 6).map Op.insert ++ [.purge 100] ++ (growthPoints.drop 6).map Op.insert := rfl

private theorem growth_mem (t : Telemetry Int) (h : .insert t ∈ asked none growthRun) : t ∈ growthPoints := by
  rw [growth_asked] at h
  simp [growthPoints] at h
  simp [growthPoints, h]

example : GoodOps (asked growthSetup.ageThreshold growthRun) ∧
    (∀ n, n = "c".toList ∨ n = "l".toList ∨ n = "s".toList → Owns n (sanitize n) (asked growthSetup.ageThreshold growthRun) ∧
      Owns n (sanitize n ++ "_count".toList) (asked growthSetup.ageThreshold growthRun)) ∧
    (∀ t, .insert t ∈ asked growthSetup.ageThreshold growthRun → t.name = "c".toList → t.tags = none ∧ ∃ v, t.value = .sum v ∧ (0 : Int) ≤ v) ∧
    (∀ t, .insert t ∈ asked growthSetup.ageThreshold growthRun → t.name = "l".toList → t.kind = .histogram) ∧
    (∀ a b : Int, 0 ≤ a → 0 ≤ b → 0 ≤ F64.add a b ∧ a ≤ F64.add a b) := by
  refine ⟨fun t ht hk => ?_, fun n hn => ⟨fun t ht hne => ?_, fun t ht hne => ?_⟩, fun t ht hn => ?_, fun t ht hn => ?_, fun a b ha hb => ?_⟩
  · have := growth_mem t ht
    simp only [growthPoints, List.mem_cons, List.not_mem_nil, or_false] at this
    rcases this with rfl | rfl | rfl | rfl | rfl | rfl | rfl
    · cases hk
    · cases hk
    · exact ⟨1, rfl⟩
    · exact ⟨5, rfl⟩
    · cases hk
    · cases hk
    · exact ⟨7, rfl⟩
  · have := growth_mem t ht
    have key : ∀ n ∈ ["c".toList, "l".toList, "s".toList], ∀ t ∈ growthPoints, t.name ≠ n →
      sanitize n ≠ sanitize t.name ∧ sanitize n ≠ sanitize t.name ++ "_sum".toList ∧ sanitize n ≠ sanitize t.name ++ "_count".toList := by
      decide +kernel
    exact key n (by simpa using hn) t this hne
  · have := growth_mem t ht
    have key : ∀ n ∈ ["c".toList, "l".toList, "s".toList], ∀ t ∈ growthPoints, t.name ≠ n →
      sanitize n ++ "_count".toList ≠ sanitize t.name ∧ sanitize n ++ "_count".toList ≠ sanitize t.name ++ "_sum".toList ∧
        sanitize n ++ "_count".toList ≠ sanitize t.name ++ "_count".toList := by
      decide +kernel
    exact key n (by simpa using hn) t this hne
  · have := growth_mem t ht
    simp only [growthPoints, List.mem_cons, List.not_mem_nil, or_false] at this
    rcases this with rfl | rfl | rfl | rfl | rfl | rfl | rfl
    · exact ⟨rfl, 2, rfl, by decide⟩
    · exact absurd hn (by decide)
    · exact absurd hn (by decide)
    · exact absurd hn (by decide)
    · exact ⟨rfl, 4, rfl, by decide⟩
    · exact absurd hn (by decide)
    · exact absurd hn (by decide)
  · have := growth_mem t ht
    have key : ∀ t ∈ growthPoints, t.name = "l".toList → t.kind = .histogram := by decide +kernel
    exact key t this hn
  · show 0 ≤ a + b ∧ a ≤ a + b
    omega

example : ∃ s, Scrape.run growthSetup (.start growthSetup true) growthRun = some s ∧ s.sink = .idle ∧
    s.answers.map (fun x => x.2.map fun ls => (growthReals "c" ls, growthReals "l_count" ls, growthReals "s_count" ls)) =
      [some ([2], [1], [2]), some ([6], [2], []), some ([6], [2], [3])] :=
  ⟨_, rfl, rfl, by decide +kernel⟩

/-- A counter does go down if it is given a negative number, which statsd and graphite sources let through. -/
theorem C135_negative_false : ∃ s, Scrape.run growthSetup (.start growthSetup true)
    ([.deliver 1 (promPoint "c" none 5), .finish] ++ growthScrape [0] ++ [.deliver 2 (promPoint "c" none (-3)), .finish] ++ growthScrape [0]) = some s ∧
    s.answers.map (fun x => x.2.map (growthReals "c")) = [some [5], some [2]] :=
  ⟨_, rfl, by decide +kernel⟩

end Verif
