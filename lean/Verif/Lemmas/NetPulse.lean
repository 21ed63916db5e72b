import Verif.Lemmas.NetFlow
namespace Verif
namespace Net
open Pipeline (FilterCode after)
open Topology
variable {F : Type} [F64 F] {p : Setup F} {ls : Nat → Label F}

/-! ## Numbers that go up -/

theorem records_append (a b : List Nat) (last : Nat) : records last (a ++ b) = records last a ++ records (a.foldl max last) b := by
  induction a generalizing last with
  | nil => rfl
  | cons x a ih =>
    by_cases h : last < x
    · have hm : max last x = x := by omega
      simp [records, h, ih, hm]
    · have hm : max last x = last := by omega
      simp [records, h, ih, hm]

theorem records_prefix {a b : List Nat} (h : a <+: b) (last : Nat) : records last a <+: records last b := by
  obtain ⟨c, rfl⟩ := h
  rw [records_append]; exact List.prefix_append _ _

theorem records_max (a : List Nat) (last : Nat) : (records last a).foldl max last = a.foldl max last := by
  induction a generalizing last with
  | nil => rfl
  | cons x a ih =>
    by_cases h : last < x
    · have hm : max last x = x := by omega
      simp [records, h, ih, hm]
    · have hm : max last x = last := by omega
      simp [records, h, ih, hm]

theorem range_max (k : Nat) : (List.range' 1 k).foldl max 0 = k := by
  induction k with
  | zero => rfl
  | succ k ih => rw [List.range'_concat, List.foldl_append, ih]; simp; omega

theorem prefix_range {l : List Nat} {k : Nat} (h : l <+: List.range' 1 k) : l = List.range' 1 l.length := by
  apply List.ext_getElem
  · simp
  · intro i h1 h2
    rw [h.getElem h1]
    simp

theorem pulses_append (a b : List (Event F)) : pulses (a ++ b) = pulses a ++ pulses b := by simp [pulses]

theorem pulses_prefix {a b : List (Event F)} (h : a <+: b) : pulses a <+: pulses b := by
  obtain ⟨c, rfl⟩ := h
  rw [pulses_append]; exact List.prefix_append _ _

theorem keep_all {α : Type} {full : Nat → Bool} {k : Nat} {a : List α} (h : spill full k a = []) : keep full k a = a := by
  have := keep_spill_parted full a k
  rw [h] at this
  exact this.none_dropped

/-! ## The pulses in a queue -/

/-- The queue of a node that sources feed has the pulses of the timer. -/
theorem first_pulses {c : Config} (hd : Distinct c) (hp : SetUp c p) {number : Nat → Nat} (ht : Ticks ls number) (hs : ∀ t, ls t ≠ .signal) {first : Str}
    (hc : HasChannel c first) (honly : ∀ u, Forwards c u first → u ∈ (c.natives ++ c.sources).map (·.1)) (hfed : ∃ u, Forwards c u first)
    (hroom : ∀ t, (run p ls t).lost first = []) (t : Nat) :
    records 0 (pulses (((run p ls t).log first).map (·.2))) = List.range' 1 (number t) := by
  have hw := hp.wired
  obtain ⟨w1, w2, w3, -, w5, w6, -, w7⟩ := C57_mutual c hd _ hw
  obtain ⟨-, -, -, -, n5, n6⟩ := names hd hw
  have h0 := some_of_channel hd hw hc
  induction t with
  | zero => rw [ht.start]; rfl
  | succ t ih =>
    have hlog : ((run p ls (t + 1)).log first).map (·.2) = ((run p ls t).log first).map (·.2) ++ offered p (run p ls t) (ls t) first := by
      have hk : arrive p (run p ls t) (ls t) first = offered p (run p ls t) (ls t) first := by
        apply keep_all
        have := hroom (t + 1)
        rw [lost_succ h0] at this
        have := (List.append_eq_nil_iff.1 this).2
        exact List.map_eq_nil_iff.1 this
      rw [log_succ h0, hk]
      simp [Function.comp_def]
    rw [hlog, pulses_append, records_append, ih, ← records_max, ih, range_max]
    by_cases hl : ∃ idx, ls t = .pulse idx
    · obtain ⟨idx, hl⟩ := hl
      obtain ⟨e1, e2⟩ := ht.pulse t idx hl
      obtain ⟨u, hu⟩ := hfed
      have hmem : first ∈ p.wiring.flush := (w7 first).2 ⟨u, honly u hu, hu⟩
      obtain ⟨m, hm⟩ : ∃ m, p.wiring.flush.count first = m + 1 := by
        have := List.count_pos_iff.2 hmem
        exact ⟨p.wiring.flush.count first - 1, by omega⟩
      have hrep : ∀ m, records idx (List.replicate m idx) = [] := by
        intro m
        induction m with
        | zero => rfl
        | succ m ih => simp [List.replicate_succ, records, ih]
      have hpul : pulses (List.replicate (m + 1) (Event.timerFlush idx : Event F)) = List.replicate (m + 1) idx := by
        simp [pulses, List.filterMap_replicate, Event.flushIdx]
      rw [hl, e2, List.range'_concat]
      simp only [offered, hm]
      rw [hpul]
      simp only [List.replicate_succ, records]
      rw [if_pos (by omega), hrep, e1]
      simp; omega
    · have hn := ht.other t fun idx h => hl ⟨idx, h⟩
      rw [hn]
      suffices h : pulses (offered p (run p ls t) (ls t) first) = [] by rw [h]; simp [records]
      cases hlt : ls t with
      | act m now =>
        simp only [offered]
        cases hm : (run p ls t).nodes m with
        | none => rfl
        | some nd =>
          rcases node_of t hm with ⟨ups, ch, q, r, h1, rfl⟩ | ⟨ups, r, h1, rfl⟩
          · have hch : ch.count first = 0 := by
              rw [List.count_eq_zero]
              intro hcm
              exact absurd (List.mem_map.2 ⟨_, h1, rfl⟩) (n5 m (w3 ▸ honly m (((w5 m ups ch h1).2.2 first).1 hcm)))
            simp [Node.channels, hch, pulses]
          · simp [Node.act, pulses]
      | emit i e =>
        simp only [offered]
        split
        · rfl
        · split
          · rename_i hsv
            have : e.flushIdx = none := by
              have := hsv.1
              cases e <;> simp_all [Event.isServed, Event.flushIdx]
            simp [pulses, List.filterMap_replicate, this]
          · rfl
      | pulse idx => exact absurd ⟨idx, hlt⟩ hl
      | stop i =>
        simp only [offered]
        split
        · rfl
        · split
          · simp [pulses, List.filterMap_replicate, Event.flushIdx]
          · rfl
      | signal => exact absurd hlt (hs t)
      | main => rfl

theorem ticks_mono {number : Nat → Nat} (ht : Ticks ls number) {t u : Nat} (h : t ≤ u) : number t ≤ number u := by
  induction h with
  | refl => exact Nat.le_refl _
  | @step u _ ih =>
    by_cases hl : ∃ idx, ls u = .pulse idx
    · obtain ⟨idx, hl⟩ := hl
      have := (ht.pulse u idx hl).2
      show number t ≤ number (u + 1)
      omega
    · have := ht.other u fun idx h => hl ⟨idx, h⟩
      show number t ≤ number (u + 1)
      omega

theorem ticks_on {number : Nat → Nat} (ht : Ticks ls number) (k : Nat) : ∃ t, k ≤ number t := by
  induction k with
  | zero => exact ⟨0, Nat.zero_le _⟩
  | succ k ih =>
    obtain ⟨t, h⟩ := ih
    obtain ⟨u, hu, idx, hl⟩ := ht.next t
    have := (ht.pulse u idx hl).2
    have := ticks_mono ht hu
    exact ⟨u + 1, by omega⟩

/-- A filter passes pulses on if every step does: `I st last` says that the filter is in state `st` when the highest number so far is `last`. -/
theorem passesOf {f : FilterCode F} (I : f.σ → Nat → Prop) (hst : I f.start 0)
    (hstep : ∀ now st last e, I st last → e.isShutdown = false →
      I (f.process now st e []).1 ((pulses [e]).foldl max last) ∧
      ((f.process now st e []).2.2 = .ok () → records last (pulses (f.process now st e []).2.1) = records last (pulses [e])) ∧
      ∀ fe, (f.process now st e []).2.2 = .error fe → records last (pulses [fe]) = records last (pulses [e])) : PassesPulses f := by
  intro ins
  have key : ∀ (st : f.σ) (last : Nat), I st last → (∀ i ∈ ins, i.2.isShutdown = false) →
      records last (pulses (expectedSent f.process st (ins.map some))) = records last (pulses (ins.map (·.2))) := by
    induction ins with
    | nil => intro st last _ _; rfl
    | cons i ins ih =>
      obtain ⟨now, ev⟩ := i
      intro st last hI hn
      have hev := hn _ List.mem_cons_self
      obtain ⟨h1, h2, h3⟩ := hstep now st last ev hI hev
      have ih' := ih _ _ h1 (fun i hi => hn i (List.mem_cons_of_mem _ hi))
      rw [List.map_cons, expectedSent_event _ _ _ _ hev, List.map_cons, ← List.singleton_append (l := ins.map _), pulses_append, records_append]
      have done : ∀ (sent : List (Event F)) (rest : List (Event F)), records last (pulses sent) = records last (pulses [ev]) →
          records ((pulses [ev]).foldl max last) (pulses rest) = records ((pulses [ev]).foldl max last) (pulses (ins.map (·.2))) →
          records last (pulses (sent ++ rest)) = records last (pulses [ev]) ++ records ((pulses [ev]).foldl max last) (pulses (ins.map (·.2))) := by
        intro sent rest e1 e2
        rw [pulses_append, records_append, ← records_max (pulses sent), e1, records_max, e2]
      rcases hq : f.process now st ev [] with ⟨st', out, res⟩
      rw [hq] at h1 h2 h3 ih'
      cases res with
      | ok u => exact done _ _ (h2 rfl) ih'
      | error fe => exact done [fe] _ (h3 fe rfl) ih'
  exact key f.start 0 hst

/-- Whatever a sink was given before a pulse at which it was flushed has been written. -/
theorem flushed_induction {κ : Type} (k : SinkImpl F κ) (P W : κ → List (Event F) → Prop)
    (hd : ∀ s d t, P s d → k.valveOpen s = true → P (k.deliver s t) (d ++ [.telemetry t]))
    (hl : ∀ s d t, P s d → k.valveOpen s = true → P (k.deliverLine s t) (d ++ [.log t]))
    (hr : ∀ s d t, P s d → k.valveOpen s = true → P (k.deliverRaw s t) (d ++ [.raw t]))
    (hf : ∀ s d, P s d → P (k.flush s) d) (hw : ∀ s d, P s d → W (k.flush s) d)
    (wd : ∀ s d t, W s d → W (k.deliver s t) d) (wl : ∀ s d t, W s d → W (k.deliverLine s t) d) (wr : ∀ s d t, W s d → W (k.deliverRaw s t) d)
    (wf : ∀ s d, W s d → W (k.flush s) d) (ws : ∀ s d, W s d → W (k.shutdown s) d)
    (sources n : Nat) (st : κ) (hst : P st []) (recv : List (Option (Event F))) :
    let r := SinkRun.steps k sources n { state := st, queue := recv }
    ∀ before s idx after, r.calls = before ++ .pulseFlush s idx :: after → W r.state (deliveredBy before) := by
  have snoc : ∀ {cs before after : List (SinkCall F κ)} {c : SinkCall F κ} {s idx}, cs ++ [c] = before ++ .pulseFlush s idx :: after →
      (before = cs ∧ c = .pulseFlush s idx) ∨ ∃ after', cs = before ++ .pulseFlush s idx :: after' := by
    intro cs before after c s idx h
    rcases List.eq_nil_or_concat after with rfl | ⟨after', x, rfl⟩
    · have := List.append_inj' h rfl
      exact .inl ⟨this.1.symm, by simpa using this.2⟩
    · rw [List.concat_eq_append, ← List.cons_append, ← List.append_assoc] at h
      exact .inr ⟨after', (List.append_inj' h rfl).1⟩
  have key : ∀ (n : Nat) (r : SinkRun F κ),
      ((r.returned = false → P r.state (deliveredBy r.calls)) ∧
        ∀ before s idx after, r.calls = before ++ .pulseFlush s idx :: after → W r.state (deliveredBy before)) →
      ∀ before s idx after, (r.steps k sources n).calls = before ++ .pulseFlush s idx :: after → W (r.steps k sources n).state (deliveredBy before) := by
    intro n
    induction n with
    | zero => intro r h; exact h.2
    | succ n ih =>
      intro r h
      refine ih _ ?_
      cases hret : r.returned with
      | true =>
        have : r.step k sources = r := by simp [SinkRun.step, hret]
        rw [this]; exact h
      | false =>
        have hP := h.1 hret
        simp only [SinkRun.step, hret, Bool.false_eq_true, if_false]
        cases hc : r.current with
        | none =>
          simp only
          split
          · exact h
          · exact ⟨fun _ => hP, h.2⟩
          · exact ⟨fun _ => hP, h.2⟩
        | some e =>
          simp only
          by_cases hv : k.valveOpen r.state = true
          · rw [if_pos hv]
            cases e with
            | timerFlush idx =>
              simp only [SinkRun.handle]
              split
              · split
                · split
                  · refine ⟨fun _ => by simpa [deliveredBy] using hf _ _ hP, ?_⟩
                    intro before s i after hcs
                    rcases snoc hcs with ⟨rfl, -⟩ | ⟨after', hcs⟩
                    · exact hw _ _ hP
                    · exact wf _ _ (h.2 _ _ _ _ hcs)
                  · exact ⟨fun _ => hP, h.2⟩
                · exact ⟨fun _ => hP, h.2⟩
              · exact ⟨fun _ => hP, h.2⟩
            | telemetry m =>
              simp only [SinkRun.handle]
              refine ⟨fun _ => by simpa [deliveredBy] using hd _ _ m hP hv, ?_⟩
              intro before s i after hcs
              rcases snoc hcs with ⟨-, hx⟩ | ⟨after', hcs⟩
              · cases hx
              · exact wd _ _ _ (h.2 _ _ _ _ hcs)
            | log m =>
              simp only [SinkRun.handle]
              refine ⟨fun _ => by simpa [deliveredBy] using hl _ _ m hP hv, ?_⟩
              intro before s i after hcs
              rcases snoc hcs with ⟨-, hx⟩ | ⟨after', hcs⟩
              · cases hx
              · exact wl _ _ _ (h.2 _ _ _ _ hcs)
            | raw m =>
              simp only [SinkRun.handle]
              refine ⟨fun _ => by simpa [deliveredBy] using hr _ _ m hP hv, ?_⟩
              intro before s i after hcs
              rcases snoc hcs with ⟨-, hx⟩ | ⟨after', hcs⟩
              · cases hx
              · exact wr _ _ _ (h.2 _ _ _ _ hcs)
            | shutdown =>
              simp only [SinkRun.handle]
              split
              · refine ⟨by simp, ?_⟩
                intro before s i after hcs
                rcases snoc hcs with ⟨-, hx⟩ | ⟨after', hcs⟩
                · cases hx
                · exact ws _ _ (h.2 _ _ _ _ hcs)
              · exact ⟨fun _ => hP, h.2⟩
          · rw [if_neg hv]
            refine ⟨fun _ => by simpa [deliveredBy] using hf _ _ hP, ?_⟩
            intro before s i after hcs
            rcases snoc hcs with ⟨-, hx⟩ | ⟨after', hcs⟩
            · cases hx
            · exact wf _ _ (h.2 _ _ _ _ hcs)
  refine key n _ ⟨fun _ => hst, ?_⟩
  intro before s idx after h
  simp at h

end Net
end Verif
