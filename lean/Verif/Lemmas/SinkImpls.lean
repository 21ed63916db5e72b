import Verif.Spec.SinkImpls
import Verif.Lemmas.Sink
import Verif.Lemmas.Buckets
namespace Verif
section
variable {F : Type} [F64 F] {σ : Type}

/-- Induction over the run-loop: `P` relates the sink to what it was given, `Q` holds after shutdown. -/
theorem SinkRun.induction (k : SinkImpl F σ) (P Q : σ → List (Event F) → Prop)
    (hd : ∀ s d t, P s d → k.valveOpen s = true → P (k.deliver s t) (d ++ [.telemetry t]))
    (hl : ∀ s d t, P s d → k.valveOpen s = true → P (k.deliverLine s t) (d ++ [.log t]))
    (hr : ∀ s d t, P s d → k.valveOpen s = true → P (k.deliverRaw s t) (d ++ [.raw t]))
    (hf : ∀ s d, P s d → P (k.flush s) d)
    (hs : ∀ s d, P s d → k.valveOpen s = true → Q (k.shutdown s) d)
    (sources n : Nat) (st : σ) (hst : P st []) (recv : List (Option (Event F))) :
    let r := SinkRun.steps k sources n { state := st, queue := recv }
    (r.returned = false → P r.state (deliveredBy r.calls)) ∧
    (r.returned = true → Q r.state (deliveredBy r.calls)) := by
  have key : ∀ (n : Nat) (r : SinkRun F σ),
      ((r.returned = false → P r.state (deliveredBy r.calls)) ∧
        (r.returned = true → Q r.state (deliveredBy r.calls))) →
      (((r.steps k sources n).returned = false →
          P (r.steps k sources n).state (deliveredBy (r.steps k sources n).calls)) ∧
        ((r.steps k sources n).returned = true →
          Q (r.steps k sources n).state (deliveredBy (r.steps k sources n).calls))) := by
    intro n
    induction n with
    | zero => intro r h; exact h
    | succ n ih =>
      intro r h
      refine ih _ ?_
      cases hret : r.returned with
      | true =>
        have : r.step k sources = r := by simp [SinkRun.step, hret]
        rw [this]; exact h
      | false =>
        have hP := h.1 hret
        simp only [SinkRun.step, hret, Bool.false_eq_true, if_false]
        cases hc : r.current with
        | none =>
          simp only
          split
          · exact h
          · exact ⟨fun _ => hP, by simp [hret]⟩
          · exact ⟨fun _ => hP, by simp [hret]⟩
        | some e =>
          simp only
          by_cases hv : k.valveOpen r.state = true
          · rw [if_pos hv]
            cases e with
            | timerFlush idx =>
              simp only [SinkRun.handle]
              split
              · split
                · split
                  · exact ⟨fun _ => by simpa [deliveredBy] using hf _ _ hP, by simp [hret]⟩
                  · exact ⟨fun _ => hP, by simp [hret]⟩
                · exact ⟨fun _ => hP, by simp [hret]⟩
              · exact ⟨fun _ => hP, by simp [hret]⟩
            | telemetry t =>
              exact ⟨fun _ => by simpa [SinkRun.handle, deliveredBy] using hd _ _ t hP hv,
                by simp [SinkRun.handle, hret]⟩
            | log t =>
              exact ⟨fun _ => by simpa [SinkRun.handle, deliveredBy] using hl _ _ t hP hv,
                by simp [SinkRun.handle, hret]⟩
            | raw t =>
              exact ⟨fun _ => by simpa [SinkRun.handle, deliveredBy] using hr _ _ t hP hv,
                by simp [SinkRun.handle, hret]⟩
            | shutdown =>
              simp only [SinkRun.handle]
              split
              · exact ⟨by simp, fun _ => by simpa [deliveredBy] using hs _ _ hP hv⟩
              · exact ⟨fun _ => hP, by simp [hret]⟩
          · rw [if_neg hv]
            exact ⟨fun _ => by simpa [deliveredBy] using hf _ _ hP, by simp [hret]⟩
  exact key n _ ⟨fun _ => hst, by simp⟩

/-- A weaker form: one predicate on the state throughout. -/
theorem SinkRun.always (k : SinkImpl F σ) (P : σ → Prop)
    (hd : ∀ s t, P s → k.valveOpen s = true → P (k.deliver s t))
    (hl : ∀ s t, P s → k.valveOpen s = true → P (k.deliverLine s t))
    (hr : ∀ s t, P s → k.valveOpen s = true → P (k.deliverRaw s t))
    (hf : ∀ s, P s → P (k.flush s)) (hs : ∀ s, P s → k.valveOpen s = true → P (k.shutdown s))
    (sources n : Nat) (st : σ) (hst : P st) (recv : List (Option (Event F))) :
    P (SinkRun.steps k sources n { state := st, queue := recv }).state := by
  have h := SinkRun.induction k (fun s _ => P s) (fun s _ => P s) (fun s _ t => hd s t)
    (fun s _ t => hl s t) (fun s _ t => hr s t) (fun s _ => hf s) (fun s _ => hs s) sources n st hst recv
  simp only at h
  cases hret : (SinkRun.steps k sources n { state := st, queue := recv }).returned with
  | false => exact h.1 hret
  | true => exact h.2 hret

/-- When the sink has returned, what it was given is what arrived before the first `Shutdown`. -/
theorem delivered_at_return (k : SinkImpl F σ) (iv : Option Nat) (hiv : ∀ s, k.flushInterval s = iv)
    (sources n : Nat) (st : σ) (recv : List (Option (Event F)))
    (hret : (SinkRun.steps k sources n { state := st, queue := recv }).returned = true) :
    deliveredBy (SinkRun.steps k sources n { state := st, queue := recv }).calls =
      (untilShutdown (arrivals recv)).filter Event.isPayload := by
  obtain ⟨c, h⟩ := (SinkInv.init k iv st recv).steps hiv sources n
  obtain ⟨hc, -⟩ := h.ret hret
  have hs := h.split
  rw [hc] at hs
  rw [h.delivered, hs]
  congr 1
  simp only [untilShutdown, Option.toList, List.append_assoc]
  rw [List.takeWhile_append_of_pos (by intro e he; simp [h.noShutdown e he])]
  simp [Event.isShutdown]

end

/-! ## Elasticsearch -/

theorem Elastic.onItem_length {limit : Nat} {b b' : List Elastic.Line} {it : Elastic.Item}
    (h : Elastic.onItem limit b it = some b') : b'.length ≤ b.length := by
  simp only [Elastic.onItem] at h
  split at h
  · simp at h
  · split at h
    · simp at h
    · split at h
      · simp only [Option.some.injEq] at h; subst h
        rw [List.length_eraseIdx]; split <;> omega
      · simp only [Option.some.injEq] at h; subst h
        split
        · rw [List.length_eraseIdx]; split <;> simp <;> omega
        · simp

theorem Elastic.onItems_length {limit : Nat} (its : List Elastic.Item) {b b' : List Elastic.Line}
    (h : Elastic.onItems limit b its = some b') : b'.length ≤ b.length := by
  induction its generalizing b with
  | nil => simp only [Elastic.onItems, Option.some.injEq] at h; subst h; exact Nat.le_refl _
  | cons it its ih =>
    simp only [Elastic.onItems] at h
    split at h
    · simp at h
    · rename_i b1 h1
      exact Nat.le_trans (ih h) (Elastic.onItem_length h1)

theorem Elastic.flush_length {ext : Elastic.Ext} {s s' : Elastic.State} {r : Elastic.Response} {o}
    (h : Elastic.flush ext s r = some (s', o)) : s'.buffer.length ≤ s.buffer.length := by
  simp only [Elastic.flush] at h
  split at h
  · simp only [Option.some.injEq, Prod.mk.injEq] at h; rw [← h.1]; exact Nat.le_refl _
  · split at h
    · simp at h
    · split at h
      · simp only [Option.some.injEq, Prod.mk.injEq] at h; rw [← h.1]; exact Nat.le_refl _
      · simp only [Option.some.injEq, Prod.mk.injEq] at h; rw [← h.1]; exact Nat.le_refl _
      · split at h
        · simp at h
        · rename_i b hb
          simp only [Option.some.injEq, Prod.mk.injEq] at h
          rw [← h.1]
          exact Elastic.onItems_length _ hb

/-! ## Wavefront and console: the bucket store -/

section
variable {F : Type} [F64 F]

/-- A bucket store whose counter is right and that holds at most `n` points. -/
structure Few (b : Buckets F) (n : Nat) : Prop where
  wf : Buckets.Wf b
  width : b.binWidth ≠ 0
  count : b.count = b.values.flatten.length
  few : b.values.flatten.length ≤ n

theorem Few.add {b b' : Buckets F} {n : Nat} (h : Few b n) (hn : n < 2 ^ 64 - 1) {hash now t}
    (ha : b.add hash now t = some b') : Few b' (n + 1) := by
  obtain ⟨b2, kp, kq, vp, vq, row, row', ins, h1, h2, h3⟩ := Buckets.add_total hash now b t h.wf h.width
  rw [ha] at h1
  simp only [Option.some.injEq] at h1
  subst h1
  obtain ⟨f1, f2⟩ := h2.flatten
  have hl := h3.length
  have hc := h.count
  have hf := h.few
  have hlen : b'.values.flatten.length = b.values.flatten.length + (if ins then 1 else 0) := by
    rw [f1, f2]; simp only [List.length_append, hl]; split <;> omega
  refine ⟨h2.wf, by rw [h2.width']; exact h.width, ?_, ?_⟩
  · rw [h2.count', hlen, hc]
    cases ins with
    | false => rfl
    | true => simp only [if_true]; simp only [satAdd, u64Max]; omega
  · rw [hlen]; split <;> omega

theorem Few.reset {b : Buckets F} {n : Nat} (h : Few b n) (hn : n < 2 ^ 64 - 1) (now : Int) :
    Few (b.reset now) n := by
  have hf := h.few
  obtain ⟨h1, h2⟩ := Buckets.reset_count now b (by simp only [u64Max]; omega)
  exact ⟨h.wf.reset now, h.width, h1, by omega⟩

theorem Few.mono {b : Buckets F} {n m : Nat} (h : Few b n) (hn : n ≤ m) : Few b m :=
  ⟨h.wf, h.width, h.count, Nat.le_trans h.few hn⟩

end
end Verif
