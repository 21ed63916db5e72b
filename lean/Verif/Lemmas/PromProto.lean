import Verif.Lemmas.Proto
import Verif.Spec.PromProto
/-! # Lemmas about the Prometheus messages -/
namespace Verif.PromProto
open Proto
variable {α β : Type} {step : Nat → Nat → α → Bytes → Option (α × Bytes)}

theorem u64_lt (v : UInt64) : v.toNat < 18446744073709551616 := v.toNat_lt

theorem double_steps {g : α → α} (f : Nat) (v : UInt64) (hf : f < 16) (h0 : 0 < f)
    (h : ∀ a bs r, readDouble bs = some (v, r) → step f 1 a bs = some (g a, r)) : Steps step (putDouble f v) g :=
  Steps.field (by omega) h0 (by omega) fun a rest => h a _ rest (readDouble_append v rest)

theorem u64_steps {g : α → α} (f : Nat) (v : UInt64) (hf : f < 16) (h0 : 0 < f)
    (h : ∀ a bs r, readU64 bs = some (v, r) → step f 0 a bs = some (g a, r)) : Steps step (putU64 f v) g :=
  Steps.field (by omega) h0 (by omega) fun a rest => h a _ rest (by
    rw [readU64, readVarint_varint _ rest (u64_lt v)]; simp)

theorem double_length (f : Nat) (v : UInt64) (hf : f < 16) : (putDouble f v).length = 9 := by
  rw [putDouble, List.length_append, putTag_length f 1 hf (by omega), leBytes_length]

theorem u64_length (f : Nat) (v : UInt64) (hf : f < 16) : (putU64 f v).length = u64Size v := by
  rw [putU64, List.length_append, putTag_length f 0 hf (by omega), varint64_length _ (u64_lt v)]; rfl

/-- What a kind of message needs to be nested in another: it is read back as written, and its size is right. -/
structure Codec (step : Nat → Nat → β → Bytes → Option (β × Bytes)) (empty : β) (size : β → Nat) (write : β → Bytes) (x : β) : Prop where
  read : (write x).length < 4294967296 → mergeLoop step ((write x).length + 1) empty (write x) = some x
  length : (write x).length < 4294967296 → (write x).length = size x

theorem readMsg_append {istep : Nat → Nat → β → Bytes → Option (β × Bytes)} {empty : β} {size : β → Nat} {write : β → Bytes} {x : β}
    (hc : Codec istep empty size write x) (hl : (write x).length < 4294967296) (rest : Bytes) :
    readMsg istep empty (varint (size x) ++ write x ++ rest) = some (x, rest) := by
  have := hc.length hl
  rw [readMsg, List.append_assoc, readDelimited_append (size x) (write x) rest this (by omega)]
  simp only [Option.bind_some, hc.read hl, Option.map_some]

theorem msg_steps {istep : Nat → Nat → β → Bytes → Option (β × Bytes)} {empty : β} {size : β → Nat} {write : β → Bytes} {x : β}
    (hc : Codec istep empty size write x) {g : α → α} (f : Nat) (hf : f < 16) (h0 : 0 < f)
    (hl : (putMsg size write f x).length < 4294967296)
    (h : ∀ a bs r, readMsg istep empty bs = some (x, r) → step f 2 a bs = some (g a, r)) : Steps step (putMsg size write f x) g := by
  rw [putMsg, List.append_assoc]
  simp only [putMsg, List.length_append] at hl
  exact Steps.field (by omega) h0 (by omega) fun a rest => h a _ rest (readMsg_append hc (by omega) rest)

theorem msg_length {istep : Nat → Nat → β → Bytes → Option (β × Bytes)} {empty : β} {size : β → Nat} {write : β → Bytes} {x : β}
    (hc : Codec istep empty size write x) (f : Nat) (hf : f < 16) (hl : (putMsg size write f x).length < 4294967296) :
    (putMsg size write f x).length = msgSize size x := by
  simp only [putMsg, List.length_append] at hl
  have := hc.length (by omega)
  rw [putMsg, List.length_append, List.length_append, putTag_length f 2 hf (by omega), varint_length _ (by omega), this]; rfl

theorem msgs_steps {istep : Nat → Nat → β → Bytes → Option (β × Bytes)} {empty : β} {size : β → Nat} {write : β → Bytes}
    (g : List β → α → α) (hg0 : ∀ a, g [] a = a) (hg : ∀ x l a, g l (g [x] a) = g (x :: l) a) (f : Nat) (hf : f < 16) (h0 : 0 < f)
    (h : ∀ x a bs r, readMsg istep empty bs = some (x, r) → step f 2 a bs = some (g [x] a, r)) :
    ∀ l : List β, (∀ x ∈ l, Codec istep empty size write x) → (l.flatMap (putMsg size write f)).length < 4294967296 →
      Steps step (l.flatMap (putMsg size write f)) (g l) := by
  intro l
  induction l with
  | nil => intro _ _; rw [show g [] = id from funext hg0]; exact Steps.nil
  | cons x l ih =>
    intro hc hl
    rw [List.flatMap_cons, List.length_append] at hl
    rw [List.flatMap_cons]
    have := (msg_steps (hc x (by simp)) f hf h0 (by omega) (h x)).append (ih (fun y hy => hc y (by simp [hy])) (by omega))
    rw [show g l ∘ g [x] = g (x :: l) from funext fun a => hg x l a] at this
    exact this

theorem msgs_length {istep : Nat → Nat → β → Bytes → Option (β × Bytes)} {empty : β} {size : β → Nat} {write : β → Bytes}
    (f : Nat) (hf : f < 16) : ∀ l : List β, (∀ x ∈ l, Codec istep empty size write x) → (l.flatMap (putMsg size write f)).length < 4294967296 →
      (l.flatMap (putMsg size write f)).length = (l.map (msgSize size)).sum := by
  intro l
  induction l with
  | nil => intro _ _; rfl
  | cons x l ih =>
    intro hc hl
    rw [List.flatMap_cons, List.length_append] at hl
    rw [List.flatMap_cons, List.length_append, List.map_cons, List.sum_cons, msg_length (hc x (by simp)) f hf (by omega),
      ih (fun y hy => hc y (by simp [hy])) (by omega)]

theorem opt_le (put : β → Bytes) (o : Option β) (b : β) (h : o = some b) : (put b).length ≤ (putOpt put o).length := by
  subst h; exact Nat.le_refl _

/-! ## The messages -/

theorem LabelPair.codec (l : LabelPair) : Codec LabelPair.step {} LabelPair.computeSize LabelPair.write l := by
  constructor
  · intro hl
    have hl' := hl
    simp only [LabelPair.write, List.length_append] at hl
    have h1 := opt_steps (step := LabelPair.step) (putStr 1) (fun s a => { a with name := some s }) l.name
      (fun s hs => str_steps 1 s (by omega) (by omega) (by have := putOpt_str_le 1 _ s hs; omega)
        fun a bs r hb => by simp [LabelPair.step, expect, hb])
    have h2 := opt_steps (step := LabelPair.step) (putStr 2) (fun s a => { a with value := some s }) l.value
      (fun s hs => str_steps 2 s (by omega) (by omega) (by have := putOpt_str_le 2 _ s hs; omega)
        fun a bs r hb => by simp [LabelPair.step, expect, hb])
    have h := (h1.append h2).run {}
    rw [LabelPair.write, h]
    rcases l with ⟨_ | a, _ | b⟩ <;> rfl
  · intro hl
    simp only [LabelPair.write, List.length_append] at hl
    have h1 := opt_length (putStr 1) strSize l.name (fun s hs => putStr_length 1 s (by omega)
      (by have := putOpt_str_le 1 _ s hs; omega))
    have h2 := opt_length (putStr 2) strSize l.value (fun s hs => putStr_length 2 s (by omega)
      (by have := putOpt_str_le 2 _ s hs; omega))
    rw [LabelPair.write, LabelPair.computeSize, List.length_append, h1, h2]

theorem Number.codec (n : Number) : Codec Number.step {} Number.computeSize Number.write n := by
  constructor
  · intro hl
    have h1 := opt_steps (step := Number.step) (putDouble 1) (fun v _ => ⟨some v⟩) n.value
      (fun v _ => double_steps 1 v (by omega) (by omega) fun a bs r hb => by simp [Number.step, expect, hb])
    rw [Number.write, h1.run {}]
    rcases n with ⟨_ | a⟩ <;> rfl
  · intro hl
    exact opt_length (putDouble 1) (fun _ => 9) n.value (fun v _ => double_length 1 v (by omega))

theorem Quantile.codec (q : Quantile) : Codec Quantile.step {} Quantile.computeSize Quantile.write q := by
  constructor
  · intro hl
    have h1 := opt_steps (step := Quantile.step) (putDouble 1) (fun v a => { a with quantile := some v }) q.quantile
      (fun v _ => double_steps 1 v (by omega) (by omega) fun a bs r hb => by simp [Quantile.step, expect, hb])
    have h2 := opt_steps (step := Quantile.step) (putDouble 2) (fun v a => { a with value := some v }) q.value
      (fun v _ => double_steps 2 v (by omega) (by omega) fun a bs r hb => by simp [Quantile.step, expect, hb])
    rw [Quantile.write, (h1.append h2).run {}]
    rcases q with ⟨_ | a, _ | b⟩ <;> rfl
  · intro hl
    rw [Quantile.write, Quantile.computeSize, List.length_append,
      opt_length (putDouble 1) (fun _ => 9) q.quantile (fun v _ => double_length 1 v (by omega)),
      opt_length (putDouble 2) (fun _ => 9) q.value (fun v _ => double_length 2 v (by omega))]

theorem Bucket.codec (q : Bucket) : Codec Bucket.step {} Bucket.computeSize Bucket.write q := by
  constructor
  · intro hl
    have h1 := opt_steps (step := Bucket.step) (putU64 1) (fun v a => { a with cumulativeCount := some v }) q.cumulativeCount
      (fun v _ => u64_steps 1 v (by omega) (by omega) fun a bs r hb => by simp [Bucket.step, expect, hb])
    have h2 := opt_steps (step := Bucket.step) (putDouble 2) (fun v a => { a with upperBound := some v }) q.upperBound
      (fun v _ => double_steps 2 v (by omega) (by omega) fun a bs r hb => by simp [Bucket.step, expect, hb])
    rw [Bucket.write, (h1.append h2).run {}]
    rcases q with ⟨_ | a, _ | b⟩ <;> rfl
  · intro hl
    rw [Bucket.write, Bucket.computeSize, List.length_append,
      opt_length (putU64 1) u64Size q.cumulativeCount (fun v _ => u64_length 1 v (by omega)),
      opt_length (putDouble 2) (fun _ => 9) q.upperBound (fun v _ => double_length 2 v (by omega))]

theorem Summary.codec (s : Summary) : Codec Summary.step {} Summary.computeSize Summary.write s := by
  constructor
  · intro hl
    simp only [Summary.write, List.length_append] at hl
    have h1 := opt_steps (step := Summary.step) (putU64 1) (fun v a => { a with sampleCount := some v }) s.sampleCount
      (fun v _ => u64_steps 1 v (by omega) (by omega) fun a bs r hb => by simp [Summary.step, expect, hb])
    have h2 := opt_steps (step := Summary.step) (putDouble 2) (fun v a => { a with sampleSum := some v }) s.sampleSum
      (fun v _ => double_steps 2 v (by omega) (by omega) fun a bs r hb => by simp [Summary.step, expect, hb])
    have h3 := msgs_steps (step := Summary.step) (istep := Quantile.step) (empty := {}) (size := Quantile.computeSize) (write := Quantile.write)
      (fun l a => { a with quantile := a.quantile ++ l }) (fun a => by simp) (fun x l a => by simp) 3 (by omega) (by omega)
      (fun x a bs r hb => by simp only [Summary.step, expect, if_true, hb, Option.map_some]) s.quantile (fun x _ => x.codec) (by omega)
    rw [Summary.write, ((h1.append h2).append h3).run {}]
    rcases s with ⟨_ | a, _ | b, l⟩ <;> rfl
  · intro hl
    simp only [Summary.write, List.length_append] at hl
    rw [Summary.write, Summary.computeSize, List.length_append, List.length_append,
      opt_length (putU64 1) u64Size s.sampleCount (fun v _ => u64_length 1 v (by omega)),
      opt_length (putDouble 2) (fun _ => 9) s.sampleSum (fun v _ => double_length 2 v (by omega)),
      msgs_length 3 (by omega) s.quantile (fun x _ => x.codec) (by omega)]

theorem Histogram.codec (s : Histogram) : Codec Histogram.step {} Histogram.computeSize Histogram.write s := by
  constructor
  · intro hl
    simp only [Histogram.write, List.length_append] at hl
    have h1 := opt_steps (step := Histogram.step) (putU64 1) (fun v a => { a with sampleCount := some v }) s.sampleCount
      (fun v _ => u64_steps 1 v (by omega) (by omega) fun a bs r hb => by simp [Histogram.step, expect, hb])
    have h2 := opt_steps (step := Histogram.step) (putDouble 2) (fun v a => { a with sampleSum := some v }) s.sampleSum
      (fun v _ => double_steps 2 v (by omega) (by omega) fun a bs r hb => by simp [Histogram.step, expect, hb])
    have h3 := msgs_steps (step := Histogram.step) (istep := Bucket.step) (empty := {}) (size := Bucket.computeSize) (write := Bucket.write)
      (fun l a => { a with bucket := a.bucket ++ l }) (fun a => by simp) (fun x l a => by simp) 3 (by omega) (by omega)
      (fun x a bs r hb => by simp only [Histogram.step, expect, if_true, hb, Option.map_some]) s.bucket (fun x _ => x.codec) (by omega)
    rw [Histogram.write, ((h1.append h2).append h3).run {}]
    rcases s with ⟨_ | a, _ | b, l⟩ <;> rfl
  · intro hl
    simp only [Histogram.write, List.length_append] at hl
    rw [Histogram.write, Histogram.computeSize, List.length_append, List.length_append,
      opt_length (putU64 1) u64Size s.sampleCount (fun v _ => u64_length 1 v (by omega)),
      opt_length (putDouble 2) (fun _ => 9) s.sampleSum (fun v _ => double_length 2 v (by omega)),
      msgs_length 3 (by omega) s.bucket (fun x _ => x.codec) (by omega)]

theorem Metric.codec (m : Metric) (hv : m.Valid) : Codec Metric.step {} Metric.computeSize Metric.write m := by
  constructor
  · intro hl
    simp only [Metric.write, List.length_append] at hl
    have h1 := msgs_steps (step := Metric.step) (istep := LabelPair.step) (empty := {}) (size := LabelPair.computeSize) (write := LabelPair.write)
      (fun l a => { a with label := a.label ++ l }) (fun a => by simp) (fun x l a => by simp) 1 (by omega) (by omega)
      (fun x a bs r hb => by simp only [Metric.step, expect, if_true, hb, Option.map_some]) m.label (fun x _ => x.codec) (by omega)
    have h2 := opt_steps (step := Metric.step) (putMsg Number.computeSize Number.write 2) (fun v a => { a with gauge := some v }) m.gauge
      (fun v hv => msg_steps v.codec 2 (by omega) (by omega) (by have := opt_le (putMsg Number.computeSize Number.write 2) _ v hv; omega)
        fun a bs r hb => by simp only [Metric.step, expect, if_true, hb, Option.map_some])
    have h3 := opt_steps (step := Metric.step) (putMsg Number.computeSize Number.write 3) (fun v a => { a with counter := some v }) m.counter
      (fun v hv => msg_steps v.codec 3 (by omega) (by omega) (by have := opt_le (putMsg Number.computeSize Number.write 3) _ v hv; omega)
        fun a bs r hb => by simp only [Metric.step, expect, if_true, hb, Option.map_some])
    have h4 := opt_steps (step := Metric.step) (putMsg Summary.computeSize Summary.write 4) (fun v a => { a with summary := some v }) m.summary
      (fun v hv => msg_steps v.codec 4 (by omega) (by omega) (by have := opt_le (putMsg Summary.computeSize Summary.write 4) _ v hv; omega)
        fun a bs r hb => by simp only [Metric.step, expect, if_true, hb, Option.map_some])
    have h5 := opt_steps (step := Metric.step) (putMsg Number.computeSize Number.write 5) (fun v a => { a with untyped := some v }) m.untyped
      (fun v hv => msg_steps v.codec 5 (by omega) (by omega) (by have := opt_le (putMsg Number.computeSize Number.write 5) _ v hv; omega)
        fun a bs r hb => by simp only [Metric.step, expect, if_true, hb, Option.map_some])
    have h7 := opt_steps (step := Metric.step) (putMsg Histogram.computeSize Histogram.write 7) (fun v a => { a with histogram := some v }) m.histogram
      (fun v hv => msg_steps v.codec 7 (by omega) (by omega) (by have := opt_le (putMsg Histogram.computeSize Histogram.write 7) _ v hv; omega)
        fun a bs r hb => by simp only [Metric.step, expect, if_true, hb, Option.map_some])
    have h6 := opt_steps (step := Metric.step) (putI64 6) (fun v a => { a with timestampMs := some v })
      m.timestampMs (fun v hv' => i64_steps 6 v (by omega) (by omega) (hv v hv')
        fun a bs n r hb hn => by simp [Metric.step, expect, hb, hn])
    rw [Metric.write, ((((((h1.append h2).append h3).append h4).append h5).append h7).append h6).run {}]
    rcases m with ⟨l, _ | a, _ | b, _ | c, _ | d, _ | e, _ | f⟩ <;> rfl
  · intro hl
    simp only [Metric.write, List.length_append] at hl
    have h1 := msgs_length 1 (by omega) m.label (fun x _ => x.codec) (by omega)
    have h2 := opt_length (putMsg Number.computeSize Number.write 2) (msgSize Number.computeSize) m.gauge
      (fun v hv => msg_length v.codec 2 (by omega) (by have := opt_le (putMsg Number.computeSize Number.write 2) _ v hv; omega))
    have h3 := opt_length (putMsg Number.computeSize Number.write 3) (msgSize Number.computeSize) m.counter
      (fun v hv => msg_length v.codec 3 (by omega) (by have := opt_le (putMsg Number.computeSize Number.write 3) _ v hv; omega))
    have h4 := opt_length (putMsg Summary.computeSize Summary.write 4) (msgSize Summary.computeSize) m.summary
      (fun v hv => msg_length v.codec 4 (by omega) (by have := opt_le (putMsg Summary.computeSize Summary.write 4) _ v hv; omega))
    have h5 := opt_length (putMsg Number.computeSize Number.write 5) (msgSize Number.computeSize) m.untyped
      (fun v hv => msg_length v.codec 5 (by omega) (by have := opt_le (putMsg Number.computeSize Number.write 5) _ v hv; omega))
    have h7 := opt_length (putMsg Histogram.computeSize Histogram.write 7) (msgSize Histogram.computeSize) m.histogram
      (fun v hv => msg_length v.codec 7 (by omega) (by have := opt_le (putMsg Histogram.computeSize Histogram.write 7) _ v hv; omega))
    have h6 := opt_length (putI64 6) (fun v => 1 + varint64Size (ofI64 v)) m.timestampMs (fun v _ => varint64_put 6 v (by omega))
    simp only [Metric.write, Metric.computeSize, List.length_append, h1, h2, h3, h4, h5, h6, h7]

theorem type_ofI32 (t : MetricType) : MetricType.ofI32 t.value = some t := by cases t <;> rfl

theorem MetricFamily.steps (m : MetricFamily) (hv : m.Valid) :
    ∃ g, Steps MetricFamily.step m.write g ∧ g {} = m := by
  obtain ⟨hm, hl⟩ := hv
  simp only [MetricFamily.write, List.length_append] at hl
  have h1 := opt_steps (step := MetricFamily.step) (putStr 1) (fun s a => { a with name := some s }) m.name
    (fun s hs => str_steps 1 s (by omega) (by omega) (by have := putOpt_str_le 1 _ s hs; omega)
      fun a bs r hb => by simp [MetricFamily.step, expect, hb])
  have h2 := opt_steps (step := MetricFamily.step) (putStr 2) (fun s a => { a with help := some s }) m.help
    (fun s hs => str_steps 2 s (by omega) (by omega) (by have := putOpt_str_le 2 _ s hs; omega)
      fun a bs r hb => by simp [MetricFamily.step, expect, hb])
  have h3 := opt_steps (step := MetricFamily.step) (fun t => putTag 3 0 ++ varint t.value) (fun t a => { a with type := some t }) m.type
    (fun t _ => Steps.field (by omega) (by omega) (by omega) fun a rest => by
      have : t.value < 4294967296 := by cases t <;> decide
      simp only [MetricFamily.step, expect, if_true, readVarint32_varint _ rest this, Option.bind_some, type_ofI32, Option.map_some])
  have h4 := msgs_steps (step := MetricFamily.step) (istep := Metric.step) (empty := {}) (size := Metric.computeSize) (write := Metric.write)
    (fun l a => { a with metric := a.metric ++ l }) (fun a => by simp) (fun x l a => by simp) 4 (by omega) (by omega)
    (fun x a bs r hb => by simp only [MetricFamily.step, expect, if_true, hb, Option.map_some]) m.metric (fun x hx => x.codec (hm x hx)) (by omega)
  refine ⟨_, ((h1.append h2).append h3).append h4, ?_⟩
  rcases m with ⟨_ | a, _ | b, _ | c, l⟩ <;> rfl

theorem MetricFamily.write_length (m : MetricFamily) (hv : m.Valid) : m.write.length = m.computeSize := by
  obtain ⟨hm, hl⟩ := hv
  simp only [MetricFamily.write, List.length_append] at hl
  have h1 := opt_length (putStr 1) strSize m.name (fun s hs => putStr_length 1 s (by omega)
    (by have := putOpt_str_le 1 _ s hs; omega))
  have h2 := opt_length (putStr 2) strSize m.help (fun s hs => putStr_length 2 s (by omega)
    (by have := putOpt_str_le 2 _ s hs; omega))
  have h3 := opt_length (fun t : MetricType => putTag 3 0 ++ varint t.value) (fun t => 1 + varintSize t.value) m.type
    (fun t _ => by
      rw [List.length_append, putTag_length 3 0 (by omega) (by omega), varint_length]
      cases t <;> decide)
  have h4 := msgs_length 4 (by omega) m.metric (fun x hx => x.codec (hm x hx)) (by omega)
  simp only [MetricFamily.write, MetricFamily.computeSize, List.length_append, h1, h2, h3, h4]

/-! ## The layout -/

theorem writeExtras_append (a b : List (Nat × Extra)) : writeExtras (a ++ b) = writeExtras a ++ writeExtras b := by
  simp [writeExtras]

theorem writeExtras_field {γ : Type} (n : Nat) (f : γ → Extra) (put : γ → Bytes) (o : Option γ)
    (h : ∀ x, o = some x → put x = (f x).write n) : putOpt put o = writeExtras (field n f o) := by
  cases o with
  | none => rfl
  | some x => simpa [field, writeExtras, putOpt] using h x rfl

theorem writeExtras_repeated {γ : Type} (n : Nat) (f : γ → Extra) (put : γ → Bytes) : ∀ l : List γ,
    (∀ x ∈ l, put x = (f x).write n) → l.flatMap put = writeExtras (repeated n f l)
  | [], _ => rfl
  | x :: l, h => by
    have ih := writeExtras_repeated n f put l fun y hy => h y (by simp [hy])
    simp only [repeated, writeExtras, List.map_cons, List.flatMap_cons] at ih ⊢
    rw [ih, h x (by simp)]

theorem putStr_layout (f : Nat) (s : Str) : putStr f s = (string s).write f := by
  simp only [putStr, string, Extra.write, List.append_assoc]

theorem putDouble_layout (f : Nat) (v : UInt64) : putDouble f v = (double v).write f := rfl

theorem putMsg_layout {istep : Nat → Nat → β → Bytes → Option (β × Bytes)} {empty : β} {size : β → Nat} {write : β → Bytes} {x : β}
    {fs : List (Nat × Extra)} (hc : Codec istep empty size write x) (hw : (write x).length < 4294967296 → write x = writeExtras fs) (f : Nat)
    (hl : (putMsg size write f x).length < 4294967296) : putMsg size write f x = (message fs).write f := by
  simp only [putMsg, List.length_append] at hl
  rw [message, Extra.write, ← hw (by omega), hc.length (by omega), putMsg, List.append_assoc]

theorem mem_le {put : β → Bytes} {l : List β} {x : β} (h : x ∈ l) : (put x).length ≤ (l.flatMap put).length := by
  obtain ⟨a, b, rfl⟩ := List.append_of_mem h
  simp only [List.flatMap_append, List.flatMap_cons, List.length_append]; omega

theorem LabelPair.layout (l : LabelPair) : l.write = writeExtras l.fields := by
  rw [LabelPair.write, LabelPair.fields, writeExtras_append, writeExtras_field 1 string (putStr 1) l.name (fun s _ => putStr_layout 1 s),
    writeExtras_field 2 string (putStr 2) l.value (fun s _ => putStr_layout 2 s)]

theorem Number.layout (n : Number) : n.write = writeExtras n.fields :=
  writeExtras_field 1 double (putDouble 1) n.value fun _ _ => rfl

theorem Quantile.layout (q : Quantile) : q.write = writeExtras q.fields := by
  rw [Quantile.write, Quantile.fields, writeExtras_append, writeExtras_field 1 double (putDouble 1) q.quantile (fun _ _ => rfl),
    writeExtras_field 2 double (putDouble 2) q.value (fun _ _ => rfl)]

theorem Bucket.layout (b : Bucket) : b.write = writeExtras b.fields := by
  rw [Bucket.write, Bucket.fields, writeExtras_append,
    writeExtras_field 1 (fun v : UInt64 => Extra.number v.toNat) (putU64 1) b.cumulativeCount (fun _ _ => rfl),
    writeExtras_field 2 double (putDouble 2) b.upperBound (fun _ _ => rfl)]

theorem Summary.layout (s : Summary) (hl : s.write.length < 4294967296) : s.write = writeExtras s.fields := by
  simp only [Summary.write, List.length_append] at hl
  rw [Summary.write, Summary.fields, writeExtras_append, writeExtras_append,
    writeExtras_field 1 (fun v : UInt64 => Extra.number v.toNat) (putU64 1) s.sampleCount (fun _ _ => rfl),
    writeExtras_field 2 double (putDouble 2) s.sampleSum (fun _ _ => rfl),
    writeExtras_repeated 3 (fun q : Quantile => message q.fields) _ s.quantile (fun q hq => putMsg_layout q.codec (fun _ => q.layout) 3
      (by have := mem_le (put := putMsg Quantile.computeSize Quantile.write 3) hq; omega))]

theorem Histogram.layout (s : Histogram) (hl : s.write.length < 4294967296) : s.write = writeExtras s.fields := by
  simp only [Histogram.write, List.length_append] at hl
  rw [Histogram.write, Histogram.fields, writeExtras_append, writeExtras_append,
    writeExtras_field 1 (fun v : UInt64 => Extra.number v.toNat) (putU64 1) s.sampleCount (fun _ _ => rfl),
    writeExtras_field 2 double (putDouble 2) s.sampleSum (fun _ _ => rfl),
    writeExtras_repeated 3 (fun q : Bucket => message q.fields) _ s.bucket (fun q hq => putMsg_layout q.codec (fun _ => q.layout) 3
      (by have := mem_le (put := putMsg Bucket.computeSize Bucket.write 3) hq; omega))]

theorem ofI64_eq (t : Int) (h : InI64 t) : ofI64 t = if 0 ≤ t then t.toNat else (t + 18446744073709551616).toNat := by
  unfold InI64 at h; unfold ofI64; split <;> omega

theorem Metric.layout (m : Metric) (hv : m.Valid) (hl : m.write.length < 4294967296) : m.write = writeExtras m.fields := by
  simp only [Metric.write, List.length_append] at hl
  rw [Metric.write, Metric.fields, writeExtras_append, writeExtras_append, writeExtras_append, writeExtras_append, writeExtras_append,
    writeExtras_append,
    writeExtras_repeated 1 (fun q : LabelPair => message q.fields) _ m.label (fun q hq => putMsg_layout q.codec (fun _ => q.layout) 1
      (by have := mem_le (put := putMsg LabelPair.computeSize LabelPair.write 1) hq; omega)),
    writeExtras_field 2 (fun q : Number => message q.fields) (putMsg Number.computeSize Number.write 2) m.gauge
      (fun v hv => putMsg_layout v.codec (fun _ => v.layout) 2 (by have := opt_le (putMsg Number.computeSize Number.write 2) _ v hv; omega)),
    writeExtras_field 3 (fun q : Number => message q.fields) (putMsg Number.computeSize Number.write 3) m.counter
      (fun v hv => putMsg_layout v.codec (fun _ => v.layout) 3 (by have := opt_le (putMsg Number.computeSize Number.write 3) _ v hv; omega)),
    writeExtras_field 4 (fun q : Summary => message q.fields) (putMsg Summary.computeSize Summary.write 4) m.summary
      (fun v hv => putMsg_layout v.codec v.layout 4 (by have := opt_le (putMsg Summary.computeSize Summary.write 4) _ v hv; omega)),
    writeExtras_field 5 (fun q : Number => message q.fields) (putMsg Number.computeSize Number.write 5) m.untyped
      (fun v hv => putMsg_layout v.codec (fun _ => v.layout) 5 (by have := opt_le (putMsg Number.computeSize Number.write 5) _ v hv; omega)),
    writeExtras_field 7 (fun q : Histogram => message q.fields) (putMsg Histogram.computeSize Histogram.write 7) m.histogram
      (fun v hv => putMsg_layout v.codec v.layout 7 (by have := opt_le (putMsg Histogram.computeSize Histogram.write 7) _ v hv; omega)),
    writeExtras_field 6 (fun t : Int => Extra.number (if 0 ≤ t then t.toNat else (t + 18446744073709551616).toNat)) (putI64 6) m.timestampMs
      (fun t ht => by simp only [putI64, Extra.write, ofI64_eq t (hv t ht)])]

theorem MetricFamily.layout (m : MetricFamily) (hv : m.Valid) : m.write = writeExtras m.fields := by
  obtain ⟨hm, hl⟩ := hv
  simp only [MetricFamily.write, List.length_append] at hl
  rw [MetricFamily.write, MetricFamily.fields, writeExtras_append, writeExtras_append, writeExtras_append,
    writeExtras_field 1 string (putStr 1) m.name (fun s _ => putStr_layout 1 s),
    writeExtras_field 2 string (putStr 2) m.help (fun s _ => putStr_layout 2 s),
    writeExtras_field 3 (fun t : MetricType => Extra.number t.number) (fun t => putTag 3 0 ++ varint t.value) m.type
      (fun t _ => by cases t <;> rfl),
    writeExtras_repeated 4 (fun x : Metric => message x.fields) _ m.metric (fun x hx => putMsg_layout (x.codec (hm x hx)) (x.layout (hm x hx)) 4
      (by have := mem_le (put := putMsg Metric.computeSize Metric.write 4) hx; omega))]

end Verif.PromProto
