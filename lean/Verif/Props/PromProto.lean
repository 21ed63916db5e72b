import Verif.Lemmas.PromProto
/-! # C124: Prometheus messages survive encoding -/
namespace Verif
open PromProto Proto

/-- C124: whatever family of metrics is written can be read again, and is the same: names, help, type, labels with their order, numbers,
quantiles and buckets with theirs, and times. -/
theorem C124_survives (m : MetricFamily) (hv : m.Valid) : MetricFamily.parse m.write = some m := by
  obtain ⟨g, hs, hg⟩ := m.steps hv
  rw [MetricFamily.parse, hs.run {}, hg]

/-- C124: a metric by itself too. -/
theorem C124_metric (m : Metric) (hv : m.Valid) (hl : m.write.length < 4294967296) : Metric.parse m.write = some m :=
  (m.codec hv).read hl

/-- C124: what is written is laid out as resources/protobufs/prometheus.proto says, so that programs of other makers can read it. -/
theorem C124_layout (m : MetricFamily) (hv : m.Valid) : m.write = writeExtras m.fields := m.layout hv

/-- C124: the size announced is the size written. -/
theorem C124_size (m : MetricFamily) (hv : m.Valid) : m.computeSize = m.write.length := (m.write_length hv).symm

/-- C124: different families are written differently. -/
theorem C124_distinct (a b : MetricFamily) (ha : a.Valid) (hb : b.Valid) (h : a.write = b.write) : a = b := by
  have h1 := C124_survives a ha
  rw [h, C124_survives b hb] at h1
  injection h1 with h1
  exact h1.symm

/-- C124: fields of later versions of the protocol, before or after those known, change nothing. -/
theorem C124_later_fields (m : MetricFamily) (hv : m.Valid) (xs ys : List (Nat × Extra))
    (hx : ∀ x ∈ xs ++ ys, 4 < x.1 ∧ x.1 < 536870912 ∧ x.2.Valid) :
    MetricFamily.parse (writeExtras xs ++ m.write ++ writeExtras ys) = some m := by
  obtain ⟨g, hs, hg⟩ := m.steps hv
  have hu : ∀ zs : List (Nat × Extra), (∀ z ∈ zs, z ∈ xs ++ ys) → Steps MetricFamily.step (writeExtras zs) id := fun zs hz =>
    extras_steps zs fun z h => by
      obtain ⟨h1, h2, h3⟩ := hx z (hz z h)
      refine ⟨by omega, h2, fun w a bs => ?_, h3⟩
      obtain ⟨n, hn⟩ : ∃ n, z.1 = n + 5 := ⟨z.1 - 5, by omega⟩
      rw [hn]; rfl
  have h := ((hu xs fun z h => by simp [h]).append hs).append (hu ys fun z h => by simp [h])
  rw [MetricFamily.parse, h.run {}]
  exact congrArg some hg

/-! ## Beside the theorems: cases that meet their hypotheses -/

private def labels : List LabelPair := [⟨some ['h'], some ['a', 'é']⟩, ⟨some ['z'], none⟩]

/-- A family with a summary and a histogram, labels, and a time before 1970. -/
private def family : MetricFamily :=
  { name := some ['r', 't'], help := some [], type := some .summary,
    metric := [{ label := labels, summary := some ⟨some 300, some 7, [⟨some 1, some 2⟩, ⟨none, some 3⟩]⟩, timestampMs := some (-5) },
      { histogram := some ⟨some 18446744073709551615, none, [⟨some 0, some 1⟩]⟩, gauge := some ⟨some 4⟩, untyped := some ⟨none⟩ }, {}] }

private theorem family_valid : family.Valid := by
  refine ⟨?_, by decide +kernel⟩
  intro x hx t ht
  simp only [family, List.mem_cons, List.not_mem_nil, or_false] at hx
  rcases hx with rfl | rfl | rfl <;> simp at ht
  subst ht; decide

example : MetricFamily.parse family.write = some family := C124_survives family family_valid
example : family.computeSize = 124 ∧ family.write.length = 124 := by decide +kernel
example : MetricFamily.parse (writeExtras [(5, .number 300)] ++ family.write ++ writeExtras [(1000, .text [1, 2, 3])]) = some family :=
  C124_later_fields family family_valid [(5, .number 300)] [(1000, .text [1, 2, 3])] (by
    intro x hx
    simp only [List.cons_append, List.nil_append, List.mem_cons, List.not_mem_nil, or_false] at hx
    rcases hx with rfl | rfl <;> exact ⟨by decide, by decide, by simp [Extra.Valid]⟩)

end Verif
