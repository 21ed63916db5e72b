import Verif.Props.Wavefront
/-!
# C45: exactly which zero points are emitted, and where
-/
namespace Verif
open Wavefront
variable {F : Type} [F64 F]

private theorem spans {span d : Int} (hs : 0 < span) (hd : 0 ≤ d) : 1 < d.tdiv span ↔ 2 * span ≤ d := by
  rw [Int.tdiv_eq_ediv_of_nonneg hd]
  have h := Int.le_ediv_iff_mul_le (a := 2) (b := d) hs
  omega

private theorem linked_iff (ext : Ext F) (x : Telemetry F) (B : List (Telemetry F)) :
    linked ext (telemHash ext x) (B.map .telem) = true ↔ ∀ y ys, B = y :: ys → telemHash ext y = telemHash ext x := by
  cases B with
  | nil => simp [linked]
  | cons y ys => simp only [List.map_cons, linked, Pad.hash, decide_eq_true_eq, List.cons.injEq, and_imp]; exact ⟨fun h _ _ e _ => e ▸ of_decide_eq_true h, fun h => decide_eq_true (h y ys rfl rfl)⟩

/-- What is emitted for `x`, with the points `A` before it and `B` after it: padding for the time since the series was last seen, the point, padding for the
time up to the next point. -/
private def Chunk (ext : Ext F) (span : Int) (seen : LastSeen) (pc : PadControl) (A : List (Telemetry F)) (x : Telemetry F) (B : List (Telemetry F))
    (c : List (Pad F)) : Prop :=
  ∃ pre post, c = pre ++ .telem x :: post ∧
    (∀ l, pads pc x.kind = true → (∀ y ys, B = y :: ys → SameLine x y) → seen (telemHash ext x) = some l → 2 * span ≤ x.timestamp - l →
      (∀ a ∈ A, SameLine a x → a.timestamp ≤ l) → pre = [.zero x (l + 1), .zero x (x.timestamp - 1)]) ∧
    (pre ≠ [] → pads pc x.kind = true ∧ (∀ y ys, B = y :: ys → SameLine x y) ∧
      ∃ l, seen (telemHash ext x) = some l ∧ 2 * span ≤ x.timestamp - l ∧ ∀ a ∈ A, SameLine a x → a.timestamp ≤ l) ∧
    (∀ y ys, pads pc x.kind = true → B = y :: ys → SameLine x y → 2 * span ≤ y.timestamp - x.timestamp →
      (∀ l, seen (telemHash ext x) = some l → l < x.timestamp) → post = [.zero x (x.timestamp + 1), .zero y (y.timestamp - 1)]) ∧
    (post ≠ [] → pads pc x.kind = true ∧ ∃ y ys, B = y :: ys ∧ SameLine x y ∧ 2 * span ≤ y.timestamp - x.timestamp ∧
      ∀ l, seen (telemHash ext x) = some l → l < x.timestamp)

private theorem chunks (ext : Ext F) (span : Int) (seen : LastSeen) (pc : PadControl) (hs : 0 < span) (pts : List (Telemetry F)) (hash : HashOk ext pts)
    (order : InOrder pts) (rest : List (Telemetry F)) : ∀ (A : List (Telemetry F)) (fp : List Nat), pts = A ++ rest →
    (∀ z ∈ rest, telemHash ext z ∈ fp ↔ ∃ a ∈ A, SameLine a z ∧ pads pc a.kind = true ∧ ∃ l, seen (telemHash ext z) = some l ∧ l < a.timestamp) →
    ∃ cs : List (List (Pad F)), paddedS ext span seen pc fp (rest.map .telem) = cs.flatten ∧ cs.length = rest.length ∧
      ∀ A' x B, rest = A' ++ x :: B → ∃ c, cs[A'.length]? = some c ∧ Chunk ext span seen pc (A ++ A') x B c := by
  induction rest with
  | nil => intro A fp _ _; exact ⟨[], by simp [paddedS], rfl, by simp⟩
  | cons x B ih =>
    intro A fp hp hfp
    have hx : x ∈ pts := by rw [hp]; simp
    have hAx : ∀ a ∈ A, SameLine a x → a.timestamp < x.timestamp := by
      intro a ha hl
      have := order.1
      rw [hp, List.pairwise_append] at this
      exact this.2.2 a ha x (List.mem_cons_self ..) hl
    have hxB : ∀ y ∈ B, SameLine x y → x.timestamp < y.timestamp := by
      have := order.1
      rw [hp, List.pairwise_append] at this
      exact (List.pairwise_cons.1 this.2.1).1
    have hmem : ∀ y ∈ B, y ∈ pts := fun y hy => by rw [hp]; simp [hy]
    have sym : ∀ a ∈ pts, ∀ b ∈ pts, SameLine a b → SameLine b a := fun a ha b hb h => hash b hb a ha h.hash.symm
    have hlink : linked ext (telemHash ext x) (B.map .telem) = true ↔ ∀ y ys, B = y :: ys → SameLine x y := by
      rw [linked_iff]
      refine forall_congr' fun y => forall_congr' fun ys => forall_congr' fun e => ⟨fun h => hash x hx y (hmem y (by rw [e]; simp)) h.symm, fun h => h.hash.symm⟩
    have hgap : ∀ y ys, B = y :: ys → SameLine x y →
        gapPads ext span x (B.map .telem) = if 2 * span ≤ y.timestamp - x.timestamp then [.zero x (x.timestamp + 1), .zero y (y.timestamp - 1)] else [] := by
      intro y ys e hl
      have hlt := hxB y (by rw [e]; simp) hl
      have hab : ((x.timestamp - y.timestamp).natAbs : Int) = y.timestamp - x.timestamp := by omega
      have hsp := spans hs (d := y.timestamp - x.timestamp) (by omega)
      have hnn : 0 ≤ (y.timestamp - x.timestamp).tdiv span := Int.tdiv_nonneg (by omega) (by omega)
      subst e
      simp only [List.map_cons, gapPads, Pad.hash, hl.hash.symm, if_true, Pad.timestamp, hab, Pad.zeroAt]
      by_cases h2 : 2 * span ≤ y.timestamp - x.timestamp
      · have := hsp.2 h2
        rw [if_neg (by omega), if_pos h2]
      · have : ¬ 1 < (y.timestamp - x.timestamp).tdiv span := fun c => h2 (hsp.1 c)
        rw [if_pos (by omega), if_neg h2]
    have hgap0 : B = [] → gapPads ext span x (B.map .telem) = [] := by rintro rfl; rfl
    -- one chunk and the rest
    have finish : ∀ (c : List (Pad F)) (fp' : List Nat),
        paddedS ext span seen pc fp ((x :: B).map .telem) = c ++ paddedS ext span seen pc fp' (B.map .telem) →
        (∀ z ∈ B, telemHash ext z ∈ fp' ↔ (telemHash ext z ∈ fp ∨ (SameLine x z ∧ pads pc x.kind = true ∧
          ∃ l, seen (telemHash ext z) = some l ∧ l < x.timestamp))) → Chunk ext span seen pc A x B c →
        ∃ cs : List (List (Pad F)), paddedS ext span seen pc fp ((x :: B).map .telem) = cs.flatten ∧ cs.length = (x :: B).length ∧
          ∀ A' x' B', x :: B = A' ++ x' :: B' → ∃ c, cs[A'.length]? = some c ∧ Chunk ext span seen pc (A ++ A') x' B' c := by
      intro c fp' he hfp' hc
      obtain ⟨cs, h1, h2, h3⟩ := ih (A ++ [x]) fp' (by rw [hp]; simp) (by
        intro z hz
        rw [hfp' z hz, hfp z (by simp [hz])]
        constructor
        · rintro (⟨a, ha, h⟩ | h)
          · exact ⟨a, by simp [ha], h⟩
          · exact ⟨x, by simp, h⟩
        · rintro ⟨a, ha, h⟩
          rcases List.mem_append.1 ha with ha | ha
          · exact .inl ⟨a, ha, h⟩
          · rw [List.mem_singleton.1 ha] at h; exact .inr h)
      refine ⟨c :: cs, by rw [he, h1]; rfl, by simp [h2], fun A' x' B' e => ?_⟩
      cases A' with
      | nil =>
        simp only [List.nil_append, List.cons.injEq] at e
        obtain ⟨rfl, rfl⟩ := e
        exact ⟨c, rfl, by simpa using hc⟩
      | cons a A' =>
        simp only [List.cons_append, List.cons.injEq] at e
        obtain ⟨rfl, e⟩ := e
        obtain ⟨c', g1, g2⟩ := h3 A' x' B' e
        exact ⟨c', by simpa using g1, by simpa using g2⟩
    by_cases hc : (!pads pc x.kind) = true ∨ linked ext (telemHash ext x) (B.map .telem) = false
    · -- switched off, or another series follows
      refine finish [.telem x] fp (by simp only [List.map_cons, paddedS, skipPad_telem, if_pos hc]; rfl) (fun z hz => ⟨.inl, ?_⟩)
        ⟨[], [], rfl, fun l h1 h2 => ?_, fun h => absurd rfl h, fun y ys h1 h2 h3 => ?_, fun h => absurd rfl h⟩
      · rintro (h | ⟨h1, h2, -⟩)
        · exact h
        · exfalso
          rcases hc with hc | hc
          · simp [h2] at hc
          · cases B with
            | nil => simp [linked] at hc
            | cons y ys =>
              have hn : ¬ SameLine x y := by
                intro hl
                rw [hlink.2 (fun _ _ e => by rw [List.cons.injEq] at e; exact e.1 ▸ hl)] at hc
                simp at hc
              rcases List.mem_cons.1 hz with rfl | hz
              · exact hn h1
              · exact order.2 A x y ys hp hn z hz h1
      · rcases hc with hc | hc
        · simp [h1] at hc
        · rw [hlink.2 h2] at hc; simp at hc
      · rcases hc with hc | hc
        · simp [h1] at hc
        · rw [hlink.2 (fun y' ys' e => by rw [h2, List.cons.injEq] at e; exact e.1 ▸ h3)] at hc; simp at hc
    · have hon : pads pc x.kind = true := by
        cases h : pads pc x.kind with
        | true => rfl
        | false => exact absurd (.inl (by simp [h])) hc
      have hj : ∀ y ys, B = y :: ys → SameLine x y := hlink.1 (by
        cases h : linked ext (telemHash ext x) (B.map .telem) with
        | true => rfl
        | false => exact absurd (.inr h) hc)
      -- the part after the point
      have post : (∀ l, seen (telemHash ext x) = some l → l < x.timestamp) → ∀ post, post = gapPads ext span x (B.map .telem) →
          (∀ y ys, pads pc x.kind = true → B = y :: ys → SameLine x y → 2 * span ≤ y.timestamp - x.timestamp →
            (∀ l, seen (telemHash ext x) = some l → l < x.timestamp) → post = [.zero x (x.timestamp + 1), .zero y (y.timestamp - 1)]) ∧
          (post ≠ [] → pads pc x.kind = true ∧ ∃ y ys, B = y :: ys ∧ SameLine x y ∧ 2 * span ≤ y.timestamp - x.timestamp ∧
            ∀ l, seen (telemHash ext x) = some l → l < x.timestamp) := by
        rintro hl p rfl
        refine ⟨fun y ys _ e h3 h4 _ => by rw [hgap y ys e h3, if_pos h4], fun hne => ⟨hon, ?_⟩⟩
        cases hB : B with
        | nil => exact absurd (hgap0 hB) hne
        | cons y ys =>
          refine ⟨y, ys, rfl, hj y ys hB, ?_, hl⟩
          apply Classical.byContradiction
          intro h
          exact hne (by rw [hgap y ys hB (hj y ys hB), if_neg h])
      by_cases hin : telemHash ext x ∈ fp
      · obtain ⟨a, ha, h1, h2, l, h3, h4⟩ := (hfp x (List.mem_cons_self ..)).1 hin
        have hl : ∀ l, seen (telemHash ext x) = some l → l < x.timestamp := by
          intro l' hl'
          have := hAx a ha h1
          rw [h3, Option.some.injEq] at hl'
          omega
        obtain ⟨p1, p2⟩ := post hl _ rfl
        refine finish (.telem x :: gapPads ext span x (B.map .telem)) fp
          (by simp only [List.map_cons, paddedS, skipPad_telem, if_neg hc, if_pos hin]) (fun z hz => ⟨.inl, ?_⟩)
          ⟨[], _, rfl, fun l' _ _ g3 _ g5 => ?_, fun h => absurd rfl h, p1, p2⟩
        · rintro (h | ⟨h, -⟩)
          · exact h
          · rw [← h.hash]; exact hin
        · exfalso
          have := g5 a ha h1
          rw [h3, Option.some.injEq] at g3
          omega
      · cases hse : seen (telemHash ext x) with
        | none =>
          have hl : ∀ l, seen (telemHash ext x) = some l → l < x.timestamp := by simp [hse]
          obtain ⟨p1, p2⟩ := post hl _ rfl
          refine finish (.telem x :: gapPads ext span x (B.map .telem)) fp
            (by simp only [List.map_cons, paddedS, skipPad_telem, if_neg hc, if_neg hin, hse]) (fun z hz => ⟨.inl, ?_⟩)
            ⟨[], _, rfl, fun l' _ _ g3 => by rw [hse] at g3; simp at g3, fun h => absurd rfl h, p1, p2⟩
          rintro (h | ⟨h, -, l, g, -⟩)
          · exact h
          · rw [← h.hash, hse] at g; simp at g
        | some l =>
          by_cases hlt : x.timestamp > l
          · have hl : ∀ l, seen (telemHash ext x) = some l → l < x.timestamp := by
              intro l' h; rw [hse, Option.some.injEq] at h; omega
            have hearly : ∀ a ∈ A, SameLine a x → a.timestamp ≤ l := by
              intro a ha h
              apply Classical.byContradiction
              intro hn
              refine hin ((hfp x (List.mem_cons_self ..)).2 ⟨a, ha, h, ?_, l, hse, by omega⟩)
              rw [h.2]; exact hon
            obtain ⟨p1, p2⟩ := post hl _ rfl
            have hsp := spans hs (d := x.timestamp - l) (by omega)
            have hmem' : ∀ z ∈ B, telemHash ext z ∈ telemHash ext x :: fp ↔ (telemHash ext z ∈ fp ∨ (SameLine x z ∧ pads pc x.kind = true ∧
                ∃ l, seen (telemHash ext z) = some l ∧ l < x.timestamp)) := by
              intro z hz
              rw [List.mem_cons]
              constructor
              · rintro (h | h)
                · exact .inr ⟨hash x hx z (hmem z hz) h.symm, hon, l, by rw [h]; exact hse, by omega⟩
                · exact .inl h
              · rintro (h | ⟨h, -⟩)
                · exact .inr h
                · exact .inl h.hash.symm
            by_cases h2 : 2 * span ≤ x.timestamp - l
            · refine finish ([.zero x (l + 1), .zero x (x.timestamp - 1)] ++ .telem x :: gapPads ext span x (B.map .telem)) (telemHash ext x :: fp)
                (by simp only [List.map_cons, paddedS, skipPad_telem, if_neg hc, if_neg hin, hse, if_pos hlt, if_pos (hsp.2 h2)]) hmem'
                ⟨_, _, rfl, fun l' _ _ g3 _ _ => ?_, fun _ => ⟨hon, hj, l, hse, h2, hearly⟩, p1, p2⟩
              rw [hse, Option.some.injEq] at g3
              rw [g3]
            · refine finish (.telem x :: gapPads ext span x (B.map .telem)) (telemHash ext x :: fp)
                (by
                  have : ¬ (x.timestamp - l).tdiv span > 1 := fun c => h2 (hsp.1 c)
                  simp only [List.map_cons, paddedS, skipPad_telem, if_neg hc, if_neg hin, hse, if_pos hlt, if_neg this]; rfl) hmem'
                ⟨[], _, rfl, fun l' _ _ g3 g4 _ => ?_, fun h => absurd rfl h, p1, p2⟩
              rw [hse, Option.some.injEq] at g3
              omega
          · refine finish [.telem x] fp
              (by simp only [List.map_cons, paddedS, skipPad_telem, if_neg hc, if_neg hin, hse, if_neg hlt]; rfl) (fun z hz => ⟨.inl, ?_⟩)
              ⟨[], [], rfl, fun l' _ _ g3 g4 _ => ?_, fun h => absurd rfl h, fun y ys _ _ _ _ g => ?_, fun h => absurd rfl h⟩
            · rintro (h | ⟨h, -, l', g, g'⟩)
              · exact h
              · rw [← h.hash, hse, Option.some.injEq] at g; omega
            · rw [hse, Option.some.injEq] at g3; omega
            · have := g l hse; omega

/-- **C45, exactly.**  What is emitted for a store in order is, point by point: zero points right after the series was last seen and right before the point, the
point, zero points right after it and right before the next.  The first two are there exactly if padding is on for this kind, no point of another series
follows, the series was last seen two spans or more before and none of its points in between was emitted in this flush; the others exactly if padding is on and the
next point is of the same series, two spans or more later, and the point is newer than the series was last seen.  Partial: the property asks for the padding
whatever series follows (`C45_across_flushes_false`). -/
theorem C45_exact_partial (ext : Ext F) (pts : List (Telemetry F)) (span : Int) (seen : LastSeen) (pc : PadControl) (hs : 0 < span) (hash : HashOk ext pts)
    (order : InOrder pts) :
    ∃ chunks : List (List (Pad F)), padding ext pts span seen pc = chunks.flatten ∧ chunks.length = pts.length ∧
      ∀ A x B, pts = A ++ x :: B → ∃ pre post, chunks[A.length]? = some (pre ++ .telem x :: post) ∧
        (∀ l, pads pc x.kind = true → (∀ y ys, B = y :: ys → SameLine x y) → seen (telemHash ext x) = some l → 2 * span ≤ x.timestamp - l →
          (∀ a ∈ A, SameLine a x → a.timestamp ≤ l) → pre = [.zero x (l + 1), .zero x (x.timestamp - 1)]) ∧
        (pre ≠ [] → pads pc x.kind = true ∧ (∀ y ys, B = y :: ys → SameLine x y) ∧
          ∃ l, seen (telemHash ext x) = some l ∧ 2 * span ≤ x.timestamp - l ∧ ∀ a ∈ A, SameLine a x → a.timestamp ≤ l) ∧
        (∀ y ys, pads pc x.kind = true → B = y :: ys → SameLine x y → 2 * span ≤ y.timestamp - x.timestamp →
          (∀ l, seen (telemHash ext x) = some l → l < x.timestamp) → post = [.zero x (x.timestamp + 1), .zero y (y.timestamp - 1)]) ∧
        (post ≠ [] → pads pc x.kind = true ∧ ∃ y ys, B = y :: ys ∧ SameLine x y ∧ 2 * span ≤ y.timestamp - x.timestamp ∧
          ∀ l, seen (telemHash ext x) = some l → l < x.timestamp) := by
  rw [padding_eq]
  obtain ⟨cs, h1, h2, h3⟩ := chunks ext span seen pc hs pts hash order pts [] [] rfl (by simp)
  refine ⟨cs, h1, h2, fun A x B e => ?_⟩
  obtain ⟨c, g1, pre, post, rfl, g⟩ := h3 A x B e
  exact ⟨pre, post, g1, by simpa using g⟩

/-- Last seen at 1; now at 9, 20 and 21, then another series last: the gaps before 9 and between 9 and 20 are padded, and the other's since 1. -/
example : (padding wfExt [wfGauge "a" 2 9, wfGauge "a" 2 20, wfGauge "a" 2 21, wfGauge "bb" 1 9] 2 (fun _ => some 1) wfPadAll).map Pad.timestamp
    = [2, 8, 9, 10, 19, 20, 21, 2, 8, 9] := by decide

end Verif
