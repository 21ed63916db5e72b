import Verif.Spec.FilterPanic
import Verif.Props.Crash
import Verif.Lemmas.NetSeveral
import Verif.Lemmas.NetFlow
namespace Verif.FilterPanic
open Crash
open Net (SetUp Setup)
open Topology
variable {F : Type} [F64 F] {p : Setup F} {ls : Nat → Crash.Label F}

/-- A thread is dead because it has panicked. -/
theorem dead_crash (t : Nat) {x : Thread} (hx : x ∈ (run p ls t).dead) :
    ∃ t0 < t, ls t0 = .crash x ∧ (run p ls (t0 + 1)).net = (run p ls t0).net ∧ x ∈ (run p ls (t0 + 1)).dead := by
  induction t with
  | zero => cases hx
  | succ t ih =>
    by_cases h : x ∈ (run p ls t).dead
    · obtain ⟨t0, h1, h2⟩ := ih h
      exact ⟨t0, by omega, h2⟩
    · refine ⟨t, by omega, ?_⟩
      have hx' := hx
      rw [run] at hx
      unfold step at hx
      split at hx
      · exact absurd hx h
      · rename_i ha
        split at hx
        · next y hy =>
          split at hx
          · next hr =>
            rcases List.mem_cons.1 hx with rfl | hx
            · refine ⟨hy, ?_, hx'⟩
              rw [run, hy]
              simp [step, ha, hr]
            · exact absurd hx h
          · exact absurd hx h
        · split at hx <;> exact absurd hx h
        · split at hx <;> exact absurd hx h

/-- If an event went in, a `Shutdown` comes out for a `Shutdown`. -/
theorem mem_expectedSent {σ : Type} (q : Process F σ) (ins : List (Int × Event F)) (st : σ) (h : ∃ i ∈ ins, i.2.isShutdown = true) :
    .shutdown ∈ expectedSent q st (ins.map some) := by
  induction ins generalizing st with
  | nil => obtain ⟨i, hi, -⟩ := h; cases hi
  | cons i ins ih =>
    obtain ⟨now, e⟩ := i
    by_cases he : e.isShutdown = true
    · cases e <;> simp [Event.isShutdown] at he
      simp [expectedSent]
    · have he : e.isShutdown = false := by simpa using he
      obtain ⟨i, hi, hs⟩ := h
      have hi : i ∈ ins := by
        rcases List.mem_cons.1 hi with rfl | hi
        · rw [hs] at he; cases he
        · exact hi
      rw [List.map_cons, expectedSent_event _ _ _ _ he]
      split
      · exact List.mem_append_right _ (ih _ ⟨i, hi, hs⟩)
      · exact List.mem_cons_of_mem _ (ih _ ⟨i, hi, hs⟩)

/-- What a source sends before a signal and is not lost, its receiver's queue has, and no `Shutdown` before it. -/
theorem emitted {c : Config} (hd : Distinct c) (hp : SetUp c p) {i : Nat} {s : Str} {ch : List Str} {f : Str} {e : Event F} {t : Nat}
    (hsrc : p.wiring.sources[i]? = some (s, ch)) (hch : f ∈ ch) (hchan : HasChannel c f) (hl : ls t = .net (.emit i e)) (he : Net.Event.isServed e = true)
    (hsig : ∀ t' < t, ls t' ≠ .net .signal) (hlive : ∀ i, .source i ∉ (run p ls t).dead) (hlost : (.source i, e) ∉ (run p ls (t + 1)).net.lost f) :
    ∃ a x b, (run p ls (t + 1)).net.log f = a ++ (x, e) :: b ∧ ∀ y ∈ a, y.2.isShutdown = false := by
  have hL := Net.linked hd hp.wired
  have hsh : ∀ t' < t, shadow p ls t' ≠ .signal := by
    intro t' ht' h
    unfold shadow at h
    split at h
    · cases h
    · rename_i l' hl'
      split at h
      · exact hsig t' ht' (by rw [hl', h])
      · cases h
  have hwait : (Net.run p (shadow p ls) t).main = .waiting := by
    cases hm : (Net.run p (shadow p ls) t).main with
    | waiting => rfl
    | _ =>
      obtain ⟨t', g1, g2⟩ := (Net.signal_seen (p := p) (ls := shadow p ls) t).1 ((Net.signal_seen t).2 (by rw [hm]; intro h; cases h))
      exact absurd g2 (hsh t' g1)
  have hab : (run p ls t).aborted = false := by
    cases ha : (run p ls t).aborted with
    | false => rfl
    | true =>
      obtain ⟨x, -, g⟩ := aborted_awaited t ha
      rw [run_net] at g
      simp [awaited, hwait] at g
  have htake : shadow p ls t = .emit i e := by
    refine shadow_live hl hab (fun x hx h => ?_) fun h => by cases h
    simp only [actor, Option.some.injEq] at h
    exact hlive i (h ▸ hx)
  have h0 := Net.some_of_channel hd hp.wired hchan
  have hmem : e ∈ Net.arrive p (Net.run p (shadow p ls) t) (shadow p ls t) f := by
    have hoff : e ∈ Net.offered p (Net.run p (shadow p ls) t) (shadow p ls t) f := by
      rw [htake]
      have hend := Net.none_ended (p := p) (ls := shadow p ls) hsh
      have : List.count f ch ≠ 0 := by
        have := List.count_pos_iff.2 hch
        omega
      simp [Net.offered, hsrc, he, hend, this]
    rcases Net.keep_or_spill (p.full f) ((Net.run p (shadow p ls) t).tries f) hoff with h | h
    · exact h
    · refine absurd ?_ hlost
      rw [run_net, Net.lost_succ h0]
      refine List.mem_append_right _ (List.mem_map.2 ⟨_, h, ?_⟩)
      rw [htake]; rfl
  obtain ⟨a, b, hab⟩ := List.append_of_mem hmem
  refine ⟨(Net.run p (shadow p ls) t).log f ++ a.map (Net.sender (shadow p ls t), ·), Net.sender (shadow p ls t),
    b.map (Net.sender (shadow p ls t), ·), ?_, ?_⟩
  · rw [run_net, Net.log_succ h0, hab]; simp
  · intro y hy
    have hq := Net.quiet_log (ls := shadow p ls) hL (fun m hm => hp.filters m ((C57_mutual c hd _ hp.wired).2.1 ▸ hm)) (t + 1) (fun t' ht' => by
      by_cases h : t' = t
      · subst h; rw [htake]; intro h; cases h
      · exact hsh t' (by omega)) f h0
    refine hq y ?_
    rw [Net.log_succ h0, hab]
    rcases List.mem_append.1 hy with hy | hy
    · exact List.mem_append_left _ hy
    · exact List.mem_append_right _ (by rw [List.map_append]; exact List.mem_append_left _ hy)

variable {c : Config} (hd : Distinct c) (hp : SetUp c p) {bad : Str → Event F → Prop} (hg : Governed p ls bad)
include hd hp hg

/-- Only filters panic. -/
theorem filters_only (t : Nat) : ∀ x ∈ (run p ls t).dead, ∃ g ∈ c.filters.map (·.1), x = .node g := by
  intro x hx
  obtain ⟨t0, -, h1, -⟩ := dead_crash t hx
  obtain ⟨f, e, rfl, h2, -⟩ := hg.only t0 x h1
  refine ⟨f, ?_, rfl⟩
  rw [← (C57_mutual c hd _ hp.wired).2.1]
  unfold next at h2
  split at h2
  · rename_i heq
    rw [run_net] at heq
    rcases Net.node_of t0 heq with ⟨ups, ch, _, _, g, -⟩ | ⟨ups, _, g, h⟩
    · exact List.mem_map.2 ⟨_, g, rfl⟩
    · cases h
  · cases h2

/-- What a filter has read, it can deal with. -/
theorem read_good {f : Str} {ups ch : List Str} (hf : (f, ups, ch) ∈ p.wiring.filters) (t : Nat) :
    ∃ ins q, (Net.run p (shadow p ls) t).nodes f = some (.filter (p.filter f) ups.length ch q
        (Pipeline.after (p.filter f).process ups.length { state := (p.filter f).start } ins)) ∧
      ((Net.run p (shadow p ls) t).log f).map (·.2) = ins.map (·.2) ++ q ∧ ∀ i ∈ ins, ¬ bad f i.2 := by
  have hL := Net.linked hd hp.wired
  have h0 : ((Net.initial p).nodes f).isSome := by rw [hL.filterNode f ups ch hf]; rfl
  induction t with
  | zero => exact ⟨[], [], hL.filterNode f ups ch hf, rfl, by simp⟩
  | succ t ih =>
    obtain ⟨ins, q, h1, h2, h3⟩ := ih
    have hlog : ((Net.run p (shadow p ls) (t + 1)).log f).map (·.2) =
        ins.map (·.2) ++ q ++ Net.arrive p (Net.run p (shadow p ls) t) (shadow p ls t) f := by
      rw [Net.log_succ h0, List.map_append, h2, List.map_map]
      simp [Function.comp_def]
    rcases Net.filter_step p _ (shadow p ls t) h1 with ⟨g, -⟩ | ⟨e, q0, now, g1, g2, g3, g4⟩
    · exact ⟨ins, _, g, by rw [hlog, List.append_assoc], h3⟩
    · subst g2
      refine ⟨ins ++ [(now, e)], q0 ++ Net.arrive p (Net.run p (shadow p ls) t) (shadow p ls t) f, ?_, ?_, ?_⟩
      · rw [Pipeline.after_snoc]; exact g4
      · rw [hlog]; simp
      · intro i hi
        rcases List.mem_append.1 hi with hi | hi
        · exact h3 i hi
        · simp only [List.mem_singleton] at hi
          subst hi
          -- the label took place
          have hsh : ls t = .net (.act f now) ∧ (run p ls t).aborted = false ∧ .node f ∉ (run p ls t).dead := by
            have hdead : .node f ∉ (run p ls t).dead := by
              intro hx
              have := shadow_dead hx (by rw [g1]; rfl)
              rw [g1] at this; cases this
            have hab : (run p ls t).aborted = false := by
              cases ha : (run p ls t).aborted with
              | false => rfl
              | true =>
                exfalso
                unfold shadow at g1
                split at g1
                · cases g1
                · simp [takes, ha, noop] at g1
            refine ⟨?_, hab, hdead⟩
            unfold shadow at g1
            split at g1
            · cases g1
            · rename_i l hl
              split at g1
              · rw [hl, g1]
              · cases g1
          refine hg.always t f now e hsh.1 hsh.2.1 hsh.2.2 ?_
          unfold next
          rw [run_net, h1]
          simp [g3]

end Verif.FilterPanic
