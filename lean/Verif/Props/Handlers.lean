import Verif.Lemmas.Handlers
import Verif.Props.Fate
import Verif.Props.Avro
import Verif.Props.Native
import Verif.Props.Graphite
/-!
# C151: a stream handler that panics

Theorems range over every configuration and every schedule of the process and of the handler threads of its sources, with panics of any threads at any times.
-/
namespace Verif
open Topology
open Net (SetUp)
open Crash (Finished)
open Handlers (Setup Drains HandlerPanics SourcePanics)
variable {F : Type} [F64 F]

/-- **C151 (while it serves).**  A handler that panics changes nothing but its pool: the rest of the process does what it would do without handlers, under a schedule that is fair
if that of the process is, and that differs only in what sources that are shutting down do. -/
theorem C151_isolated (p : Setup F) (ls : Nat → Handlers.Label F) : ∃ ls' : Nat → Crash.Label F,
    (∀ t, (Handlers.run p ls t).proc = Crash.run p.proc ls' t) ∧ (∀ t l, ls t = .proc l → (∀ i, l ≠ .net (.stop i)) → ls' t = l) ∧
    (Drains p → Handlers.Fair p ls → Crash.Fair p.proc ls') := by
  refine ⟨Handlers.shadow p ls, Handlers.run_proc, fun t l hl hn => ?_, Handlers.shadow_fair⟩
  simp only [Handlers.shadow, hl]

/-- **C151 (the source).**  A source one of whose handlers panics at some time never returns, whatever happens before and after. -/
theorem C151_stuck (p : Setup F) (ls : Nat → Handlers.Label F) (i : Nat) (h : HandlerPanics p ls i) (t : Nat) :
    ¬ Finished (Handlers.run p ls t).proc (.source i) := by
  intro hend
  obtain ⟨u, hu⟩ := h
  obtain ⟨id, hid⟩ := List.exists_mem_of_ne_nil _ hu
  have he : i ∈ (Handlers.run p ls (max t u)).proc.net.ended := Handlers.ended_later (Nat.le_max_left _ _) hend
  obtain ⟨ids, hp⟩ := Handlers.ended_returned _ _ he
  have hc := Handlers.crashed_stable (Nat.le_max_right t u) hid
  rw [((Handlers.pool_inv _ i).returned ids hp).2.1] at hc
  cases hc

section
variable {c : Config} {p : Setup F} {ls : Nat → Handlers.Label F}

private theorem sourced (hd : Distinct c) (hp : SetUp c p.proc) (i : Nat) : i ∈ p.proc.stopOrder ↔ i < p.proc.wiring.sources.length := by
  rw [hp.stopOrder.mem_iff, Net.handles_all (Net.names hd hp.wired).2.2.1, List.mem_range]

private theorem panics_source {i : Nat} (h : HandlerPanics p ls i) : i < p.proc.wiring.sources.length := by
  obtain ⟨t, h⟩ := h
  induction t with
  | zero => exact absurd rfl h
  | succ t ih =>
    by_cases hc : ((Handlers.run p ls t).pools i).crashed = []
    · rcases Handlers.pool_step (p := p) (ls := ls) t i with g | ⟨l, g, ⟨l', -, -, hm⟩ | ⟨-, hs, hn⟩⟩
      · rw [g] at h; exact absurd hc h
      · cases l <;> simp [Handlers.may] at hm <;> first | exact hm.2 | exact hm.1.2
      · exfalso
        apply h
        unfold Handlers.next at hn
        split at hn <;> simp only [Option.some.injEq, reduceCtorEq] at hn <;> subst hn <;>
          simp only [Thread.step] at g <;> (repeat' split at g) <;>
          first
            | (simp at g; done)
            | (simp only [Option.some.injEq] at g; rw [← g]; exact hc)
    · exact ih hc

private theorem joining_ended (hd : Distinct c) (hp : SetUp c p.proc) {t i : Nat} (hi : i < p.proc.wiring.sources.length)
    (h : (∃ todo, (Handlers.run p ls t).proc.net.main = .joining todo) ∨ (Handlers.run p ls t).proc.net.main = .exited) :
    Finished (Handlers.run p ls t).proc (.source i) := by
  show i ∈ (Handlers.run p ls t).proc.net.ended
  rw [Handlers.run_proc, Crash.run_net] at h ⊢
  have key := Net.stopped (p := p.proc) (ls := Crash.shadow p.proc (Handlers.shadow p ls)) ((sourced hd hp i).2 hi) t
  rcases h with ⟨todo, h⟩ | h
  · exact key.2.1 todo h
  · exact key.2.2 h

end

/-- **C151 (the process).**  If a handler of any source panics at any time, then on a signal `main` panics while it shuts the sources down; it waits for no sink, whatever the sinks
have still to do. -/
theorem C151_aborts (c : Config) (hd : Distinct c) (p : Setup F) (hp : SetUp c p.proc) (hdr : Drains p) (ls : Nat → Handlers.Label F) (hf : Handlers.Fair p ls)
    (hsig : ∃ t, ls t = .proc (.net .signal)) (i : Nat) (h : HandlerPanics p ls i) :
    (∃ t, (Handlers.run p ls t).proc.aborted = true) ∧
    ∀ t todo, (Handlers.run p ls t).proc.net.main ≠ .joining todo ∧ (Handlers.run p ls t).proc.net.main ≠ .exited := by
  have hi := panics_source h
  have never := C151_stuck p ls i h
  have hend : ∀ t todo, (Handlers.run p ls t).proc.net.main ≠ .joining todo ∧ (Handlers.run p ls t).proc.net.main ≠ .exited :=
    fun t todo => ⟨fun e => never t (joining_ended hd hp hi (.inl ⟨todo, e⟩)), fun e => never t (joining_ended hd hp hi (.inr e))⟩
  refine ⟨?_, hend⟩
  obtain ⟨-, -, fate⟩ := C150_fate c hd p.proc hp (Handlers.shadow p ls) (Handlers.shadow_fair hdr hf) (by
    obtain ⟨t, ht⟩ := hsig
    exact ⟨t, by simp only [Handlers.shadow, ht]⟩)
  apply Classical.byContradiction
  intro hno
  have hno : ∀ t, ¬ Crash.Over (Crash.run p.proc (Handlers.shadow p ls) t) := by
    rintro t (h | h) <;> rw [← Handlers.run_proc] at h
    · exact (hend t []).2 h
    · exact hno ⟨t, h⟩
  obtain ⟨n, ⟨b, a, h1, h2, -⟩, -⟩ := fate.1 hno
  have hmem : Crash.Thread.source i ∈ b := by
    have h0 : Crash.Thread.source i ∈ p.proc.stopOrder.map Crash.Thread.source := List.mem_map.2 ⟨i, (sourced hd hp i).2 hi, rfl⟩
    have hsplit : p.proc.stopOrder.map Crash.Thread.source ++ p.proc.joinOrder.map Crash.Thread.node = b ++ .node n :: a := h1
    rcases List.append_eq_append_iff.1 hsplit with ⟨x, hx, -⟩ | ⟨x, hx, hy⟩
    · rw [hx]; exact List.mem_append_left _ h0
    · cases x with
      | nil => rw [hx] at h0; simpa using h0
      | cons y x =>
        simp only [List.cons_append, List.cons.injEq] at hy
        have : Crash.Thread.node n ∈ p.proc.stopOrder.map Crash.Thread.source := by rw [hx, hy.1]; simp
        simp at this
  obtain ⟨t, ht⟩ := h2 _ hmem
  rw [← Handlers.run_proc] at ht
  exact never t ht

/-- **C151 (exactly).**  If sources do not panic for other reasons, `main` gets as far as waiting for sinks iff no handler panics. -/
theorem C151_joins_iff (c : Config) (hd : Distinct c) (p : Setup F) (hp : SetUp c p.proc) (hdr : Drains p) (ls : Nat → Handlers.Label F) (hf : Handlers.Fair p ls)
    (hsig : ∃ t, ls t = .proc (.net .signal)) (hsrc : ¬ SourcePanics ls) :
    (∃ t todo, (Handlers.run p ls t).proc.net.main = .joining todo) ↔ ∀ i, ¬ HandlerPanics p ls i := by
  constructor
  · rintro ⟨t, todo, ht⟩ i h
    exact ((C151_aborts c hd p hp hdr ls hf hsig i h).2 t todo).1 ht
  · intro hnone
    have hlive : ∀ t i, .source i ∉ (Crash.run p.proc (Handlers.shadow p ls) t).dead := by
      intro t i hx
      obtain ⟨t0, -, h0, -⟩ := FilterPanic.dead_crash t hx
      unfold Handlers.shadow at h0
      cases hl : ls t0 with
      | pool a b => rw [hl] at h0; cases h0
      | proc l =>
        rw [hl] at h0
        cases l with
        | crash x => simp only at h0; cases h0; exact hsrc ⟨t0, i, hl⟩
        | net l =>
          cases l with
          | stop k =>
            by_cases hph : ((Handlers.run p ls t0).pools k).phase = .panicked
            · exact hnone k ⟨t0, (Handlers.pool_inv t0 k).panicked hph⟩
            · simp only at h0
              repeat' split at h0
              all_goals first | (cases h0; done) | (exact hph ‹_›)
          | _ => cases h0
    by_cases hab : ∃ t, (Crash.run p.proc (Handlers.shadow p ls) t).aborted = true
    · obtain ⟨t, ht⟩ := hab
      obtain ⟨x, hx, hw⟩ := Crash.aborted_awaited t ht
      refine ⟨t, ?_⟩
      rw [Handlers.run_proc]
      unfold Crash.awaited at hw
      split at hw
      · split at hw
        · cases hw; exact absurd hx (hlive t _)
        · cases hw
      · exact ⟨_, ‹_›⟩
      · cases hw
    · have hna : ∀ t, (Crash.run p.proc (Handlers.shadow p ls) t).aborted = false := fun t => by
        cases h : (Crash.run p.proc (Handlers.shadow p ls) t).aborted with
        | false => rfl
        | true => exact absurd ⟨t, h⟩ hab
      obtain ⟨t, ht, -⟩ := Crash.joins hd hp (Handlers.shadow_fair hdr hf) hna (by
        obtain ⟨t, ht⟩ := hsig
        exact ⟨t, by simp only [Handlers.shadow, ht]⟩) hlive
      exact ⟨t, _, by rw [Handlers.run_proc, Crash.run_net]; exact ht⟩

/-- **C151 (no handler is left behind).**  When a source has returned, all the handlers it ever spawned have, and none has panicked. -/
theorem C151_ended (p : Setup F) (ls : Nat → Handlers.Label F) (i t : Nat) (h : Finished (Handlers.run p ls t).proc (.source i)) :
    ((Handlers.run p ls t).pools i).running = [] ∧ ((Handlers.run p ls t).pools i).crashed = [] ∧
    ∀ id ∈ ((Handlers.run p ls t).pools i).spawned, id ∈ ((Handlers.run p ls t).pools i).reported := by
  obtain ⟨ids, hp⟩ := Handlers.ended_returned t i h
  have hinv := Handlers.pool_inv (p := p) (ls := ls) t i
  obtain ⟨h1, h2, h3⟩ := hinv.returned ids hp
  refine ⟨h1, h2, fun id hid => ?_⟩
  rw [hinv.spawned, List.mem_range] at hid
  rcases (hinv.all id).1 hid with g | g | g | g
  · rw [h1] at g; cases g
  · rw [h2] at g; cases g
  · rw [h3] at g; cases g
  · exact g

private theorem ended_stays (avroOk : Bytes → Bool) (c : Avro.Conn) (items : List Avro.Item) (h : c.ending ≠ .streaming) : c.run avroOk items = c := by
  cases items with
  | nil => rfl
  | cons i is => rw [Avro.Conn.run]; split <;> simp_all

private theorem run_append (avroOk : Bytes → Bool) (a b : List Avro.Item) : ∀ c : Avro.Conn, c.run avroOk (a ++ b) = (c.run avroOk a).run avroOk b := by
  induction a with
  | nil => intro c; rfl
  | cons i is ih =>
    intro c
    by_cases h : c.ending = .streaming
    · rw [List.cons_append, Avro.Conn.run, h, Avro.Conn.run, h]; exact ih _
    · rw [ended_stays _ c _ h, ended_stays _ c (i :: is) h, ended_stays _ c b h]

private theorem avro_dies {avroOk : Bytes → Bool} {cid : Nat} {pre post : List Avro.Item} {payload : Bytes} (hbad : ¬ ∃ f : Avro.Frame, f.Fits ∧ payload = f.encode)
    (hopen : (Avro.Conn.run avroOk { connectionId := cid } pre).ending = .streaming) :
    (Avro.Conn.run avroOk { connectionId := cid } (pre ++ .read (.ok payload) :: post)).ending = .panicked := by
  have h1 := (C67_exact_partial avroOk _ payload hopen).2 hbad
  rw [run_append, Avro.Conn.run, hopen]
  show (Avro.Conn.run avroOk ((Avro.Conn.run avroOk { connectionId := cid } pre).payload avroOk payload) post).ending = _
  rw [ended_stays _ _ _ (by rw [h1]; simp)]
  exact h1

/-- **C151 (one frame).**  A client of an avro source that sends one payload that is no frame, on a connection that is still open, has `main` panic at the next signal, and no sink is
waited for. -/
theorem C151_frame (c : Config) (hd : Distinct c) (p : Setup F) (hp : SetUp c p.proc) (hdr : Drains p) (ls : Nat → Handlers.Label F) (hf : Handlers.Fair p ls)
    (hsig : ∃ t, ls t = .proc (.net .signal)) (i id : Nat) (avroOk : Bytes → Bool) (cid : Nat) (pre post : List Avro.Item) (payload : Bytes)
    (hs : Handlers.ServesAvro p ls i id avroOk cid (pre ++ .read (.ok payload) :: post))
    (hopen : (Avro.Conn.run avroOk { connectionId := cid } pre).ending = .streaming) (hbad : ¬ ∃ f : Avro.Frame, f.Fits ∧ payload = f.encode) :
    (∃ t, (Handlers.run p ls t).proc.aborted = true) ∧ ∀ t todo, (Handlers.run p ls t).proc.net.main ≠ .joining todo ∧
      (Handlers.run p ls t).proc.net.main ≠ .exited := by
  obtain ⟨t, ht⟩ := hs.2 (avro_dies hbad hopen)
  exact C151_aborts c hd p hp hdr ls hf hsig i ⟨t, List.ne_nil_of_mem ht⟩

private theorem panics_at (avroOk : Bytes → Bool) (items : List Avro.Item) : ∀ c : Avro.Conn, c.ending = .streaming → (c.run avroOk items).ending = .panicked →
    ∃ pre payload post, items = pre ++ .read (.ok payload) :: post ∧ (c.run avroOk pre).ending = .streaming ∧ ¬ ∃ f : Avro.Frame, f.Fits ∧ payload = f.encode := by
  induction items with
  | nil => intro c h h'; simp [Avro.Conn.run, h] at h'
  | cons i is ih =>
    intro c h h'
    rw [Avro.Conn.run, h] at h'
    simp only at h'
    by_cases hs : (c.step avroOk i).ending = .streaming
    · obtain ⟨pre, payload, post, rfl, g2, g3⟩ := ih _ hs h'
      refine ⟨i :: pre, payload, post, rfl, ?_, g3⟩
      rw [Avro.Conn.run, h]; exact g2
    · rw [ended_stays _ _ _ hs] at h'
      cases i with
      | system => simp [Avro.Conn.step] at h'
      | read r =>
        cases r with
        | ok payload => exact ⟨[], payload, is, rfl, h, (C67_exact_partial avroOk c payload h).1 h'⟩
        | error e => cases e <;> simp [Avro.Conn.step, h] at h'

private theorem graphite_fine (ext : Graphite.Ext F) (now : Int) (lines : List Str) : ∀ res, Graphite.handleLines ext now lines res ≠ none := by
  induction lines with
  | nil => intro res h; cases h
  | cons l ls ih =>
    intro res h
    rw [Graphite.handleLines] at h
    have hnp := parseWords_no_panic ext now _ (Graphite.splitWhitespace ext.isSpace l) res (Nat.le_refl _)
    rw [show Graphite.parseGraphite ext now l res = Graphite.parseWords ext now (Graphite.splitWhitespace ext.isSpace l) res from rfl] at h
    revert h hnp
    rcases Graphite.parseWords ext now (Graphite.splitWhitespace ext.isSpace l) res with ⟨v, ms⟩
    intro h hnp
    cases v with
    | accepted =>
      simp only at h
      cases hr : Graphite.handleLines ext now ls [] with
      | none => exact ih [] hr
      | some r => rw [hr] at h; cases h
    | rejected => exact ih _ h
    | panicked => exact hnp rfl

/-- **C151 (clients).**  If handlers panic as their code has it and sources for no other reason, then after a signal `main` gets as far as waiting for sinks iff every payload that the clients
of the avro sources have sent on open connections is a frame.  Nothing that clients of native and graphite sources send makes a difference. -/
theorem C151_clients (c : Config) (hd : Distinct c) (p : Setup F) (hp : SetUp c p.proc) (hdr : Drains p) (ls : Nat → Handlers.Label F) (hf : Handlers.Fair p ls)
    (hsig : ∃ t, ls t = .proc (.net .signal)) (hsrc : ¬ SourcePanics ls)
    (hh : (F64.histNew (F := F) [F64.ofNat 1, F64.ofNat 10, F64.ofNat 100, F64.ofNat 1000]).isSome)
    (conn : Nat → Nat → Handlers.Connection F) (hs : Handlers.Serves p ls conn) :
    (∃ t todo, (Handlers.run p ls t).proc.net.main = .joining todo) ↔
    ∀ i id avroOk cid pre payload post, Handlers.Spawned p ls i id → conn i id = .avro avroOk cid (pre ++ .read (.ok payload) :: post) →
      (Avro.Conn.run avroOk { connectionId := cid } pre).ending = .streaming → ∃ f : Avro.Frame, f.Fits ∧ payload = f.encode := by
  rw [C151_joins_iff c hd p hp hdr ls hf hsig hsrc]
  constructor
  · intro hnone i id avroOk cid pre payload post h1 h2 h3
    apply Classical.byContradiction
    intro hbad
    refine hnone i ?_
    obtain ⟨t, ht⟩ := (hs i id).2 ⟨h1, by rw [h2]; exact avro_dies hbad h3⟩
    exact ⟨t, List.ne_nil_of_mem ht⟩
  · rintro hall i ⟨t, ht⟩
    obtain ⟨id, hid⟩ := List.exists_mem_of_ne_nil _ ht
    obtain ⟨h1, h2⟩ := (hs i id).1 ⟨t, hid⟩
    cases hc : conn i id with
    | native bits now fuel r => rw [hc] at h2; exact C82_no_panic bits now hh fuel r h2
    | graphite ext now lines => rw [hc] at h2; exact graphite_fine ext now lines [] h2
    | avro avroOk cid items =>
      rw [hc] at h2
      obtain ⟨pre, payload, post, rfl, g2, g3⟩ := panics_at avroOk items _ rfl h2
      exact g3 (hall i id avroOk cid pre payload post h1 hc g2)

/-! ### Cases that meet the hypotheses -/

/-- The example of C92, whose source has handlers. -/
private def pooled : Setup Int := ⟨forkedSetup, fun _ xs => xs.reverse⟩

/-- The source spawns three handlers; the second panics. -/
private def handlerDies (t : Nat) : Handlers.Label Int := match t with
  | 0 | 1 | 2 => .pool 0 .spawn
  | 3 => .pool 0 (.crash 1)
  | 40 => .pool 0 (.finish 2)
  | t => .proc (.net (rota t))

/-- The source spawns a handler, which returns after it has been told to. -/
private def handlerEnds (t : Nat) : Handlers.Label Int := match t with
  | 0 => .pool 0 .spawn
  | 40 => .pool 0 (.finish 0)
  | t => .proc (.net (rota t))

private theorem rota_pooled (ls : Nat → Handlers.Label Int) (N : Nat) (h : ∀ t, N ≤ t → ls t = .proc (.net (rota t)))
    (hh : ∀ i t, ∀ id ∈ ((Handlers.run pooled ls t).pools i).signalled, ∃ t' ≥ t, id ∉ ((Handlers.run pooled ls t').pools i).running ∨
      (Handlers.run pooled ls t').proc.aborted = true) : Handlers.Fair pooled ls := by
  have hf := forked_fair (fun t => .net (rota t)) 0 fun _ _ => rfl
  refine ⟨fun n hn t => ?_, fun i hi t => ?_, fun t => ?_, hh⟩
  · obtain ⟨u, h1, now, h2⟩ := hf.nodes n hn (max t N)
    exact ⟨u, by omega, now, by rw [h u (by omega), h2]⟩
  · obtain ⟨u, h1, h2⟩ := hf.sources i hi (max t N)
    exact ⟨u, by omega, by rw [h u (by omega), h2]⟩
  · obtain ⟨u, h1, h2⟩ := hf.main (max t N)
    exact ⟨u, by omega, by rw [h u (by omega), h2]⟩

private theorem pooled_drains : Drains pooled := fun _ xs => xs.reverse_perm

private theorem handlerDies_fair : Handlers.Fair pooled handlerDies := by
  refine rota_pooled _ 41 (fun t ht => ?_) fun i t id _ => ⟨max t 66, Nat.le_max_left _ _, .inr ?_⟩
  · unfold handlerDies
    split <;> first | omega | rfl
  · exact Handlers.aborted_later (t := 66) (Nat.le_max_right _ _) (by decide +kernel)

/-- One handler panics: `main` panics, and the first of its handlers is never told to shut down. -/
example : (∃ t, (Handlers.run pooled handlerDies t).proc.aborted = true) ∧
    ∀ t todo, (Handlers.run pooled handlerDies t).proc.net.main ≠ .joining todo ∧ (Handlers.run pooled handlerDies t).proc.net.main ≠ .exited :=
  C151_aborts forked (by decide) pooled forked_setUp pooled_drains handlerDies handlerDies_fair ⟨5, rfl⟩ 0 ⟨4, by decide +kernel⟩

example : ((Handlers.run pooled handlerDies 66).pools 0).running = [0] ∧ ((Handlers.run pooled handlerDies 66).pools 0).signalled = [2, 1] := by
  decide +kernel

/-- The same, of a client that sends three bytes. -/
example : (∃ t, (Handlers.run pooled handlerDies t).proc.aborted = true) ∧
    ∀ t todo, (Handlers.run pooled handlerDies t).proc.net.main ≠ .joining todo ∧ (Handlers.run pooled handlerDies t).proc.net.main ≠ .exited :=
  C151_frame forked (by decide) pooled forked_setUp pooled_drains handlerDies handlerDies_fair ⟨5, rfl⟩ 0 1 (fun _ => true) 7 [] [] [1, 2, 3]
    ⟨fun _ => by decide, fun _ => ⟨4, by decide +kernel⟩⟩ rfl (by
      have := C67_malformed_frame_panics_false (fun _ => true) { connectionId := 7 } [1, 2, 3] (by decide)
      exact (C67_exact_partial (fun _ => true) { connectionId := 7 } [1, 2, 3] rfl).1 this)

/-- The second handler serves an avro client that sends three bytes; the first a graphite client that sends no metric; the third a native client that sends nothing. -/
private def clients (_ id : Nat) : Handlers.Connection Int := match id with
  | 0 => .graphite { parseF := fun _ => none, parseI := fun _ => none, isSpace := (· == ' ') } 0 ["nothing at all".toList]
  | 1 => .avro (fun _ => true) 7 [.read (.ok [1, 2, 3])]
  | _ => .native { toBits := fun _ => 0, ofBits := fun _ => 0 } 0 3 { maxPayloadSize := 100 }

private theorem crashed_label (t i id : Nat) (h : id ∈ ((Handlers.run pooled handlerDies t).pools i).crashed) : ∃ t', handlerDies t' = .pool i (.crash id) := by
  induction t with
  | zero => cases h
  | succ t ih =>
    rcases Handlers.pool_step (p := pooled) (ls := handlerDies) t i with g | ⟨l, g, ⟨l', hl, hl', -⟩ | ⟨hl, hs, hn⟩⟩
    · rw [g] at h; exact ih h
    · have other : ∀ {s u : Thread.State}, Thread.step s l = some u → id ∈ u.crashed → id ∈ s.crashed ∨ l = .crash id := by
        intro s u hs hu
        cases l <;> simp only [Thread.step] at hs <;> (repeat' split at hs) <;>
          first
            | (simp at hs; done)
            | (simp only [Option.some.injEq] at hs; subst hs; first | exact .inl hu | (simp only [List.mem_cons] at hu; rcases hu with rfl | hu <;> simp [*]))
      rcases other g h with h' | h'
      · exact ih h'
      · exact ⟨t, by rw [hl, ← hl', h']⟩
    · refine ih ?_
      unfold Handlers.next at hn
      split at hn <;> simp only [Option.some.injEq, reduceCtorEq] at hn <;> subst hn <;>
        simp only [Thread.step] at g <;> (repeat' split at g) <;>
        first
          | (simp at g; done)
          | (simp only [Option.some.injEq] at g; rw [← g] at h; exact h)

private theorem clients_served : Handlers.Serves pooled handlerDies clients := by
  intro i id
  constructor
  · rintro ⟨t, ht⟩
    obtain ⟨t', h⟩ := crashed_label t i id ht
    unfold handlerDies at h
    split at h <;> cases h
    refine ⟨⟨4, by decide +kernel⟩, ?_⟩
    exact C67_malformed_frame_panics_false (fun _ => true) { connectionId := 7 } [1, 2, 3] (by decide)
  · rintro ⟨⟨t, h1⟩, h2⟩
    match id, h2 with
    | 0, h2 => exact absurd h2 (graphite_fine _ _ _ _)
    | 1, _ =>
      by_cases hi : i = 0
      · subst hi; exact ⟨4, by decide +kernel⟩
      · have untouched : ∀ t, ((Handlers.run pooled handlerDies t).pools i).spawned = [] := by
          intro t
          induction t with
          | zero => rfl
          | succ t ih =>
            rcases Handlers.pool_step (p := pooled) (ls := handlerDies) t i with g | ⟨l, -, ⟨l', hl, -⟩ | ⟨hl, -⟩⟩
            · rw [g, ih]
            · unfold handlerDies at hl
              split at hl <;> cases hl <;> exact absurd rfl hi
            · unfold handlerDies at hl
              split at hl <;> first | (cases hl; done) | skip
              simp only [rota, Handlers.Label.proc.injEq, Crash.Label.net.injEq] at hl
              split at hl <;> cases hl
              exact absurd rfl hi
        rw [untouched] at h1; cases h1
    | id + 2, h2 => exact absurd h2 (C82_no_panic _ _ (by decide) _ _)

/-- The first and the third client do no harm; because of the second, `main` never waits for sinks. -/
example : ¬ ∃ t todo, (Handlers.run pooled handlerDies t).proc.net.main = .joining todo := by
  intro h
  refine (C67_exact_partial (fun _ => true) { connectionId := 7 } [1, 2, 3] rfl).1 (C67_malformed_frame_panics_false (fun _ => true) { connectionId := 7 } [1, 2, 3] (by decide)) ?_
  exact (C151_clients forked (by decide) pooled forked_setUp pooled_drains handlerDies handlerDies_fair ⟨5, rfl⟩ (by
    rintro ⟨t, i, h⟩
    unfold handlerDies at h
    split at h <;> cases h) (by decide) clients clients_served).1 h 0 1 (fun _ => true) 7 [] [1, 2, 3] [] ⟨4, by decide +kernel⟩ rfl rfl

private theorem handlerEnds_serves : ∀ t ≥ 41, ((Handlers.run pooled handlerEnds t).pools 0).phase ≠ .serving ∧ ((Handlers.run pooled handlerEnds t).pools 0).running = [] := by
  intro t ht
  have h0 : ((Handlers.run pooled handlerEnds 41).pools 0).phase ≠ .serving ∧ ((Handlers.run pooled handlerEnds 41).pools 0).running = [] := by decide +kernel
  obtain ⟨h1, h2⟩ := Handlers.running_later h0.1 ht
  refine ⟨h1, List.eq_nil_iff_forall_not_mem.2 fun id hid => ?_⟩
  have := h2 id hid
  rw [h0.2] at this; cases this

private theorem handlerEnds_fair : Handlers.Fair pooled handlerEnds := by
  refine rota_pooled _ 41 (fun t ht => ?_) fun i t id hid => ?_
  · unfold handlerEnds
    split <;> first | omega | rfl
  · by_cases hi : i = 0
    · subst hi
      exact ⟨max t 41, Nat.le_max_left _ _, .inl (by rw [(handlerEnds_serves _ (Nat.le_max_right _ _)).2]; simp)⟩
    · have untouched : (Handlers.run pooled handlerEnds t).pools i = {} := by
        clear hid
        induction t with
        | zero => rfl
        | succ t ih =>
          rcases Handlers.pool_step (p := pooled) (ls := handlerEnds) t i with g | ⟨l, -, ⟨l', hl, -⟩ | ⟨hl, -⟩⟩
          · rw [g, ih]
          · unfold handlerEnds at hl
            split at hl <;> cases hl <;> exact absurd rfl hi
          · unfold handlerEnds at hl
            split at hl
            · cases hl
            · cases hl
            · simp only [rota, Handlers.Label.proc.injEq, Crash.Label.net.injEq] at hl
              split at hl <;> cases hl
              exact absurd rfl hi
      rw [untouched] at hid; cases hid

/-- No handler panics: `main` waits for sinks. -/
example : ∀ i, ¬ HandlerPanics pooled handlerEnds i :=
  (C151_joins_iff forked (by decide) pooled forked_setUp pooled_drains handlerEnds handlerEnds_fair ⟨5, rfl⟩ (by
    rintro ⟨t, i, h⟩
    unfold handlerEnds at h
    split at h <;> cases h)).1 ⟨65, [['k'], ['l'], ['f']], by decide +kernel⟩

/-- It had to wait for the handler first. -/
example : ((Handlers.run pooled handlerEnds 40).pools 0).phase = .joining 0 [] ∧ Finished (Handlers.run pooled handlerEnds 60).proc (.source 0) :=
  ⟨by decide +kernel, show 0 ∈ (Handlers.run pooled handlerEnds 60).proc.net.ended by decide +kernel⟩

end Verif
