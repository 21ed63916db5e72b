import Verif.Spec.Net
import Verif.Lemmas.Pipeline
namespace Verif
namespace Net
open Pipeline (FilterCode after)
open Topology (Wiring)
variable {F : Type} [F64 F]

/-! ## Sending -/

/-- Events accepted in order. -/
def Node.pushAll (es : List (Event F)) (nd : Node F) : Node F := es.foldl (fun nd e => nd.push e) nd

theorem pushAll_filter (es : List (Event F)) : ∀ (f : FilterCode F) (n : Nat) (ch : List Str) (q : List (Event F)) (r : FilterRun F f.σ),
    (Node.filter f n ch q r).pushAll es = .filter f n ch (q ++ es) r := by
  induction es with
  | nil => intro f n ch q r; simp [Node.pushAll]
  | cons e es ih => intro f n ch q r; simpa [Node.pushAll, Node.push] using ih f n ch (q ++ [e]) r

theorem pushAll_sink (es : List (Event F)) : ∀ (k : SinkCode F) (n : Nat) (r : SinkRun F k.κ),
    (Node.sink k n r).pushAll es = .sink k n { r with queue := r.queue ++ es.map some } := by
  induction es with
  | nil => intro k n r; simp [Node.pushAll]
  | cons e es ih =>
    intro k n r
    have := ih k n { r with queue := r.queue ++ [some e] }
    simpa [Node.pushAll, Node.push] using this

theorem pushAll_append (a b : List (Event F)) (nd : Node F) :
    nd.pushAll (a ++ b) = (nd.pushAll a).pushAll b := by simp [Node.pushAll]

/-- Of several events sent one after the other, the first being send number `k`, those the queue has room for. -/
def keep {α : Type} (full : Nat → Bool) : Nat → List α → List α
  | _, [] => []
  | k, e :: es => if full k then keep full (k + 1) es else e :: keep full (k + 1) es

/-- The others. -/
def spill {α : Type} (full : Nat → Bool) : Nat → List α → List α
  | _, [] => []
  | k, e :: es => if full k then e :: spill full (k + 1) es else spill full (k + 1) es

theorem keep_append {α : Type} (full : Nat → Bool) (b : List α) : ∀ (a : List α) (k : Nat),
    keep full k (a ++ b) = keep full k a ++ keep full (k + a.length) b := by
  intro a
  induction a with
  | nil => intro k; simp [keep]
  | cons e a ih =>
    intro k
    have : k + 1 + a.length = k + (e :: a).length := by simp; omega
    simp only [List.cons_append, keep, ih, this]
    split <;> simp

theorem spill_append {α : Type} (full : Nat → Bool) (b : List α) : ∀ (a : List α) (k : Nat),
    spill full k (a ++ b) = spill full k a ++ spill full (k + a.length) b := by
  intro a
  induction a with
  | nil => intro k; simp [spill]
  | cons e a ih =>
    intro k
    have : k + 1 + a.length = k + (e :: a).length := by simp; omega
    simp only [List.cons_append, spill, ih, this]
    split <;> simp

theorem keep_spill_length {α : Type} (full : Nat → Bool) : ∀ (a : List α) (k : Nat),
    (keep full k a).length + (spill full k a).length = a.length := by
  intro a
  induction a with
  | nil => intro k; simp [keep, spill]
  | cons e a ih =>
    intro k
    have := ih (k + 1)
    simp only [keep, spill, List.length_cons]
    split <;> simp only [List.length_cons] <;> omega

theorem keep_spill_parted {α : Type} (full : Nat → Bool) : ∀ (a : List α) (k : Nat), Parted (keep full k a) (spill full k a) a := by
  intro a
  induction a with
  | nil => intro k; exact .nil
  | cons e a ih =>
    intro k
    simp only [keep, spill]
    split
    · exact .dropped e (ih _)
    · exact .kept e (ih _)

theorem Parted.append {α : Type} {a d c a' d' c' : List α} (h : Parted a d c) (h' : Parted a' d' c') :
    Parted (a ++ a') (d ++ d') (c ++ c') := by
  induction h with
  | nil => exact h'
  | kept x _ ih => exact .kept x ih
  | dropped x _ ih => exact .dropped x ih

theorem Parted.sublist {α : Type} {a d c : List α} (h : Parted a d c) : a.Sublist c ∧ d.Sublist c := by
  induction h with
  | nil => exact ⟨.slnil, .slnil⟩
  | kept x _ ih => exact ⟨ih.1.cons_cons x, ih.2.cons x⟩
  | dropped x _ ih => exact ⟨ih.1.cons x, ih.2.cons_cons x⟩

theorem Parted.none_dropped {α : Type} {a c : List α} (h : Parted a [] c) : a = c := by
  generalize hd : ([] : List α) = d at h
  induction h with
  | nil => rfl
  | kept x _ ih => rw [ih hd]
  | dropped x _ ih => cases hd

theorem Parted.all {α : Type} (a : List α) : Parted a [] a := by
  induction a with
  | nil => exact .nil
  | cons x a ih => exact .kept x ih

/-- Cut at an item that is not dropped. -/
theorem Parted.split {α : Type} {s : α} {y : List α} : ∀ {x a d : List α}, Parted a d (x ++ s :: y) → s ∉ d →
    ∃ a1 a2 d1 d2, a = a1 ++ s :: a2 ∧ d = d1 ++ d2 ∧ Parted a1 d1 x ∧ Parted a2 d2 y := by
  intro x
  induction x with
  | nil =>
    intro a d h hs
    cases h with
    | kept _ h => exact ⟨[], _, [], _, rfl, rfl, .nil, h⟩
    | dropped _ h => exact absurd List.mem_cons_self hs
  | cons z x ih =>
    intro a d h hs
    cases h with
    | kept _ h =>
      obtain ⟨a1, a2, d1, d2, e1, e2, h1, h2⟩ := ih h hs
      exact ⟨z :: a1, a2, d1, d2, by rw [e1]; rfl, e2, .kept z h1, h2⟩
    | dropped _ h =>
      obtain ⟨a1, a2, d1, d2, e1, e2, h1, h2⟩ := ih h fun hx => hs (List.mem_cons_of_mem _ hx)
      exact ⟨a1, a2, z :: d1, d2, e1, by rw [e2]; rfl, .dropped z h1, h2⟩

theorem keep_sublist {α : Type} (full : Nat → Bool) : ∀ (a : List α) (k : Nat), (keep full k a).Sublist a := by
  intro a
  induction a with
  | nil => intro k; exact List.nil_sublist _
  | cons e a ih =>
    intro k
    simp only [keep]
    split
    · exact (ih _).cons _
    · exact (ih _).cons_cons _

theorem keep_or_spill {α : Type} (full : Nat → Bool) {x : α} : ∀ {a : List α} (k : Nat), x ∈ a → x ∈ keep full k a ∨ x ∈ spill full k a := by
  intro a
  induction a with
  | nil => intro k h; cases h
  | cons e a ih =>
    intro k h
    simp only [keep, spill]
    rcases List.mem_cons.1 h with rfl | h
    · split <;> simp
    · have := ih (k + 1) h
      split
      · exact this.imp_right (List.mem_cons_of_mem _)
      · exact this.imp_left (List.mem_cons_of_mem _)

theorem keep_none {α : Type} {full : Nat → Bool} : ∀ {a : List α} {k : Nat}, spill full k a = [] → keep full k a = a := by
  intro a k h
  refine (keep_sublist full a k).eq_of_length ?_
  have := keep_spill_length full a k
  rw [h] at this
  simpa using this

theorem accept_nodes (p : Setup F) (s : State F) (x : Sender) (n : Str) (e : Event F) (m : Str) :
    (s.accept p x n e).nodes m = (s.nodes m).map (·.pushAll (keep (p.full m) (s.tries m) (if n = m then [e] else []))) := by
  unfold State.accept
  by_cases h : n = m
  · subst h
    cases hn : s.nodes n with
    | none => simp [hn]
    | some nd => cases hf : p.full n (s.tries n) <;> simp [put, Node.pushAll, keep, hf, hn]
  · cases hn : s.nodes n with
    | none => simp [h, Node.pushAll, keep]
    | some nd => cases hf : p.full n (s.tries n) <;> simp [put, Ne.symm h, h, Node.pushAll, keep]

theorem accept_log (p : Setup F) (s : State F) (x : Sender) (n : Str) (e : Event F) (m : Str) :
    (s.accept p x n e).log m = s.log m ++
      (if (s.nodes m).isSome then (keep (p.full m) (s.tries m) (if n = m then [e] else [])).map (x, ·) else []) := by
  unfold State.accept
  by_cases h : n = m
  · subst h
    cases hn : s.nodes n with
    | none => simp
    | some nd => cases hf : p.full n (s.tries n) <;> simp [put, keep, hf]
  · cases hn : s.nodes n with
    | none => simp [h, keep]
    | some nd => cases hf : p.full n (s.tries n) <;> simp [put, Ne.symm h, h, keep]

theorem accept_lost (p : Setup F) (s : State F) (x : Sender) (n : Str) (e : Event F) (m : Str) :
    (s.accept p x n e).lost m = s.lost m ++
      (if (s.nodes m).isSome then (spill (p.full m) (s.tries m) (if n = m then [e] else [])).map (x, ·) else []) := by
  unfold State.accept
  by_cases h : n = m
  · subst h
    cases hn : s.nodes n with
    | none => simp
    | some nd => cases hf : p.full n (s.tries n) <;> simp [put, spill, hf]
  · cases hn : s.nodes n with
    | none => simp [h, spill]
    | some nd => cases hf : p.full n (s.tries n) <;> simp [put, Ne.symm h, h, spill]

theorem accept_tries (p : Setup F) (s : State F) (x : Sender) (n : Str) (e : Event F) (m : Str) :
    (s.accept p x n e).tries m = s.tries m + (if (s.nodes m).isSome then (if n = m then [e] else []).length else 0) := by
  have h := keep_spill_length (p.full m) (if n = m then [e] else []) (s.tries m)
  have ht : s.tries m = (s.log m).length + (s.lost m).length := rfl
  simp only [State.tries] at h ⊢
  rw [accept_log, accept_lost]
  cases (s.nodes m).isSome
  · simp
  · simp only [if_true, List.length_append, List.length_map, ht]
    omega

theorem accept_rest (p : Setup F) (s : State F) (x : Sender) (n : Str) (e : Event F) :
    (s.accept p x n e).signalled = s.signalled ∧ (s.accept p x n e).told = s.told ∧
    (s.accept p x n e).ended = s.ended ∧ (s.accept p x n e).main = s.main := by
  unfold State.accept; repeat' split
  all_goals simp

/-- What sending does to a node's queue and the records: `es` is what is sent to it. -/
structure Sends (p : Setup F) (x : Sender) (m : Str) (es : List (Event F)) (s s' : State F) : Prop where
  nodes : s'.nodes m = (s.nodes m).map (·.pushAll (keep (p.full m) (s.tries m) es))
  log : s'.log m = s.log m ++ (if (s.nodes m).isSome then (keep (p.full m) (s.tries m) es).map (x, ·) else [])
  lost : s'.lost m = s.lost m ++ (if (s.nodes m).isSome then (spill (p.full m) (s.tries m) es).map (x, ·) else [])

theorem Sends.nil (p : Setup F) (x : Sender) (m : Str) (s : State F) : Sends p x m [] s s :=
  ⟨by simp [keep, Node.pushAll], by simp [keep], by simp [spill]⟩

theorem Sends.trans {p : Setup F} {x : Sender} {m : Str} {a b : List (Event F)} {s s' s'' : State F}
    (h1 : Sends p x m a s s') (h2 : Sends p x m b s' s'') : Sends p x m (a ++ b) s s'' := by
  have hi : (s'.nodes m).isSome = (s.nodes m).isSome := by rw [h1.nodes, Option.isSome_map]
  have ht : (s.nodes m).isSome = true → s'.tries m = s.tries m + a.length := by
    intro hs
    have h := keep_spill_length (p.full m) a (s.tries m)
    have e : s.tries m = (s.log m).length + (s.lost m).length := rfl
    simp only [State.tries] at h ⊢
    rw [h1.log, h1.lost, hs]
    simp only [if_true, List.length_append, List.length_map, e]
    omega
  cases hs : (s.nodes m).isSome with
  | false =>
    have hn : s.nodes m = none := by simpa using hs
    have hn' : s'.nodes m = none := by rw [h1.nodes, hn]; rfl
    refine ⟨by rw [h2.nodes, hn', hn]; rfl, ?_, ?_⟩
    · rw [h2.log, h1.log, hn', hn]; simp
    · rw [h2.lost, h1.lost, hn', hn]; simp
  | true =>
    have ht := ht hs
    refine ⟨?_, ?_, ?_⟩
    · rw [h2.nodes, h1.nodes, Option.map_map, ht, keep_append]
      congr 1
      funext nd
      simp only [Function.comp, pushAll_append]
    · rw [h2.log, h1.log, hi, hs, ht, keep_append]; simp
    · rw [h2.lost, h1.lost, hi, hs, ht, spill_append]; simp

theorem send_sends (p : Setup F) (x : Sender) (e : Event F) (ch : List Str) (m : Str) : ∀ (s : State F),
    Sends p x m (List.replicate (ch.count m) e) s (s.send p x ch e) := by
  induction ch with
  | nil => intro s; exact Sends.nil p x m s
  | cons n ch ih =>
    intro s
    have h1 : Sends p x m (if n = m then [e] else []) s (s.accept p x n e) :=
      ⟨accept_nodes p s x n e m, accept_log p s x n e m, accept_lost p s x n e m⟩
    have := h1.trans (ih (s.accept p x n e))
    have he : (if n = m then [e] else []) ++ List.replicate (ch.count m) e = List.replicate ((n :: ch).count m) e := by
      by_cases h : n = m
      · subst h; simp [List.replicate_succ]
      · simp [h, List.count_cons_of_ne h]
    rw [he] at this
    exact this

theorem send_rest (p : Setup F) (x : Sender) (e : Event F) (ch : List Str) : ∀ (s : State F),
    (s.send p x ch e).signalled = s.signalled ∧ (s.send p x ch e).told = s.told ∧
    (s.send p x ch e).ended = s.ended ∧ (s.send p x ch e).main = s.main := by
  induction ch with
  | nil => intro s; simp [State.send]
  | cons n ch ih =>
    intro s
    have : s.send p x (n :: ch) e = (s.accept p x n e).send p x ch e := rfl
    rw [this]
    obtain ⟨a, b, c, d⟩ := ih (s.accept p x n e)
    obtain ⟨a', b', c', d'⟩ := accept_rest p s x n e
    exact ⟨a.trans a', b.trans b', c.trans c', d.trans d'⟩

theorem sendAll_sends (p : Setup F) (x : Sender) (ch : List Str) (m : Str) (es : List (Event F)) : ∀ (s : State F),
    Sends p x m (es.flatMap (List.replicate (ch.count m))) s (s.sendAll p x ch es) := by
  induction es with
  | nil => intro s; exact Sends.nil p x m s
  | cons e es ih =>
    intro s
    exact (send_sends p x e ch m s).trans (ih (s.send p x ch e))

theorem sendAll_rest (p : Setup F) (x : Sender) (ch : List Str) (es : List (Event F)) : ∀ (s : State F),
    (s.sendAll p x ch es).signalled = s.signalled ∧ (s.sendAll p x ch es).told = s.told ∧
    (s.sendAll p x ch es).ended = s.ended ∧ (s.sendAll p x ch es).main = s.main := by
  induction es with
  | nil => intro s; simp [State.sendAll]
  | cons e es ih =>
    intro s
    have : s.sendAll p x ch (e :: es) = (s.send p x ch e).sendAll p x ch es := rfl
    rw [this]
    obtain ⟨a, b, c, d⟩ := ih (s.send p x ch e)
    obtain ⟨a', b', c', d'⟩ := send_rest p x e ch s
    exact ⟨a.trans a', b.trans b', c.trans c', d.trans d'⟩

/-! ## One step, seen from a node -/

/-- The node's own part in a step. -/
def base (l : Label F) (m : Str) (nd : Node F) : Node F :=
  match l with
  | .act n now => if m = n then (nd.act now).1 else nd
  | _ => nd

/-- What is sent to the node in a step. -/
def offered (p : Setup F) (s : State F) (l : Label F) (m : Str) : List (Event F) :=
  match l with
  | .act n now => match s.nodes n with
    | none => []
    | some nd => (nd.act now).2.flatMap (List.replicate (nd.channels.count m))
  | .emit i e => match p.wiring.sources[i]? with
    | none => []
    | some (_, ch) => if Event.isServed e ∧ i ∉ s.ended then List.replicate (ch.count m) e else []
  | .pulse idx => List.replicate (p.wiring.flush.count m) (.timerFlush idx)
  | .stop i => match p.wiring.sources[i]? with
    | none => []
    | some (_, ch) => if i ∈ s.told ∧ i ∉ s.ended then List.replicate (ch.count m) .shutdown else []
  | .signal => []
  | .main => []

/-- What the node's queue accepts in a step. -/
def arrive (p : Setup F) (s : State F) (l : Label F) (m : Str) : List (Event F) := keep (p.full m) (s.tries m) (offered p s l m)

theorem arrive_mem {p : Setup F} {s : State F} {l : Label F} {m : Str} {e : Event F} (h : e ∈ arrive p s l m) :
    e ∈ offered p s l m := (keep_sublist _ _ _).subset h

/-- Who sends in a step. -/
def sender : Label F → Sender
  | .act n _ => .filter n
  | .emit i _ => .source i
  | .stop i => .source i
  | _ => .timer

private theorem map_id_push (o : Option (Node F)) : o.map (fun nd => nd.pushAll []) = o := by
  cases o <;> rfl

theorem mainStep_nodes (p : Setup F) (s : State F) : (s.mainStep p).nodes = s.nodes := by
  unfold State.mainStep; repeat' split
  all_goals rfl

theorem mainStep_log (p : Setup F) (s : State F) : (s.mainStep p).log = s.log := by
  unfold State.mainStep; repeat' split
  all_goals rfl

theorem mainStep_lost (p : Setup F) (s : State F) : (s.mainStep p).lost = s.lost := by
  unfold State.mainStep; repeat' split
  all_goals rfl

/-- What a step does to the queue and the records of a node that it does not act on itself, or after it has acted. -/
theorem step_sends (p : Setup F) (s : State F) (l : Label F) (m : Str) :
    Sends p (sender l) m (offered p s l m) { s with nodes := fun m => (s.nodes m).map fun nd => base l m nd } (step p s l) := by
  have hid : ∀ s : State F, { s with nodes := fun m => (s.nodes m).map fun nd => nd } = s := by
    intro s
    have : (fun m => (s.nodes m).map fun nd => nd) = s.nodes := by funext m; cases s.nodes m <;> rfl
    rw [this]
  cases l with
  | act n now =>
    simp only [step, offered, sender]
    cases hn : s.nodes n with
    | none =>
      have : ({ s with nodes := fun m => (s.nodes m).map fun nd => base (.act n now) m nd } : State F) = s := by
        have : (fun m => (s.nodes m).map fun nd => base (.act n now) m nd) = s.nodes := by
          funext m
          simp only [base]
          by_cases h : m = n
          · subst h; simp [hn]
          · cases s.nodes m <;> simp [h]
        rw [this]
      rw [this]
      exact Sends.nil p _ m s
    | some nd =>
      have : ({ s with nodes := fun m => (s.nodes m).map fun nd => base (.act n now) m nd } : State F) =
          { s with nodes := put s.nodes n (nd.act now).1 } := by
        have : (fun m => (s.nodes m).map fun nd => base (.act n now) m nd) = put s.nodes n (some (nd.act now).1) := by
          funext m
          simp only [base, put]
          by_cases h : m = n
          · subst h; simp [hn]
          · cases s.nodes m <;> simp [h]
        rw [this]
      rw [this]
      exact sendAll_sends p _ _ m _ _
  | emit i e =>
    simp only [step, offered, sender, base, hid]
    cases p.wiring.sources[i]? with
    | none => exact Sends.nil p _ m s
    | some sc =>
      obtain ⟨a, ch⟩ := sc
      by_cases h : Event.isServed e = true ∧ i ∉ s.ended
      · simp only [h, not_false_eq_true, and_self, if_true]; exact send_sends p _ _ _ m s
      · simp only [h, if_false]; exact Sends.nil p _ m s
  | pulse idx => simp only [step, offered, sender, base, hid]; exact send_sends p _ _ _ m s
  | stop i =>
    simp only [step, offered, sender, base, hid]
    cases p.wiring.sources[i]? with
    | none => exact Sends.nil p _ m s
    | some sc =>
      obtain ⟨a, ch⟩ := sc
      by_cases h : i ∈ s.told ∧ i ∉ s.ended
      · simp only [h, not_false_eq_true, and_self, if_true]
        have := send_sends p (.source i) .shutdown ch m s
        exact ⟨this.nodes, this.log, this.lost⟩
      · simp only [h, if_false]; exact Sends.nil p _ m s
  | signal =>
    simp only [step, offered, sender, base, hid]
    have := Sends.nil p .timer m s
    exact ⟨this.nodes, this.log, this.lost⟩
  | main =>
    simp only [step, offered, sender, base, hid]
    have := Sends.nil p .timer m s
    exact ⟨by rw [mainStep_nodes]; exact this.nodes, by rw [mainStep_log]; exact this.log, by rw [mainStep_lost]; exact this.lost⟩

theorem step_nodes (p : Setup F) (s : State F) (l : Label F) (m : Str) :
    (step p s l).nodes m = (s.nodes m).map fun nd => (base l m nd).pushAll (arrive p s l m) := by
  rw [(step_sends p s l m).nodes, Option.map_map]; rfl

theorem step_log (p : Setup F) (s : State F) (l : Label F) (m : Str) :
    (step p s l).log m = s.log m ++
      (if (s.nodes m).isSome then (arrive p s l m).map (sender l, ·) else []) := by
  rw [(step_sends p s l m).log]; simp only [Option.isSome_map]; rfl

theorem step_lost (p : Setup F) (s : State F) (l : Label F) (m : Str) :
    (step p s l).lost m = s.lost m ++
      (if (s.nodes m).isSome then (spill (p.full m) (s.tries m) (offered p s l m)).map (sender l, ·) else []) := by
  rw [(step_sends p s l m).lost]; simp only [Option.isSome_map]; rfl

/-! ## One step, seen from `main` and the sources -/

theorem step_main (p : Setup F) (s : State F) (l : Label F) (h : l ≠ .main) : (step p s l).main = s.main := by
  cases l with
  | act n now =>
    simp only [step]; split
    · rfl
    · exact (sendAll_rest _ _ _ _ _).2.2.2
  | emit i e =>
    simp only [step]; repeat' split
    all_goals first | rfl | exact (send_rest _ _ _ _ _).2.2.2
  | pulse idx => exact (send_rest _ _ _ _ _).2.2.2
  | stop i =>
    simp only [step]; repeat' split
    all_goals first | rfl | exact (send_rest _ _ _ _ _).2.2.2
  | signal => rfl
  | main => exact absurd rfl h

theorem step_told (p : Setup F) (s : State F) (l : Label F) (h : l ≠ .main) : (step p s l).told = s.told := by
  cases l with
  | act n now =>
    simp only [step]; split
    · rfl
    · exact (sendAll_rest _ _ _ _ _).2.1
  | emit i e =>
    simp only [step]; repeat' split
    all_goals first | rfl | exact (send_rest _ _ _ _ _).2.1
  | pulse idx => exact (send_rest _ _ _ _ _).2.1
  | stop i =>
    simp only [step]; repeat' split
    all_goals first | rfl | exact (send_rest _ _ _ _ _).2.1
  | signal => rfl
  | main => exact absurd rfl h

theorem step_signalled (p : Setup F) (s : State F) (l : Label F) (h : s.signalled = true) :
    (step p s l).signalled = true := by
  cases l with
  | act n now =>
    simp only [step]; split
    · exact h
    · rw [(sendAll_rest _ _ _ _ _).1]; exact h
  | emit i e =>
    simp only [step]; repeat' split
    all_goals first | exact h | (rw [(send_rest _ _ _ _ _).1]; exact h)
  | pulse idx => simp only [step]; rw [(send_rest _ _ _ _ _).1]; exact h
  | stop i =>
    simp only [step]; repeat' split
    all_goals first | exact h | (simp only; rw [(send_rest _ _ _ _ _).1]; exact h)
  | signal => rfl
  | main => simp only [step, State.mainStep]; repeat' split
            all_goals first | exact h | rfl

/-- Only `stop` changes which sources have returned. -/
theorem step_ended (p : Setup F) (s : State F) (l : Label F) :
    (step p s l).ended = s.ended ∨ ∃ i sc, l = .stop i ∧ p.wiring.sources[i]? = some sc ∧ i ∈ s.told ∧ i ∉ s.ended ∧
      (step p s l).ended = i :: s.ended := by
  cases l with
  | act n now =>
    refine .inl ?_
    simp only [step]; split
    · rfl
    · exact (sendAll_rest _ _ _ _ _).2.2.1
  | emit i e =>
    refine .inl ?_
    simp only [step]; repeat' split
    all_goals first | rfl | exact (send_rest _ _ _ _ _).2.2.1
  | pulse idx => exact .inl (send_rest _ _ _ _ _).2.2.1
  | stop i =>
    cases h : p.wiring.sources[i]? with
    | none => exact .inl (by simp [step, h])
    | some sc =>
      by_cases h2 : i ∈ s.told ∧ i ∉ s.ended
      · exact .inr ⟨i, sc, rfl, h, h2.1, h2.2, by simp [step, h, h2]⟩
      · exact .inl (by simp only [step, h, h2, if_false])
  | signal => exact .inl rfl
  | main => refine .inl ?_; simp only [step, State.mainStep]; repeat' split
            all_goals rfl

end Net
end Verif
